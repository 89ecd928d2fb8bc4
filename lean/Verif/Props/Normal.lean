import Verif.Proofs.Integrals
import Verif.Props.ResampleWitness
import Verif.Props.Support

/-!
# C07, C12: the pdf integrates to one
-/

namespace Kalepy

open MeasureTheory Matrix

variable {d : ℕ}

/-! ### Sums of kernels -/

lemma integral_listSum {α β : Type*} [MeasureSpace β] (l : List α) (f : α → β → ℝ) (hf : ∀ p ∈ l, Integrable (f p)) :
    Integrable (fun x => (l.map fun p => f p x).sum) ∧
      ∫ x, (l.map fun p => f p x).sum = (l.map fun p => ∫ x, f p x).sum := by
  induction l with
  | nil => simp
  | cons p l ih =>
    obtain ⟨h1, h2⟩ := ih fun q hq => hf q (List.mem_cons_of_mem _ hq)
    have hp := hf p List.mem_cons_self
    simp only [List.map_cons, List.sum_cons]
    exact ⟨hp.add h1, by rw [integral_add hp h1, h2]⟩

/-- The total of the weights of valid weighted data is positive. -/
lemma weighted_total_pos {E : Ext} {a : KDEArgs d} {k : KDE d} (h : KDE.init E a = .ok k) :
    0 < ((Spec.weighted a.dataset k.weights).map Prod.snd).sum ∧
      ∀ p ∈ Spec.weighted a.dataset k.weights, 0 ≤ p.2 := by
  have hne : a.dataset ≠ [] := by
    obtain ⟨_, _, _, _, _, _, _, _, _, hne, _⟩ := init_inv h
    exact hne
  cases hk : k.weights with
  | none =>
    simp only [Spec.weighted, List.map_map, Function.comp_def]
    refine ⟨?_, ?_⟩
    · have : 0 < a.dataset.length := List.length_pos_of_ne_nil hne
      simpa using this
    · intro p hp
      obtain ⟨x, _, rfl⟩ := List.mem_map.mp hp
      norm_num
  | some w =>
    have hv := stored_valid h hk
    simp only [Spec.weighted]
    refine ⟨?_, ?_⟩
    · rw [List.map_snd_zip (by rw [hv.1])]
      exact (validW_sum hv)
    · rintro ⟨x, w'⟩ hp
      exact hv.2.1 _ (List.of_mem_zip hp).2

/-! ## C07 -/

/-- **C07.** After any history of calls, without reflection and with a positive definite kernel matrix, `pdf`
returns the values of one integrable function whose integral over the whole space is 1: for all four kernels, every
dimension, all data and weights. -/
theorem C07_normalised {E : Ext} {a : KDEArgs d} {k : KDE d} (h : KDE.init E a = .ok k) (srt : List ℝ → List ℕ)
    (hd : 0 < d) (hr : a.reflect = .none) (hM : (Spec.kernelMatrix k.covariance k.bandwidth).PosDef) :
    ∃ F : (Fin d → ℝ) → ℝ,
      (∀ (history : List (Spec.Call d)) (pts : List (Fin d → ℝ)),
        ((history.foldl (fun k c => (Spec.call E srt k c).2) k).pdf E srt (some (.rows (Spec.rowsOf pts)))
          .none .none false).1 = .ok (.rows (Spec.rowsOf pts), ⟨[pts.length], pts.map F⟩)) ∧
      Integrable F ∧ ∫ x, F x = 1 := by
  have hnorm := mul_pos (Real.sqrt_pos.mpr hM.det_pos) (k.kernel.dist.norm_pos d hd)
  obtain ⟨hw, _⟩ := weighted_total_pos h
  refine ⟨fun x => Spec.kernelSum k.kernel.dist (Spec.kernelMatrix k.covariance k.bandwidth)
            (Spec.weighted a.dataset k.weights) x
          / (Real.sqrt (Spec.kernelMatrix k.covariance k.bandwidth).det * k.kernel.dist.norm d)
          / ((Spec.weighted a.dataset k.weights).map Prod.snd).sum, fun history pts => ?_, ?_⟩
  · have hist := C14_history E srt h history (.pdf (some (.rows (Spec.rowsOf pts))) .none .none false)
    rw [Spec.call, Spec.call, Spec.Outcome.values.injEq] at hist
    rw [hist]
    exact (C02_kde_density h srt hd hr hM pts).2
  · obtain ⟨h1, h2⟩ := integral_listSum (Spec.weighted a.dataset k.weights)
      (fun p x => p.2 * Spec.shape k.kernel.dist (Spec.dist2 (Spec.kernelMatrix k.covariance k.bandwidth) (x - p.1)))
      fun p _ => (integrable_shape_dist2 hd _ hM p.1).const_mul p.2
    refine ⟨(h1.div_const _).div_const _, ?_⟩
    simp only [Spec.kernelSum]
    rw [integral_div, integral_div, h2]
    simp only [integral_const_mul, integral_shape_dist2 hd _ hM]
    rw [List.sum_map_mul_right]
    field_simp
    exact div_self hnorm.ne'

/-- Concrete case of the hypotheses (correlated kernel in the plane). -/
example : ∃ (E : Ext) (a : KDEArgs 2) (k : KDE 2), KDE.init E a = .ok k ∧ a.reflect = .none ∧
    (Spec.kernelMatrix k.covariance k.bandwidth).PosDef := by
  obtain ⟨k, hk, _, _, hM⟩ := unit_init ⟨fun A => A, id⟩ [![0, 1], ![2, 5]] (by simp) [1, 3]
    ⟨rfl, by simp, 1, by simp, by norm_num⟩ .triweight rfl
  exact ⟨_, _, k, hk, rfl, by rw [hM]; exact PosDef.one⟩

/-! ## C12 -/

/-- The region allowed by the boundaries. -/
def Spec.Allowed (rows : List ReflRow) : Set (Fin d → ℝ) := {x | ∀ i : Fin d, ¬ Spec.Violates (rows.getD i none) (x i)}

/-- Property C12, as stated: with reflecting boundaries (and all data inside of them) the pdf integrates to 1 over the
allowed region. -/
def C12_Claim : Prop :=
  ∀ (d : ℕ), 0 < d → ∀ (E : Ext) (srt : List ℝ → List ℕ) (a : KDEArgs d) (k : KDE d), KDE.init E a = .ok k →
    (Spec.kernelMatrix k.covariance k.bandwidth).PosDef → ∀ rows, k.reflect = some rows →
    (∀ x ∈ a.dataset, x ∈ Spec.Allowed rows) →
    ∃ F : (Fin d → ℝ) → ℝ,
      (∀ pts, (k.pdf E srt (some (.rows (Spec.rowsOf pts))) .none .none false).1
        = .ok (.rows (Spec.rowsOf pts), ⟨[pts.length], pts.map F⟩)) ∧
      ∫ x in Spec.Allowed rows, F x = 1

/-- Numbers that are inside the boundaries or whose mirror image in one boundary is. -/
def Spec.unfolded (lo hi : Option ℝ) : Set ℝ := {t | ∀ l h, lo = some l → hi = some h → 2 * l - h ≤ t ∧ t ≤ 2 * h - l}

/-- Numbers inside the boundaries. -/
def Spec.inside (lo hi : Option ℝ) : Set ℝ := {t | (∀ l, lo = some l → l ≤ t) ∧ ∀ h, hi = some h → t ≤ h}

lemma not_violates {lo hi : Option ℝ} {t : ℝ} : ¬ Spec.Violates (some (lo, hi)) t ↔ t ∈ Spec.inside lo hi := by
  simp only [Spec.Violates, Spec.inside, Set.mem_ofPred_eq]
  constructor
  · intro h
    refine ⟨fun l hl => ?_, fun u hu => ?_⟩
    · by_contra hc
      exact h ⟨lo, hi, rfl, Or.inl ⟨l, hl, lt_of_not_ge hc⟩⟩
    · by_contra hc
      exact h ⟨lo, hi, rfl, Or.inr ⟨u, hu, lt_of_not_ge hc⟩⟩
  · rintro ⟨h1, h2⟩ ⟨lo', hi', he, hv⟩
    simp only [Option.some.injEq, Prod.mk.injEq] at he
    obtain ⟨rfl, rfl⟩ := he
    rcases hv with ⟨l, hl, hlt⟩ | ⟨u, hu, hlt⟩
    · exact absurd (h1 l hl) (not_le.mpr hlt)
    · exact absurd (h2 u hu) (not_le.mpr hlt)

lemma measurable_inside (lo hi : Option ℝ) : MeasurableSet (Spec.inside lo hi) := by
  cases lo <;> cases hi
  · convert MeasurableSet.univ; ext t; simp [Spec.inside]
  · next h => convert (measurableSet_Iic (a := h)); ext t; simp [Spec.inside]
  · next l => convert (measurableSet_Ici (a := l)); ext t; simp [Spec.inside]
  · next l h => convert (measurableSet_Icc (a := l) (b := h)); ext t; simp [Spec.inside]

lemma measurable_unfolded (lo hi : Option ℝ) : MeasurableSet (Spec.unfolded lo hi) := by
  cases lo <;> cases hi
  · convert MeasurableSet.univ; ext t; simp [Spec.unfolded]
  · convert MeasurableSet.univ; ext t; simp [Spec.unfolded]
  · convert MeasurableSet.univ; ext t; simp [Spec.unfolded]
  · next l h => convert (measurableSet_Icc (a := 2 * l - h) (b := 2 * h - l)); ext t; simp [Spec.unfolded]

/-- A slab `{x | x i ∈ R}`. -/
def slab (i : Fin d) (R : Set ℝ) : Set (Fin d → ℝ) := {x | x i ∈ R}

lemma measurable_slab (i : Fin d) {R : Set ℝ} (hR : MeasurableSet R) : MeasurableSet (slab i R) :=
  measurable_pi_apply i hR

lemma dist2_neg (M : Matrix (Fin d) (Fin d) ℝ) (u : Fin d → ℝ) : Spec.dist2 M (-u) = Spec.dist2 M u := by
  simp [Spec.dist2, mulVec_neg]

/-- The mass of a mirrored kernel in a slab is the mass of the kernel in the mirrored slab. -/
lemma integral_mirror (D : Dist) (M : Matrix (Fin d) (Fin d) ℝ) (a : Fin d → ℝ) (i : Fin d) (b : ℝ) (R : Set ℝ) :
    ∫ x, (slab i R).indicator (fun x => Spec.shape D (Spec.dist2 M (x - Spec.mirror i b a))) x
      = ∫ x, (slab i {t | 2 * b - t ∈ R}).indicator (fun x => Spec.shape D (Spec.dist2 M (x - a))) x := by
  rw [← integral_sub_left_eq_self _ _ (fun j => a j + Spec.mirror i b a j)]
  congr 1
  funext y
  have hi : (((fun j => a j + Spec.mirror i b a j) - y) ∈ slab i R) ↔ y ∈ slab i {t | 2 * b - t ∈ R} := by
    simp only [slab, Set.mem_ofPred_eq, Pi.sub_apply, Spec.mirror, if_true]
    rw [show a i + (b - (a i - b)) - y i = 2 * b - y i by ring]
  have hv : (fun j => a j + Spec.mirror i b a j) - y - Spec.mirror i b a = -(y - a) := by
    funext j
    simp only [Pi.sub_apply, Pi.neg_apply]
    ring
  by_cases hy : y ∈ slab i {t | 2 * b - t ∈ R}
  · rw [Set.indicator_of_mem hy, Set.indicator_of_mem (hi.mpr hy), hv, dist2_neg]
  · rw [Set.indicator_of_notMem hy, Set.indicator_of_notMem (fun h => hy (hi.mp h))]

/-- Almost every number is inside, or exactly one of its mirror images is, or none. -/
lemma count_unfolded {lo hi : Option ℝ} (hlt : ∀ l h, lo = some l → hi = some h → l < h) {t : ℝ}
    (h1 : lo ≠ some t) (h2 : hi ≠ some t) (v : ℝ) :
    (Spec.inside lo hi).indicator (fun _ => v) t
      + ((lo.toList ++ hi.toList).map fun b => ({t | 2 * b - t ∈ Spec.inside lo hi} : Set ℝ).indicator (fun _ => v) t).sum
      = (Spec.unfolded lo hi).indicator (fun _ => v) t := by
  classical
  simp only [Set.indicator_apply, Spec.inside, Spec.unfolded, Set.mem_ofPred_eq]
  cases lo with
  | none =>
    cases hi with
    | none => simp
    | some h =>
      have : h ≠ t := fun e => h2 (by rw [e])
      rcases lt_or_gt_of_ne this with hc | hc
      · have e1 : ¬ t ≤ h := not_le.mpr hc
        have e2 : 2 * h - t ≤ h := by linarith
        simp [e1]
        intro; linarith
      · have e1 : t ≤ h := hc.le
        have e2 : ¬ 2 * h - t ≤ h := by linarith
        simp [e1]
        intro; linarith
  | some l =>
    cases hi with
    | none =>
      have : l ≠ t := fun e => h1 (by rw [e])
      rcases lt_or_gt_of_ne this with hc | hc
      · have e1 : l ≤ t := hc.le
        have e2 : ¬ l ≤ 2 * l - t := by linarith
        simp [e1]
        intro; linarith
      · have e1 : ¬ l ≤ t := not_le.mpr hc
        have e2 : l ≤ 2 * l - t := by linarith
        simp [e1]
        intro; linarith
    | some h =>
      have n1 : l ≠ t := fun e => h1 (by rw [e])
      have n2 : h ≠ t := fun e => h2 (by rw [e])
      have hlh := hlt l h rfl rfl
      have a1 : ((∀ l', some l = some l' → l' ≤ t) ∧ ∀ h', some h = some h' → t ≤ h') ↔ (l ≤ t ∧ t ≤ h) := by simp
      have a2 : ∀ b, ((∀ l', some l = some l' → l' ≤ 2 * b - t) ∧ ∀ h', some h = some h' → 2 * b - t ≤ h')
          ↔ (l ≤ 2 * b - t ∧ 2 * b - t ≤ h) := by simp
      have a3 : (∀ l' h', some l = some l' → some h = some h' → 2 * l' - h' ≤ t ∧ t ≤ 2 * h' - l')
          ↔ (2 * l - h ≤ t ∧ t ≤ 2 * h - l) := by simp
      simp only [a1, a2, a3, Option.toList_some, List.cons_append, List.nil_append, List.map_cons, List.map_nil,
        List.sum_cons, List.sum_nil, add_zero]
      rcases lt_or_gt_of_ne n1 with hc | hc
      · rcases lt_or_gt_of_ne n2 with hc' | hc'
        · rw [if_neg (by rintro ⟨_, _⟩; linarith), if_neg (by rintro ⟨_, _⟩; linarith)]
          by_cases hb : t ≤ 2 * h - l
          · rw [if_pos ⟨by linarith, by linarith⟩, if_pos ⟨by linarith, hb⟩]; ring
          · rw [if_neg (by rintro ⟨_, _⟩; exact hb (by linarith)), if_neg (by rintro ⟨_, h'⟩; exact hb h')]; ring
        · rw [if_pos ⟨hc.le, hc'.le⟩, if_neg (by rintro ⟨_, _⟩; linarith), if_neg (by rintro ⟨_, _⟩; linarith),
            if_pos ⟨by linarith, by linarith⟩]
          ring
      · rw [if_neg (by rintro ⟨_, _⟩; linarith)]
        by_cases hb : 2 * l - h ≤ t
        · rw [if_pos ⟨by linarith, by linarith⟩, if_neg (by rintro ⟨_, _⟩; linarith), if_pos ⟨hb, by linarith⟩]; ring
        · rw [if_neg (by rintro ⟨_, _⟩; exact hb (by linarith)), if_neg (by rintro ⟨_, _⟩; linarith),
            if_neg (by rintro ⟨h', _⟩; exact hb h')]
          ring

lemma mass_unfolded (hd : 0 < d) (D : Dist) {M : Matrix (Fin d) (Fin d) ℝ} (hM : M.PosDef) (a : Fin d → ℝ) (i : Fin d)
    {lo hi : Option ℝ} (hlt : ∀ l h, lo = some l → hi = some h → l < h) :
    (∫ x, (slab i (Spec.inside lo hi)).indicator (fun x => Spec.shape D (Spec.dist2 M (x - a))) x)
      + ((lo.toList ++ hi.toList).map fun b => ∫ x, (slab i (Spec.inside lo hi)).indicator
          (fun x => Spec.shape D (Spec.dist2 M (x - Spec.mirror i b a))) x).sum
      = ∫ x in slab i (Spec.unfolded lo hi), Spec.shape D (Spec.dist2 M (x - a)) := by
  have hI := integrable_shape_dist2 hd D hM a
  have hmr : ∀ b : ℝ, MeasurableSet {t | 2 * b - t ∈ Spec.inside lo hi} := fun b =>
    (measurable_const.sub measurable_id) (measurable_inside lo hi)
  simp only [integral_mirror]
  have hint : ∀ b ∈ lo.toList ++ hi.toList, Integrable ((slab i {t | 2 * b - t ∈ Spec.inside lo hi}).indicator
      fun x => Spec.shape D (Spec.dist2 M (x - a))) := fun b _ => hI.indicator (measurable_slab i (hmr b))
  obtain ⟨h1, h2⟩ := integral_listSum (lo.toList ++ hi.toList) _ hint
  rw [← h2, ← integral_add (hI.indicator (measurable_slab i (measurable_inside lo hi))) h1,
    ← integral_indicator (measurable_slab i (measurable_unfolded lo hi))]
  have hne : ∀ t : ℝ, ∀ᵐ x : Fin d → ℝ, x i ≠ t := fun t => by
    rw [volume_pi]; exact Measure.ae_eval_ne (fun _ : Fin d => (volume : Measure ℝ)) i t
  have hlo : ∀ᵐ x : Fin d → ℝ, lo ≠ some (x i) := by
    cases lo with
    | none => simp
    | some l => filter_upwards [hne l] with x hx h; cases h; exact hx rfl
  have hhi : ∀ᵐ x : Fin d → ℝ, hi ≠ some (x i) := by
    cases hi with
    | none => simp
    | some l => filter_upwards [hne l] with x hx h; cases h; exact hx rfl
  refine integral_congr_ae ?_
  filter_upwards [hlo, hhi] with x hx1 hx2
  exact count_unfolded hlt hx1 hx2 (Spec.shape D (Spec.dist2 M (x - a)))

lemma weighted_map {α β : Type*} (f : α → β) (data : List α) (w : Option (List ℝ)) :
    Spec.weighted (data.map f) w = (Spec.weighted data w).map fun p => (f p.1, p.2) := by
  cases w with
  | none => simp [Spec.weighted, Function.comp_def]
  | some w => simp only [Spec.weighted, List.zip_map_left]; rfl

/-- The density of one datum of the kernel with matrix `M`, around 0. -/
noncomputable def Spec.kernelDensity (D : Dist) (M : Matrix (Fin d) (Fin d) ℝ) (u : Fin d → ℝ) : ℝ :=
  Spec.shape D (Spec.dist2 M u) / (Real.sqrt M.det * D.norm d)

/-- **C12** with boundaries in one dimension `i` only, exactly: the integral of the pdf over the allowed region is the
weighted mean, over the data, of the mass that the (unreflected) kernel around the datum has in the region that is
inside the boundaries after at most one reflection. -/
theorem C12_mass {E : Ext} {a : KDEArgs d} {k : KDE d} (h : KDE.init E a = .ok k) (srt : List ℝ → List ℕ)
    (hd : 0 < d) (hM : (Spec.kernelMatrix k.covariance k.bandwidth).PosDef) (i : Fin d) (lo hi : Option ℝ)
    (hr : k.reflect = some (Spec.onlyDim i (lo, hi))) :
    ∃ F : (Fin d → ℝ) → ℝ,
      (∀ (history : List (Spec.Call d)) (pts : List (Fin d → ℝ)),
        ((history.foldl (fun k c => (Spec.call E srt k c).2) k).pdf E srt (some (.rows (Spec.rowsOf pts)))
          .none .none false).1 = .ok (.rows (Spec.rowsOf pts), ⟨[pts.length], pts.map F⟩)) ∧
      (∀ x, x ∉ Spec.Allowed (Spec.onlyDim i (lo, hi)) → F x = 0) ∧
      ∫ x in Spec.Allowed (Spec.onlyDim i (lo, hi)), F x
        = ((Spec.weighted a.dataset k.weights).map fun p => p.2 * ∫ x in {x | x i ∈ Spec.unfolded lo hi},
            Spec.kernelDensity k.kernel.dist (Spec.kernelMatrix k.covariance k.bandwidth) (x - p.1)).sum
          / ((Spec.weighted a.dataset k.weights).map Prod.snd).sum := by
  classical
  set M := Spec.kernelMatrix k.covariance k.bandwidth with hMdef
  set wd := Spec.weighted a.dataset k.weights with hwd
  have hlt : ∀ l u, lo = some l → hi = some u → l < u := by
    obtain ⟨rows, _, _, _, _, _, _, _, hr', hne, _, _, _, _, _, _, _, _, he⟩ := init_inv h
    rintro l u rfl rfl
    have e : rows = some (Spec.onlyDim i (some l, some u)) := by rw [← hr, he]
    rw [e] at hr'
    refine (C20_result _ hne _ _ hr').2 l u ?_
    simp only [Spec.onlyDim, List.mem_map]
    exact ⟨i, List.mem_finRange i, by simp⟩
  have hall : Spec.Allowed (Spec.onlyDim i (lo, hi)) = slab i (Spec.inside lo hi) := by
    ext x
    simp only [Spec.Allowed, slab, Set.mem_ofPred_eq, ← not_violates]
    constructor
    · intro hx
      have := hx i
      simpa [Spec.onlyDim] using this
    · intro hx j
      by_cases hj : j = i
      · subst hj
        simpa [Spec.onlyDim] using hx
      · simp [Spec.onlyDim, hj, Spec.Violates]
  have hmeas := measurable_slab (d := d) i (measurable_inside lo hi)
  let G : (Fin d → ℝ) → ℝ := fun x => (wd.map fun p => p.2 * (Spec.shape k.kernel.dist (Spec.dist2 M (x - p.1))
      + ((lo.toList ++ hi.toList).map fun b => Spec.shape k.kernel.dist (Spec.dist2 M (x - Spec.mirror i b p.1))).sum)).sum
  have hG : ∀ x, Spec.kernelSum k.kernel.dist M wd x + ((lo.toList ++ hi.toList).map fun b =>
      Spec.kernelSum k.kernel.dist M (Spec.weighted (a.dataset.map (Spec.mirror i b)) k.weights) x).sum = G x := by
    intro x
    simp only [weighted_map, ← hwd, G, Spec.kernelSum, List.map_map, Function.comp_def]
    generalize lo.toList ++ hi.toList = bs
    generalize wd = wd
    induction wd with
    | nil => simp
    | cons p l ih =>
      simp only [List.map_cons, List.sum_cons]
      rw [← ih, List.sum_map_add, List.sum_map_mul_left]
      ring
  refine ⟨fun x => (if Spec.Violates (some (lo, hi)) (x i) then 0 else G x / (Real.sqrt M.det * k.kernel.dist.norm d))
    / (wd.map Prod.snd).sum, ?_, ?_, ?_⟩
  · intro history pts
    have hist := C14_history E srt h history (.pdf (some (.rows (Spec.rowsOf pts))) .none .none false)
    rw [Spec.call, Spec.call, Spec.Outcome.values.injEq] at hist
    rw [hist]
    have h13 := C13_kde h srt hd hM i lo hi hr pts
    rw [kde_density_eq h srt hd] at h13
    rw [KDE.pdf, kde_density_eq h srt hd]
    obtain ⟨vals, hv1, hv2⟩ := map_ok h13
    rw [hv1]
    simp only [Bool.false_eq_true, if_false, Prod.mk.injEq, true_and, Arr.mk.injEq] at hv2
    have htot : k.totalWeight = (wd.map Prod.snd).sum := by
      have hds : k.dataset = a.dataset := by
        obtain ⟨_, _, _, _, _, _, _, _, _, _, _, _, _, _, _, _, _, _, he⟩ := init_inv h
        rw [he]
      unfold KDE.totalWeight
      cases hk : k.weights with
      | none => simp [hwd, hk, Spec.weighted, hds, Function.comp_def]
      | some w =>
        simp only [hwd, hk, Spec.weighted]
        rw [List.map_snd_zip (by rw [(stored_valid h hk).1])]
    simp only [Except.map, if_true]
    simp only [← hMdef, ← hwd, hG] at hv2
    rw [htot, hv2]
    simp only [List.map_map, Function.comp_def]
  · intro x hx
    have hv : Spec.Violates (some (lo, hi)) (x i) := by
      by_contra hc
      rw [not_violates] at hc
      rw [hall] at hx
      exact hx hc
    simp only [if_pos hv, zero_div]
  · have e1 : ∫ x in slab i (Spec.inside lo hi), (if Spec.Violates (some (lo, hi)) (x i) then 0
          else G x / (Real.sqrt M.det * k.kernel.dist.norm d)) / (wd.map Prod.snd).sum
        = ∫ x in slab i (Spec.inside lo hi), G x / (Real.sqrt M.det * k.kernel.dist.norm d) / (wd.map Prod.snd).sum := by
      refine setIntegral_congr_fun hmeas fun x hx => ?_
      have : ¬ Spec.Violates (some (lo, hi)) (x i) := not_violates.mpr hx
      simp only [if_neg this]
    rw [hall, e1, integral_div, integral_div, ← integral_indicator hmeas]
    let f : (Fin d → ℝ) × ℝ → (Fin d → ℝ) → ℝ := fun p x => p.2 *
      ((slab i (Spec.inside lo hi)).indicator (fun x => Spec.shape k.kernel.dist (Spec.dist2 M (x - p.1))) x
        + ((lo.toList ++ hi.toList).map fun b => (slab i (Spec.inside lo hi)).indicator
          (fun x => Spec.shape k.kernel.dist (Spec.dist2 M (x - Spec.mirror i b p.1))) x).sum)
    have hb : ∀ p : (Fin d → ℝ) × ℝ, Integrable (fun x => ((lo.toList ++ hi.toList).map fun b =>
          (slab i (Spec.inside lo hi)).indicator
          (fun x => Spec.shape k.kernel.dist (Spec.dist2 M (x - Spec.mirror i b p.1))) x).sum) ∧
        ∫ x, ((lo.toList ++ hi.toList).map fun b => (slab i (Spec.inside lo hi)).indicator
          (fun x => Spec.shape k.kernel.dist (Spec.dist2 M (x - Spec.mirror i b p.1))) x).sum
          = ((lo.toList ++ hi.toList).map fun b => ∫ x, (slab i (Spec.inside lo hi)).indicator
          (fun x => Spec.shape k.kernel.dist (Spec.dist2 M (x - Spec.mirror i b p.1))) x).sum := fun p =>
      integral_listSum _ _ fun b _ => (integrable_shape_dist2 hd _ hM _).indicator hmeas
    have hf : ∀ p, Integrable (f p) ∧ ∫ x, f p x = p.2 * ∫ x in slab i (Spec.unfolded lo hi),
        Spec.shape k.kernel.dist (Spec.dist2 M (x - p.1)) := by
      intro p
      have hI := (integrable_shape_dist2 hd k.kernel.dist hM p.1).indicator hmeas
      refine ⟨(hI.add (hb p).1).const_mul p.2, ?_⟩
      simp only [f]
      rw [integral_const_mul, integral_add hI (hb p).1, (hb p).2, mass_unfolded hd k.kernel.dist hM p.1 i hlt]
    have hind : ∀ x, (slab i (Spec.inside lo hi)).indicator G x = (wd.map fun p => f p x).sum := by
      intro x
      by_cases hx : x ∈ slab i (Spec.inside lo hi)
      · simp only [f, Set.indicator_of_mem hx]
        rfl
      · simp only [f, Set.indicator_of_notMem hx]
        simp
    simp only [hind]
    rw [(integral_listSum wd f fun p _ => (hf p).1).2]
    congr 1
    rw [div_eq_mul_inv, ← List.sum_map_mul_right]
    congr 1
    refine List.map_congr_left fun p _ => ?_
    rw [(hf p).2]
    simp only [Spec.kernelDensity, slab]
    rw [integral_div]
    ring

lemma kernelDensity_nonneg (hd : 0 < d) (D : Dist) (M : Matrix (Fin d) (Fin d) ℝ) (u : Fin d → ℝ) :
    0 ≤ Spec.kernelDensity D M u := by
  refine div_nonneg ?_ (mul_nonneg (Real.sqrt_nonneg _) (D.norm_pos d hd).le)
  cases D <;> simp only [Spec.shape]
  · positivity
  · split_ifs <;> norm_num
  · split_ifs <;> linarith
  · split_ifs with h
    · have : 0 ≤ 1 - Spec.dist2 M u := by linarith
      positivity
    · norm_num

lemma kernelDensity_integral (hd : 0 < d) (D : Dist) {M : Matrix (Fin d) (Fin d) ℝ} (hM : M.PosDef) (a : Fin d → ℝ) :
    Integrable (fun x => Spec.kernelDensity D M (x - a)) ∧ ∫ x, Spec.kernelDensity D M (x - a) = 1 := by
  refine ⟨(integrable_shape_dist2 hd D hM a).div_const _, ?_⟩
  simp only [Spec.kernelDensity]
  rw [integral_div, integral_shape_dist2 hd D hM]
  exact div_self (mul_pos (Real.sqrt_pos.mpr hM.det_pos) (D.norm_pos d hd)).ne'

/-- **C12**, an upper bound that always holds: with boundaries in one dimension the total mass is at most 1. -/
theorem C12_at_most_one {E : Ext} {a : KDEArgs d} {k : KDE d} (h : KDE.init E a = .ok k) (srt : List ℝ → List ℕ)
    (hd : 0 < d) (hM : (Spec.kernelMatrix k.covariance k.bandwidth).PosDef) (i : Fin d) (lo hi : Option ℝ)
    (hr : k.reflect = some (Spec.onlyDim i (lo, hi))) :
    ∃ F : (Fin d → ℝ) → ℝ,
      (∀ (history : List (Spec.Call d)) (pts : List (Fin d → ℝ)),
        ((history.foldl (fun k c => (Spec.call E srt k c).2) k).pdf E srt (some (.rows (Spec.rowsOf pts)))
          .none .none false).1 = .ok (.rows (Spec.rowsOf pts), ⟨[pts.length], pts.map F⟩)) ∧
      ∫ x in Spec.Allowed (Spec.onlyDim i (lo, hi)), F x ≤ 1 := by
  obtain ⟨F, h1, _, h3⟩ := C12_mass h srt hd hM i lo hi hr
  obtain ⟨hw, hwn⟩ := weighted_total_pos h
  refine ⟨F, h1, ?_⟩
  rw [h3, div_le_one hw]
  refine List.sum_le_sum fun p hp => ?_
  obtain ⟨g1, g2⟩ := kernelDensity_integral hd k.kernel.dist hM p.1
  have : ∫ x in {x | x i ∈ Spec.unfolded lo hi},
      Spec.kernelDensity k.kernel.dist (Spec.kernelMatrix k.covariance k.bandwidth) (x - p.1) ≤ 1 := by
    rw [← g2]
    exact setIntegral_le_integral g1 (Filter.Eventually.of_forall fun x => kernelDensity_nonneg hd _ _ _)
  have h0 := hwn p hp
  nlinarith

/-- **C12** where it holds: boundaries in one dimension `i` only, and either only one boundary, or a finite kernel
that reaches (from every datum) no further than one interval length beyond either boundary.

What is missing: two boundaries with wider kernels, and kernels reaching over a corner of boundaries in several dimensions (see `C12_dims_partial`); there the statement is false
(`C12_refuted`), because every datum is mirrored only once at each boundary and never at a corner. -/
theorem C12_reflect_partial {E : Ext} {a : KDEArgs d} {k : KDE d} (h : KDE.init E a = .ok k) (srt : List ℝ → List ℕ)
    (hd : 0 < d) (hM : (Spec.kernelMatrix k.covariance k.bandwidth).PosDef) (i : Fin d) (lo hi : Option ℝ)
    (hr : k.reflect = some (Spec.onlyDim i (lo, hi)))
    (hreach : ∀ l u, lo = some l → hi = some u → k.kernel.dist.finite = true ∧ ∀ x ∈ a.dataset,
      2 * l - u ≤ x i - Real.sqrt (Spec.kernelMatrix k.covariance k.bandwidth i i) ∧
      x i + Real.sqrt (Spec.kernelMatrix k.covariance k.bandwidth i i) ≤ 2 * u - l) :
    ∃ F : (Fin d → ℝ) → ℝ,
      (∀ (history : List (Spec.Call d)) (pts : List (Fin d → ℝ)),
        ((history.foldl (fun k c => (Spec.call E srt k c).2) k).pdf E srt (some (.rows (Spec.rowsOf pts)))
          .none .none false).1 = .ok (.rows (Spec.rowsOf pts), ⟨[pts.length], pts.map F⟩)) ∧
      ∫ x in Spec.Allowed (Spec.onlyDim i (lo, hi)), F x = 1 := by
  obtain ⟨F, h1, _, h3⟩ := C12_mass h srt hd hM i lo hi hr
  obtain ⟨hw, _⟩ := weighted_total_pos h
  refine ⟨F, h1, ?_⟩
  rw [h3, div_eq_one_iff_eq hw.ne']
  congr 1
  refine List.map_congr_left fun p hp => ?_
  obtain ⟨g1, g2⟩ := kernelDensity_integral hd k.kernel.dist hM p.1
  have hpd : p.1 ∈ a.dataset := by
    cases hk : k.weights with
    | none =>
      rw [hk] at hp
      obtain ⟨x, hx, rfl⟩ := List.mem_map.mp hp
      exact hx
    | some w =>
      rw [hk] at hp
      exact (List.of_mem_zip (show (p.1, p.2) ∈ _ from hp)).1
  rw [setIntegral_eq_integral_of_forall_compl_eq_zero, g2, mul_one]
  intro x hx
  simp only [Spec.unfolded, Set.mem_ofPred_eq, not_forall] at hx
  obtain ⟨l, u, hl, hu, hx⟩ := hx
  obtain ⟨hf, hd'⟩ := hreach l u hl hu
  obtain ⟨b1, b2⟩ := hd' p.1 hpd
  rw [Spec.kernelDensity, shape_eq_zero hf, zero_div]
  have hsq := sq_le_diag_mul_dist2 hM (x - p.1) i
  have hMi := hM.diag_pos (i := i)
  have hss := Real.sq_sqrt hMi.le
  have hs0 := Real.sqrt_nonneg (Spec.kernelMatrix k.covariance k.bandwidth i i)
  set s := Real.sqrt (Spec.kernelMatrix k.covariance k.bandwidth i i)
  have hlt : s ^ 2 < (x - p.1) i ^ 2 := by
    rw [Pi.sub_apply]
    by_cases hc : 2 * l - u ≤ x i
    · have : 2 * u - l < x i := by
        by_contra hcc
        exact hx ⟨hc, not_lt.mp hcc⟩
      nlinarith
    · nlinarith [not_le.mp hc]
  rw [hss] at hlt
  by_contra hc
  have := mul_le_mul_of_nonneg_left (not_lt.mp hc) hMi.le
  linarith

lemma nballVol_one : Dist.nballVol 1 = 2 := by
  have hg : Real.Gamma ((1:ℕ) / 2 + 1) = Real.sqrt Real.pi / 2 := by
    push_cast
    rw [Real.Gamma_add_one (by norm_num), Real.Gamma_one_half_eq]
    ring
  have hp : 0 < Real.sqrt Real.pi := Real.sqrt_pos.mpr Real.pi_pos
  rw [Dist.nballVol, hg]
  push_cast
  rw [← Real.sqrt_eq_rpow]
  field_simp

/-- **C12 is false of the code**: a datum at `1/8` between boundaries 0 and `1/4`, with a box kernel of width 1; the
total mass is at most `3/8`. -/
theorem C12_refuted : ¬ C12_Claim := by
  intro hC
  have h2 : ∀ lo hi : ℝ, some (some lo, some hi) ∈ Spec.onlyDim (0 : Fin 1) (some 0, some (1 / 4)) → lo < hi := by
    intro lo hi h
    simp [Spec.onlyDim] at h
    obtain ⟨rfl, rfl⟩ := h
    norm_num
  obtain ⟨k, hk, hw, hD, hM, hr, _, _⟩ := unit_init_reflect ⟨fun A => A, id⟩ ([![1 / 8]] : List (Fin 1 → ℝ)) (by simp) .box rfl
    (Spec.onlyDim (0 : Fin 1) (some 0, some (1 / 4))) (by simp [Spec.onlyDim]) h2
    ⟨(some 0, some (1 / 4)), by simp [Spec.onlyDim]⟩
  have hpd : (Spec.kernelMatrix k.covariance k.bandwidth).PosDef := by rw [hM]; exact PosDef.one
  obtain ⟨F, hF, hint⟩ := hC 1 one_pos _ (fun l => List.range l.length) _ k hk hpd _ hr (by
    intro x hx i
    rw [List.mem_singleton] at hx
    subst hx
    fin_cases i
    simp only [Spec.onlyDim, List.finRange_succ, List.finRange_zero, List.map_cons, List.map_nil, if_true]
    show ¬ Spec.Violates (some (some 0, some (1 / 4))) (1 / 8)
    rw [not_violates]
    simp [Spec.inside]
    norm_num)
  obtain ⟨F', hF', _, hint'⟩ := C12_mass hk (fun l => List.range l.length) one_pos hpd 0 (some 0) (some (1 / 4)) hr
  have hFF : F = F' := by
    funext x
    have e1 := hF [x]
    have e2 := hF' [] [x]
    simp only [List.foldl_nil] at e2
    rw [e1] at e2
    simpa using e2
  rw [hFF, hint', hw, hD, hM] at hint
  simp only [Spec.weighted, List.map_cons, List.map_nil, List.sum_cons, List.sum_nil, add_zero, one_mul, div_one] at hint
  have hset : {x : Fin 1 → ℝ | x 0 ∈ Spec.unfolded (some 0) (some (1 / 4))} = Set.univ.pi fun _ => Set.Icc (-(1 / 4)) (1 / 2) := by
    ext x
    have e1 : 2 * (0:ℝ) - 1 / 4 = -(1 / 4) := by norm_num
    have e2 : 2 * (1 / 4 : ℝ) - 0 = 1 / 2 := by norm_num
    simp only [Spec.unfolded, Set.mem_ofPred_eq, Option.some.injEq, Set.mem_univ_pi, Set.mem_Icc]
    constructor
    · intro h j
      have := h _ _ rfl rfl
      rw [e1, e2] at this
      fin_cases j
      exact this
    · rintro h l u rfl rfl
      rw [e1, e2]
      exact h 0
  have hvol : (volume : Measure (Fin 1 → ℝ)).real (Set.univ.pi fun _ => Set.Icc (-(1 / 4)) (1 / 2)) = 3 / 4 := by
    rw [Measure.real, volume_pi_pi]
    simp
    norm_num
  have hle : ∀ x : Fin 1 → ℝ, Spec.kernelDensity .box 1 (x - ![1 / 8]) ≤ 1 / 2 := by
    intro x
    simp only [Spec.kernelDensity, Matrix.det_one, Real.sqrt_one, one_mul, Dist.norm, nballVol_one, Spec.shape]
    split_ifs <;> norm_num
  have hfin : (volume : Measure (Fin 1 → ℝ)) (Set.univ.pi fun _ => Set.Icc (-(1 / 4)) (1 / 2)) < ⊤ := by
    rw [volume_pi_pi]
    simp
  rw [hset] at hint
  have := setIntegral_mono_on (g := fun _ => (1 / 2 : ℝ)) (kernelDensity_integral one_pos .box PosDef.one ![1 / 8]).1.integrableOn
    (integrableOn_const hfin.ne) (MeasurableSet.univ_pi fun _ => measurableSet_Icc) (fun x _ => hle x)
  rw [hint, setIntegral_const, hvol] at this
  norm_num at this

/-- Concrete case of the hypotheses of the C12 theorems: boundaries `[0, 10]` in the first of two dimensions, box
kernel of width 1 around two points. -/
example : ∃ (E : Ext) (a : KDEArgs 2) (k : KDE 2), KDE.init E a = .ok k ∧
    (Spec.kernelMatrix k.covariance k.bandwidth).PosDef ∧ k.reflect = some (Spec.onlyDim (0 : Fin 2) (some 0, some 10)) ∧
    k.kernel.dist.finite = true ∧ ∀ x ∈ a.dataset,
      2 * (0:ℝ) - 10 ≤ x 0 - Real.sqrt (Spec.kernelMatrix k.covariance k.bandwidth 0 0) ∧
      x 0 + Real.sqrt (Spec.kernelMatrix k.covariance k.bandwidth 0 0) ≤ 2 * 10 - 0 := by
  have h2 : ∀ lo hi : ℝ, some (some lo, some hi) ∈ Spec.onlyDim (0 : Fin 2) (some 0, some 10) → lo < hi := by
    intro lo hi h
    simp [Spec.onlyDim] at h
    obtain ⟨rfl, rfl⟩ := h
    norm_num
  obtain ⟨k, hk, hw, hD, hM, hr, _, _⟩ := unit_init_reflect ⟨fun A => A, id⟩ ([![0, 1], ![9, 5]] : List (Fin 2 → ℝ)) (by simp) .box rfl
    (Spec.onlyDim (0 : Fin 2) (some 0, some 10)) (by simp [Spec.onlyDim]) h2
    ⟨(some 0, some 10), by simp [Spec.onlyDim]⟩
  refine ⟨_, _, k, hk, by rw [hM]; exact PosDef.one, hr, by rw [hD]; rfl, ?_⟩
  intro x hx
  rw [hM]
  simp only [List.mem_cons, List.not_mem_nil, or_false] at hx
  rcases hx with rfl | rfl <;> simp <;> norm_num

end Kalepy
