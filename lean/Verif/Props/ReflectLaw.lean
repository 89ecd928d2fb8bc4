import Verif.Proofs.Rejection
import Verif.Props.SampleMoments
import Verif.Props.ResampleReflect

/-!
# C111: the law of samples drawn with boundaries
-/

namespace Kalepy

open MeasureTheory ProbabilityTheory Matrix

variable {d : ℕ}

/-! ## The rejection loop on positions -/

open Classical in
/-- The rejection loop, with the positions (batch, number in the batch) of the candidates instead of the candidates. -/
noncomputable def pickLoop (d : ℕ) (p : ℕ × ℕ → Prop) (size cs chunk : ℕ) : ℕ → ℕ → ℕ → List (ℕ × ℕ) → List (ℕ × ℕ)
  | 0, _, _, g => g
  | fuel + 1, draw, b, g =>
    if size ≤ g.length then g
    else
      let g' := g ++ (((List.range draw).map fun i => (b, i)).filter fun q => decide (p q)).take (size - g.length)
      pickLoop d p size cs chunk fuel (nextDraw d size g'.length cs chunk) (b + 1) g'

lemma pickLoop_inv (d : ℕ) (p : ℕ × ℕ → Prop) (size cs chunk B : ℕ) :
    ∀ (fuel draw b : ℕ) (g : List (ℕ × ℕ)), draw ≤ chunk → b + fuel ≤ B → g.Nodup →
      (∀ q ∈ g, p q ∧ q.1 < b ∧ q.2 < chunk) → g.length ≤ size →
      (pickLoop d p size cs chunk fuel draw b g).Nodup ∧
      (∀ q ∈ pickLoop d p size cs chunk fuel draw b g, p q ∧ q.1 < B ∧ q.2 < chunk) ∧
      (pickLoop d p size cs chunk fuel draw b g).length ≤ size := by
  intro fuel
  induction fuel with
  | zero =>
    intro draw b g _ hb hn hg hl
    exact ⟨hn, fun q hq => ⟨(hg q hq).1, by have := (hg q hq).2.1; omega, (hg q hq).2.2⟩, hl⟩
  | succ f ih =>
    intro draw b g hd hb hn hg hl
    rw [pickLoop]
    split_ifs with h
    · exact ⟨hn, fun q hq => ⟨(hg q hq).1, by have := (hg q hq).2.1; omega, (hg q hq).2.2⟩, hl⟩
    · refine ih _ _ _ (by unfold nextDraw; omega) (by omega) ?_ ?_ ?_
      · rw [List.nodup_append]
        refine ⟨hn, ?_, ?_⟩
        · refine (List.Nodup.filter _ ?_).sublist (List.take_sublist _ _)
          exact List.nodup_range.map fun i j hij => (Prod.ext_iff.mp hij).2
        · intro q hq q' hq' he
          obtain ⟨i, _, rfl⟩ := List.mem_map.mp (List.mem_filter.mp (List.mem_of_mem_take hq')).1
          have := (hg q hq).2.1
          rw [he] at this
          simp at this
      · intro q hq
        rcases List.mem_append.mp hq with hq | hq
        · exact ⟨(hg q hq).1, by have := (hg q hq).2.1; omega, (hg q hq).2.2⟩
        · obtain ⟨h1, h2⟩ := List.mem_filter.mp (List.mem_of_mem_take hq)
          obtain ⟨i, hi, rfl⟩ := List.mem_map.mp h1
          have := List.mem_range.mp hi
          exact ⟨by simpa using h2, by simp, by simp only; omega⟩
      · simp only [List.length_append, List.length_take]; omega

/-- The loop is the loop on positions. -/
lemma rejectLoop_pick {D : Dist} {data : List (Fin d → ℝ)} {w : Option (List ℝ)}
    {M : Matrix (Fin d) (Fin d) ℝ} {refl : List ReflRow} {size cs chunk : ℕ} {rnd : ℕ → ℕ → Draw d}
    {Y : ℕ × ℕ → Fin d → ℝ} {p : ℕ × ℕ → Prop} {B : ℕ}
    (hY : ∀ b n, resampleClear D data n w M .none (rnd b) = .ok ((List.range n).map fun i => Y (b, i)))
    (hp : ∀ q : ℕ × ℕ, q.1 < B → q.2 < chunk → (p q ↔ insideBounds refl (Y q) = true)) :
    ∀ (fuel draw : ℕ) (s : LoopState d) (g : List (ℕ × ℕ)), s.good = g.map Y → draw ≤ chunk →
      s.draws.length + fuel ≤ B →
      ∃ t, rejectLoop D data w M refl size cs chunk rnd fuel draw s = .ok t ∧
        t.good = (pickLoop d p size cs chunk fuel draw s.draws.length g).map Y := by
  intro fuel
  induction fuel with
  | zero => intro draw s g hg _ _; exact ⟨s, rfl, hg⟩
  | succ f ih =>
    intro draw s g hg hd hb
    have hlen : s.good.length = g.length := by rw [hg, List.length_map]
    rw [rejectLoop, pickLoop]
    by_cases hc : size ≤ g.length
    · rw [if_pos (by omega), if_pos hc]
      exact ⟨s, rfl, hg⟩
    · rw [if_neg (by omega), if_neg hc, hY]
      simp only
      have hfil : (((List.range draw).map fun i => Y (s.draws.length, i)).filter fun x => insideBounds refl x)
          = ((((List.range draw).map fun i => (s.draws.length, i)).filter fun q => @decide (p q) (Classical.propDecidable _))).map Y := by
        have e : ((List.range draw).map fun i => Y (s.draws.length, i))
            = ((List.range draw).map fun i => (s.draws.length, i)).map Y := by simp [Function.comp_def]
        rw [e, List.filter_map]
        congr 1
        refine List.filter_congr fun q hq => ?_
        obtain ⟨i, hi, rfl⟩ := List.mem_map.mp hq
        have := List.mem_range.mp hi
        have h1 := hp (s.draws.length, i) (by simp only; omega) (by simp only; omega)
        simp only [Function.comp_apply]
        rw [Bool.eq_iff_iff, ← h1]
        simp
      have hgood : s.good ++ ((((List.range draw).map fun i => Y (s.draws.length, i)).filter
            fun x => insideBounds refl x).take (size - s.good.length))
          = (g ++ ((((List.range draw).map fun i => (s.draws.length, i)).filter
            fun q => @decide (p q) (Classical.propDecidable _)).take (size - g.length))).map Y := by
        rw [List.map_append, ← hg, hfil, hlen, List.map_take]
      obtain ⟨t, h1, h2⟩ := ih (nextDraw d size (g ++ ((((List.range draw).map fun i => (s.draws.length, i)).filter
            fun q => @decide (p q) (Classical.propDecidable _)).take (size - g.length))).length cs chunk)
        ⟨_, s.draws ++ [draw]⟩ _ hgood (by unfold nextDraw; omega) (by simp; omega)
      refine ⟨t, ?_, ?_⟩
      · rw [← h1, hgood, List.length_map]
      · rw [h2]; simp

/-- A pattern as a predicate on all positions. -/
def extPat {B N : ℕ} (ε : Fin B × Fin N → Prop) (q : ℕ × ℕ) : Prop :=
  ∃ h : q.1 < B ∧ q.2 < N, ε (⟨q.1, h.1⟩, ⟨q.2, h.2⟩)

/-- The positions of the samples returned, for one pattern of acceptance. -/
noncomputable def picks (d size chunk : ℕ) (ε : Fin (10 * (chunking size chunk).1) × Fin chunk → Prop) : List (ℕ × ℕ) :=
  pickLoop d (extPat ε) size (chunking size chunk).2 chunk (10 * (chunking size chunk).1) (chunking size chunk).2 0 []

lemma chunking_le {size chunk : ℕ} (h : chunk ≠ 0 ∨ size = 0) : (chunking size chunk).2 ≤ chunk := by
  by_cases hs : 0 < size
  · exact ((chunking_spec size chunk h).2 hs).2
  · have : size = 0 := by omega
    subst this
    simp [chunking]

lemma picks_inv {size chunk : ℕ} (h : chunk ≠ 0 ∨ size = 0)
    (ε : Fin (10 * (chunking size chunk).1) × Fin chunk → Prop) :
    (picks d size chunk ε).Nodup ∧ (∀ q ∈ picks d size chunk ε, extPat ε q) ∧ (picks d size chunk ε).length ≤ size := by
  obtain ⟨h1, h2, h3⟩ := pickLoop_inv d (extPat ε) size (chunking size chunk).2 chunk (10 * (chunking size chunk).1)
    (10 * (chunking size chunk).1) (chunking size chunk).2 0 [] (chunking_le h) (by omega) List.nodup_nil (by simp) (by simp)
  exact ⟨h1, fun q hq => (h2 q hq).1, h3⟩

/-- The position of the `j`-th sample. -/
noncomputable def pickPos {size chunk : ℕ} (h : chunk ≠ 0 ∨ size = 0)
    (ε : {ε : Fin (10 * (chunking size chunk).1) × Fin chunk → Prop // (picks d size chunk ε).length = size})
    (j : Fin size) : Fin (10 * (chunking size chunk).1) × Fin chunk :=
  have hq := (picks_inv (d := d) h ε.1).2.1 _ (List.getElem_mem (n := j) (by rw [ε.2]; exact j.2))
  (⟨_, hq.1.1⟩, ⟨_, hq.1.2⟩)

lemma pickPos_eq {size chunk : ℕ} (h : chunk ≠ 0 ∨ size = 0)
    (ε : {ε : Fin (10 * (chunking size chunk).1) × Fin chunk → Prop // (picks d size chunk ε).length = size})
    (j : Fin size) : (((pickPos h ε j).1 : ℕ), ((pickPos h ε j).2 : ℕ))
      = (picks d size chunk ε.1)[(j : ℕ)]'(by rw [ε.2]; exact j.2) := rfl

lemma pickPos_injective {size chunk : ℕ} (h : chunk ≠ 0 ∨ size = 0)
    (ε : {ε : Fin (10 * (chunking size chunk).1) × Fin chunk → Prop // (picks d size chunk ε).length = size}) :
    Function.Injective (pickPos h ε) := by
  intro i j hij
  have e : (((pickPos h ε i).1 : ℕ), ((pickPos h ε i).2 : ℕ)) = (((pickPos h ε j).1 : ℕ), ((pickPos h ε j).2 : ℕ)) := by
    rw [hij]
  rw [pickPos_eq, pickPos_eq] at e
  exact Fin.ext ((List.Nodup.getElem_inj_iff (picks_inv h ε.1).1).mp e)

lemma pickPos_accepted {size chunk : ℕ} (h : chunk ≠ 0 ∨ size = 0)
    (ε : {ε : Fin (10 * (chunking size chunk).1) × Fin chunk → Prop // (picks d size chunk ε).length = size})
    (j : Fin size) : ε.1 (pickPos h ε j) :=
  ((picks_inv (d := d) h ε.1).2.1 _ (List.getElem_mem (n := j) (by rw [ε.2]; exact j.2))).2

/-- Specification: the call returned `n` samples, the `j`-th of them in `A j`. -/
def Spec.SamplesIn {n : ℕ} (r : Res (Samples d)) (A : Fin n → Set (Fin d → ℝ)) : Prop :=
  ∃ s X, r = .ok s ∧ s.points = List.ofFn X ∧ ∀ j, X j ∈ A j

/-- What is strictly inside of the boundaries. -/
def Spec.insideSet (d : ℕ) (rows : List ReflRow) : Set (Fin d → ℝ) :=
  {x | ∀ i : Fin d, Spec.StrictlyInside (rows.getD i none) (x i)}

lemma measurable_insideSet (rows : List ReflRow) : MeasurableSet (Spec.insideSet d rows) := by
  have h1 : ∀ r : ReflRow, MeasurableSet {t : ℝ | Spec.StrictlyInside r t} := by
    intro r
    rcases r with _ | ⟨lo, hi⟩
    · convert MeasurableSet.univ
      ext t
      simp [Spec.StrictlyInside]
    · have : {t : ℝ | Spec.StrictlyInside (some (lo, hi)) t} = {t | ∀ l, lo = some l → l < t} ∩ {t | ∀ h, hi = some h → t < h} := by
        ext t
        constructor
        · intro h; exact h lo hi rfl
        · rintro ⟨h, h'⟩ lo' hi' e
          cases e
          exact ⟨h, h'⟩
      rw [this]
      refine MeasurableSet.inter ?_ ?_
      · cases lo with
        | none => convert MeasurableSet.univ; ext t; simp
        | some l =>
          have : {t : ℝ | ∀ h, some l = some h → h < t} = Set.Ioi l := by ext t; simp
          rw [this]; exact measurableSet_Ioi
      · cases hi with
        | none => convert MeasurableSet.univ; ext t; simp
        | some l =>
          have : {t : ℝ | ∀ h, some l = some h → t < h} = Set.Iio l := by ext t; simp
          rw [this]; exact measurableSet_Iio
  have : Spec.insideSet d rows = ⋂ i : Fin d, (fun x => x i) ⁻¹' {t : ℝ | Spec.StrictlyInside (rows.getD i none) t} := by
    ext x; simp [Spec.insideSet]
  rw [this]
  exact MeasurableSet.iInter fun i => measurable_pi_apply i (h1 _)

/-- Success of the reflected resampling in terms of the candidates. -/
lemma reflect_picked {k : Kernel d} {data : List (Fin d → ℝ)} {size : ℕ} {refl : List ReflRow}
    {w : Option (List ℝ)} {rnd : ℕ → ℕ → Draw d} {Y : ℕ × ℕ → Fin d → ℝ} (hc : k.chunk ≠ 0 ∨ size = 0)
    (hne : drawData data refl ≠ [])
    (hY : ∀ b n, resampleClear k.dist (drawData data refl) n (drawWeights data w refl) k.matrix .none (rnd b)
      = .ok ((List.range n).map fun i => Y (b, i))) (squeeze : Bool) (A : Fin size → Set (Fin d → ℝ)) :
    Spec.SamplesIn ((resampleReflect k data size refl w .none rnd).map fun r => squeezeSamples squeeze r.1) A ↔
      (fun i : Fin (10 * (chunking size k.chunk).1) × Fin k.chunk => Y (i.1, i.2)) ∈
        pickedSet (Spec.insideSet d refl) (fun ε => (picks d size k.chunk ε).length = size) (pickPos hc) A := by
  set ε : Fin (10 * (chunking size k.chunk).1) × Fin k.chunk → Prop := fun i => Y (i.1, i.2) ∈ Spec.insideSet d refl with hε
  obtain ⟨t, h1, h2⟩ := rejectLoop_pick (refl := refl) (size := size) (cs := (chunking size k.chunk).2)
    (chunk := k.chunk) (p := extPat ε) (B := 10 * (chunking size k.chunk).1) hY (by
      intro q a b
      rw [insideBounds_iff]
      exact ⟨fun h => h.2, fun h => ⟨⟨a, b⟩, h⟩⟩) (10 * (chunking size k.chunk).1) (chunking size k.chunk).2 ⟨[], []⟩ []
      rfl (chunking_le hc) (by simp)
  have h3 : t.good = (picks d size k.chunk ε).map Y := h2
  have hle := (picks_inv (d := d) hc ε).2.2
  have hr : resampleReflect k data size refl w .none rnd
      = if t.good.length < size then .error .runtimeError else .ok (t.good, t.draws) := by
    simp only [resampleReflect, covKeepVars, if_neg hne]
    rw [if_neg (by omega), h1]
  rw [hr]
  simp only [pickedSet, Set.mem_iUnion, Set.mem_ofPred_eq]
  constructor
  · rintro ⟨s, X, e, hX, hA⟩
    split_ifs at e with hlt
    · cases e
    have hlen : (picks d size k.chunk ε).length = size := by
      rw [h3, List.length_map] at hlt; omega
    refine ⟨⟨ε, hlen⟩, fun i => Iff.rfl, fun j => ?_⟩
    have e' : s = squeezeSamples squeeze t.good := (Except.ok.inj e).symm
    rw [e', squeezeSamples_points, h3] at hX
    have h4 : Y ((pickPos hc ⟨ε, hlen⟩ j).1, (pickPos hc ⟨ε, hlen⟩ j).2) = X j := by
      rw [pickPos_eq]
      have := congrArg (fun l => l[(j : ℕ)]?) hX
      simp only [List.getElem?_map, List.getElem?_ofFn, j.2, dif_pos] at this
      rw [List.getElem?_eq_getElem (by rw [hlen]; exact j.2)] at this
      simpa using this
    rw [h4]; exact hA j
  · rintro ⟨⟨ε', hlen⟩, hpat, hA⟩
    have he : ε' = ε := funext fun i => propext (hpat i).symm
    subst he
    rw [if_neg (by rw [h3, List.length_map, hlen]; omega)]
    refine ⟨_, fun j => Y ((pickPos hc ⟨ε, hlen⟩ j).1, (pickPos hc ⟨ε, hlen⟩ j).2), rfl, ?_, hA⟩
    rw [squeezeSamples_points, h3]
    refine List.ext_getElem (by simp [hlen]) fun n hn hn' => ?_
    rw [List.getElem_map, List.getElem_ofFn, pickPos_eq]

/-! ## All candidates accepted -/

lemma pickLoop_all (d : ℕ) (p : ℕ × ℕ → Prop) (size cs chunk B : ℕ) (hcs : cs ≤ chunk)
    (hp : ∀ q : ℕ × ℕ, q.1 < B → q.2 < chunk → p q) :
    ∀ (fuel draw b : ℕ) (g : List (ℕ × ℕ)), draw ≤ chunk → min (size - g.length) cs ≤ draw → b + fuel ≤ B →
      size ≤ g.length + fuel * cs → size ≤ (pickLoop d p size cs chunk fuel draw b g).length := by
  intro fuel
  induction fuel with
  | zero => intro draw b g _ _ _ h; simpa [pickLoop] using h
  | succ f ih =>
    intro draw b g hd hm hb h
    rw [pickLoop]
    split_ifs with hc
    · exact hc
    have hfil : ((List.range draw).map fun i => (b, i)).filter (fun q => @decide (p q) (Classical.propDecidable _))
        = (List.range draw).map fun i => (b, i) := by
      rw [List.filter_eq_self]
      intro q hq
      obtain ⟨i, hi, rfl⟩ := List.mem_map.mp hq
      have := List.mem_range.mp hi
      simpa using hp (b, i) (by simp only; omega) (by simp only; omega)
    have hlen : (g ++ (((List.range draw).map fun i => (b, i)).filter
        (fun q => @decide (p q) (Classical.propDecidable _))).take (size - g.length)).length
        = g.length + min (size - g.length) draw := by
      rw [hfil]; simp
    refine ih _ _ _ (by unfold nextDraw; omega) ?_ (by omega) ?_
    · rw [hlen, nextDraw]
      have h1 : 1 ≤ 2 ^ d := Nat.one_le_two_pow
      have h2 : min (size - (g.length + min (size - g.length) draw)) cs
          ≤ 2 ^ d * min (size - (g.length + min (size - g.length) draw)) cs := Nat.le_mul_of_pos_left _ h1
      omega
    · rw [hlen]
      have : (f + 1) * cs = f * cs + cs := by ring
      omega

lemma chunking_covers {size chunk : ℕ} (h : chunk ≠ 0 ∨ size = 0) : size ≤ (chunking size chunk).1 * (chunking size chunk).2 := by
  unfold chunking
  split
  · rename_i hlt
    have hc : 0 < chunk := by omega
    have hn : 0 < (size + chunk - 1) / chunk := Nat.div_pos (by omega) hc
    simp only
    generalize (size + chunk - 1) / chunk = n at hn
    have := Nat.div_add_mod (size + n - 1) n
    have h2 := Nat.mod_lt (size + n - 1) hn
    omega
  · simp

lemma picks_all {size chunk : ℕ} (h : chunk ≠ 0 ∨ size = 0) :
    (picks d size chunk fun _ => True).length = size := by
  refine le_antisymm (picks_inv h _).2.2 ?_
  have hcov := chunking_covers h
  refine pickLoop_all d _ size _ chunk (10 * (chunking size chunk).1) (chunking_le h) (fun q a b => ⟨⟨a, b⟩, trivial⟩) _ _ _ _
    (chunking_le h) (by omega) (by omega) ?_
  simp only [List.length_nil, zero_add]
  calc size ≤ (chunking size chunk).1 * (chunking size chunk).2 := hcov
    _ ≤ _ := Nat.mul_le_mul_right _ (by omega)

/-! ## The theorem -/

/-- With probability one, all batches of candidates are data points plus coloured noise. -/
lemma candidates_repr {E : Ext} {a : KDEArgs d} {k : KDE d} (h : KDE.init E a = .ok k) (hd : 0 < d)
    (hM : (Spec.kernelMatrix k.covariance k.bandwidth).PosDef) :
    ∃ L : Matrix (Fin d) (Fin d) ℝ, L * Lᵀ = Spec.kernelMatrix k.covariance k.bandwidth ∧
      ∀ {Ω : Type} [MeasurableSpace Ω] (μ : Measure Ω) (rnd : Ω → ℕ → ℕ → Draw d), Spec.RandomNumbers μ rnd →
        ∀ᵐ ω ∂μ, (∀ b n, 0 ≤ (rnd ω b n).pick ∧ (rnd ω b n).pick < 1) ∧
          ∀ b n, resampleClear k.kernel.dist k.dataset n k.weights k.kernel.matrix .none (rnd ω b)
          = .ok ((List.range n).map fun i => sampleOf k.kernel.dist a.dataset k.weights L
            (noiseFn k.kernel.dist (noiseTuple (rnd ω b i).tuple), (rnd ω b i).pick)) := by
  have hdat : k.dataset = a.dataset := by
    obtain ⟨_, _, _, _, _, _, _, _, _, _, _, _, _, _, _, _, _, _, he⟩ := init_inv h; rw [he]
  have hb : Spec.boundaries k .false = .ok none := rfl
  have hK := (C18_matrix h).1
  obtain ⟨U, hU⟩ := cholesky_of_posDef hM
  refine ⟨Uᵀ, by rw [transpose_transpose]; exact cholesky_mul hM.isHermitian hU, fun μ rnd hrnd => ?_⟩
  have hgood : ∀ b n, ∀ᵐ ω ∂μ, rad (rnd ω b n).gauss ≠ 0 ∧ (∀ i, 0 ≤ (rnd ω b n).unif i ∧ (rnd ω b n).unif i < 1) ∧
      0 ≤ (rnd ω b n).pick ∧ (rnd ω b n).pick < 1 := by
    intro b n
    have h3 := ae_good hd
    have h4 := hrnd.law b n
    rw [← h4.map_eq] at h3
    exact ae_of_ae_map h4.aemeasurable h3
  filter_upwards [ae_all_iff.mpr fun b => ae_all_iff.mpr (hgood b)] with ω hω
  refine ⟨fun b n => (hω b n).2.2, fun b n => ?_⟩
  have hsam := fun n => sample_noiseFn k.kernel.dist (hω b n).2.1 (hω b n).1
  obtain ⟨s, hs⟩ := resample_returns h hM (some n) .none (by simp) .false true (fun _ => rnd ω b)
    (fun n => ⟨_, hsam n⟩) (fun n => (hω b n).2.2) hb
  rcases resample_inv h hs with ⟨_, h1⟩ | ⟨rows, draws, h0, _⟩
  swap
  · rw [h0] at hb; cases hb
  simp only [Option.getD_some] at h1
  rw [h1]
  congr 1
  obtain ⟨hlen, V, ps, hV, hps, _, hall⟩ := resampleClear_inv h1
  rw [hK, hU, Option.some.injEq] at hV
  subst hV
  simp only [keepDims, Except.ok.injEq] at hps
  subst hps
  refine List.ext_getElem (by simp [hlen]) fun n hn _ => ?_
  obtain ⟨u, m, hu, hm, e⟩ := hall n hn
  rw [hsam, Except.ok.injEq] at hu
  subst hu
  have hmem := choiceDatum_mem hm
  rw [hdat] at hmem
  rw [e, List.getElem_map, List.getElem_range]
  have hz : zeroDims ([] : List (Fin d)) (Uᵀ *ᵥ noiseFn k.kernel.dist (noiseTuple (rnd ω b n).tuple))
      = Uᵀ *ᵥ noiseFn k.kernel.dist (noiseTuple (rnd ω b n).tuple) := by
    funext i
    simp [zeroDims]
  rw [hz, sampleOf, List.getD_eq_getElem?_getD, hmem]
  rfl

/-- The law of samples with boundaries, in terms of the law `P` of a candidate, which is that of a sample without boundaries. -/
lemma reflect_law {E : Ext} {a : KDEArgs d} {k : KDE d} (h : KDE.init E a = .ok k) (hd : 0 < d)
    (hM : (Spec.kernelMatrix k.covariance k.bandwidth).PosDef) :
    ∃ L : Matrix (Fin d) (Fin d) ℝ, L * Lᵀ = Spec.kernelMatrix k.covariance k.bandwidth ∧
      ∀ {Ω : Type} [MeasurableSpace Ω] (μ : Measure Ω) (rnd : Ω → ℕ → ℕ → Draw d), Spec.RandomNumbers μ rnd →
      (∀ (squeeze : Bool) (A : Set (Fin d → ℝ)), MeasurableSet A →
        μ {ω | Spec.SamplesIn (n := 1) (k.resample (some 1) .none .false squeeze (rnd ω)) fun _ => A}
          = sampleLaw k.kernel.dist a.dataset k.weights L A) ∧
      ∀ (reflect : Reflect) (rows : List ReflRow), Spec.boundaries k reflect = .ok (some rows) →
        (∀ x ∈ k.dataset, x ∈ Spec.insideSet d rows) → ∀ (size : ℕ) (squeeze : Bool),
        (∀ A : Fin size → Set (Fin d → ℝ), (∀ j, MeasurableSet (A j)) →
          μ {ω | Spec.SamplesIn (k.resample (some size) .none reflect squeeze (rnd ω)) A}
            = μ {ω | ∃ s, k.resample (some size) .none reflect squeeze (rnd ω) = .ok s}
              * ∏ j, sampleLaw k.kernel.dist a.dataset k.weights L (A j ∩ Spec.insideSet d rows)
                / sampleLaw k.kernel.dist a.dataset k.weights L (Spec.insideSet d rows)) ∧
        (k.kernel.chunk ≠ 0 → sampleLaw k.kernel.dist a.dataset k.weights L (Spec.insideSet d rows) ≠ 0 →
          μ {ω | ∃ s, k.resample (some size) .none reflect squeeze (rnd ω) = .ok s} ≠ 0) := by
  obtain ⟨L, hL, hrep⟩ := candidates_repr h hd hM
  refine ⟨L, hL, fun {Ω} _ μ rnd hrnd => ?_⟩
  have hae := hrep μ rnd hrnd
  set P := sampleLaw k.kernel.dist a.dataset k.weights L with hP
  have hPp : IsProbabilityMeasure P := Measure.isProbabilityMeasure_map (measurable_sampleOf _ _ _ _).aemeasurable
  set Φ : DrawTuple d → Fin d → ℝ := fun t => sampleOf k.kernel.dist a.dataset k.weights L
        (noiseFn k.kernel.dist (noiseTuple t), t.2.2.2.2) with hΦ
  have hphi : MeasurePreserving Φ (Spec.drawLaw d) P :=
    (MeasurePreserving.mk (measurable_sampleOf _ _ _ _) rfl).comp (joint_law_all k.kernel.dist)
  have hlaw : ∀ b n, HasLaw (fun ω => Φ (rnd ω b n).tuple) P μ := fun b n => hphi.hasLaw.comp (hrnd.law b n)
  have hprob : IsProbabilityMeasure μ := (hrnd.law 0 0).isProbabilityMeasure
  refine ⟨fun squeeze A hA => ?_, fun reflect rows hb hin size squeeze => ?_⟩
  · have h1 : {ω | Spec.SamplesIn (n := 1) (k.resample (some 1) .none .false squeeze (rnd ω)) fun _ => A}
        =ᵐ[μ] (fun ω => Φ (rnd ω 0 0).tuple) ⁻¹' A := by
      filter_upwards [hae] with ω hω
      have hr : k.resample (some 1) .none .false squeeze (rnd ω) = .ok (squeezeSamples squeeze [Φ (rnd ω 0 0).tuple]) := by
        rw [resample_eq h]
        simp only [Spec.boundaries, Except.bind, Option.getD_some, hω.2 0 1]
        rfl
      apply propext
      show Spec.SamplesIn _ _ ↔ Φ (rnd ω 0 0).tuple ∈ A
      rw [hr]
      constructor
      · rintro ⟨s, X, e, hX, hA⟩
        rw [← Except.ok.inj e, squeezeSamples_points] at hX
        simp only [List.ofFn_succ, List.ofFn_zero, List.cons.injEq, and_true] at hX
        rw [hX]; exact hA 0
      · intro hA
        exact ⟨_, fun _ => Φ (rnd ω 0 0).tuple, rfl, by rw [squeezeSamples_points]; simp, fun _ => hA⟩
    rw [measure_congr h1, ← (hlaw 0 0).map_eq, Measure.map_apply_of_aemeasurable (hlaw 0 0).aemeasurable hA]
  · have hres : ∀ ω, k.resample (some size) .none reflect squeeze (rnd ω)
        = (resampleReflect k.kernel k.dataset size rows k.weights .none (rnd ω)).map fun r => squeezeSamples squeeze r.1 := by
      intro ω
      rw [resample_eq h, hb]
      simp only [Except.bind, Option.getD_some]
      cases resampleReflect k.kernel k.dataset size rows k.weights .none (rnd ω) <;> rfl
    have hsucc : ∀ ω, (∃ s, k.resample (some size) .none reflect squeeze (rnd ω) = .ok s) ↔
        Spec.SamplesIn (n := size) (k.resample (some size) .none reflect squeeze (rnd ω)) fun _ => Set.univ := by
      intro ω
      constructor
      · rintro ⟨s, hs⟩
        have hl := C26_size h _ _ _ _ _ _ hs
        simp only [Option.getD_some] at hl
        exact ⟨s, fun j => s.points[(j : ℕ)]'(by rw [hl]; exact j.2), hs,
          List.ext_getElem (by simp [hl]) fun n _ _ => by simp, fun _ => trivial⟩
      · rintro ⟨s, _, hs, _⟩
        exact ⟨s, hs⟩
    simp only [hsucc]
    by_cases hc : k.kernel.chunk ≠ 0 ∨ size = 0
    swap
    · push Not at hc
      have hno : ∀ (ω : Ω) (A : Fin size → Set (Fin d → ℝ)),
          ¬ Spec.SamplesIn (k.resample (some size) .none reflect squeeze (rnd ω)) A := by
        rintro ω A ⟨s, _, hs, _⟩
        rw [hres] at hs
        obtain ⟨r, hr, _⟩ := map_ok hs
        simp only [resampleReflect, covKeepVars] at hr
        split at hr
        · cases hr
        rw [if_pos ⟨by omega, hc.1⟩] at hr
        cases hr
      simp only [hno]
      refine ⟨fun A _ => by simp, fun h0 => absurd hc.1 h0⟩
    have hne : drawData k.dataset rows ≠ [] := by
      rw [drawData_inside hin]
      obtain ⟨_, _, _, _, _, _, _, _, _, hne, _, _, _, _, _, _, _, _, he⟩ := init_inv h
      rw [he]; exact hne
    have hev : ∀ A : Fin size → Set (Fin d → ℝ), (∀ j, MeasurableSet (A j)) →
        μ {ω | Spec.SamplesIn (k.resample (some size) .none reflect squeeze (rnd ω)) A}
          = Measure.pi (fun _ : Fin (10 * (chunking size k.kernel.chunk).1) × Fin k.kernel.chunk => P)
            (pickedSet (Spec.insideSet d rows) (fun ε => (picks d size k.kernel.chunk ε).length = size) (pickPos hc) A) := by
      intro A hA
      have hms := measurableSet_picked (measurable_insideSet (d := d) rows)
        (Good := fun ε => (picks d size k.kernel.chunk ε).length = size) (pickPos_injective hc) hA
      have hpi : μ.map (fun ω (i : Fin (10 * (chunking size k.kernel.chunk).1) × Fin k.kernel.chunk) =>
          Φ (rnd ω i.1 i.2).tuple) = Measure.pi fun _ => P := by
        have h1 := hrnd.indep.precomp (g := fun i : Fin (10 * (chunking size k.kernel.chunk).1) × Fin k.kernel.chunk =>
          ((i.1 : ℕ), (i.2 : ℕ))) fun i j hij => Prod.ext (Fin.ext (Prod.ext_iff.mp hij).1) (Fin.ext (Prod.ext_iff.mp hij).2)
        have h2 := h1.comp (fun _ => Φ) fun _ => hphi.measurable
        have h3 := iIndepFun.map_fun_eq_pi_map (fun i => (hlaw _ _).aemeasurable) h2
        refine h3.trans ?_
        congr 1
        funext i
        exact (hlaw _ _).map_eq
      rw [← hpi, Measure.map_apply_of_aemeasurable (aemeasurable_pi_lambda _ fun i => (hlaw _ _).aemeasurable) hms]
      refine measure_congr ?_
      filter_upwards [hae] with ω hω
      apply propext
      show Spec.SamplesIn _ _ ↔ _ ∈ pickedSet _ _ _ _
      rw [hres]
      exact reflect_picked (Y := fun q => Φ (rnd ω q.1 q.2).tuple) hc hne (fun b n => by
        rw [candidates_eq h hin n (rnd ω b) (hω.1 b)]
        exact hω.2 b n) squeeze A
    refine ⟨fun A hA => ?_, fun h0 hS => ?_⟩
    · rw [hev A hA, hev _ fun _ => MeasurableSet.univ]
      exact pi_picked P (measurable_insideSet rows) (pickPos_injective hc) (pickPos_accepted hc) hA
    · rw [hev _ fun _ => MeasurableSet.univ]
      have hsub : (Set.univ.pi fun _ => Spec.insideSet d rows) ⊆
          pickedSet (Spec.insideSet d rows) (fun ε => (picks d size k.kernel.chunk ε).length = size) (pickPos hc)
            fun _ => Set.univ := by
        intro y hy
        simp only [pickedSet, Set.mem_iUnion, Set.mem_ofPred_eq]
        exact ⟨⟨fun _ => True, picks_all hc⟩, fun i => ⟨fun _ => trivial, fun _ => hy i trivial⟩, fun _ => trivial⟩
      refine fun hz => ?_
      have := measure_mono_null hsub hz
      rw [Measure.pi_pi, Finset.prod_const] at this
      exact pow_ne_zero _ hS this

/-! ## Success has positive probability -/

attribute [local irreducible] triXs triYs in
lemma triRadius_small {δ : ℝ} (hδ : 0 < δ) : ∃ η > 0, ∀ u, 0 ≤ u → u ≤ 1 → u < η → triRadius u < δ := by
  have hlen : triYs.length = triXs.length := by rw [triYs_eq]; simp
  have hlen2 := triXs_length
  have hY : ∀ j (h : j < triYs.length), triYs[j] = triweightCdf (triXs[j]'(by omega)) := by
    intro j h
    simp only [triYs_eq, List.getElem_map]
  have y0 : triYs[0]'(by omega) = 0 := by rw [hY, triXs_getElem]; simp [triweightCdf_zero]
  have y1 : (0 : ℝ) < triYs[1]'(by omega) := by
    refine y0.symm.trans_lt ?_
    exact List.pairwise_iff_getElem.mp triYs_pairwise 0 1 (by omega) (by omega) (by omega)
  refine ⟨min (triYs[1]'(by omega)) (δ * (999 * triYs[1]'(by omega))), lt_min y1 (by positivity), fun u h0 h1 hu => ?_⟩
  obtain ⟨j, hj, t, hlo, hhi, ht0, ht1, hxe, he⟩ := interp1d_between (xp := triYs) (fp := triXs) triYs_pairwise
    (by omega) (by omega) (x := u) (by rw [y0]; exact h0)
    (by
      rw [hY, triXs_getElem]
      have : ((triYs.length - 1 : ℕ) : ℝ) / 999 = 1 := by rw [hlen, hlen2]; norm_num
      rw [this, triweightCdf_one]; exact h1)
  have hj0 : j = 0 := by
    by_contra hc
    have hle : triYs[1]'(by omega) ≤ triYs[j]'(by omega) := by
      rcases Nat.eq_or_lt_of_le (show 1 ≤ j by omega) with hj' | hj'
      · subst hj'; exact le_rfl
      · exact (List.pairwise_iff_getElem.mp triYs_pairwise 1 j (by omega) (by omega) hj').le
    have := (lt_min_iff.mp hu).1
    linarith
  subst hj0
  have hr : triRadius u = t / 999 := by
    rw [triRadius, triInverse, he]
    simp only [Except.toOption, Option.getD_some, triXs_getElem]
    norm_num
    ring
  rw [y0, zero_add, sub_zero] at hxe
  have hu2 := (lt_min_iff.mp hu).2
  rw [hr, div_lt_iff₀ (by norm_num)]
  have : t * triYs[1]'(by omega) < δ * 999 * triYs[1]'(by omega) := by
    have hxe' : u = t * triYs[1]'(by omega) := hxe
    rw [← hxe']; linarith
  exact lt_of_mul_lt_mul_right this y1.le

lemma abs_div_rad (g : Fin d → ℝ) (i : Fin d) : |g i / rad g| ≤ 1 := by
  have h0 : 0 ≤ rad g := Real.sqrt_nonneg _
  rw [abs_div, abs_of_nonneg h0]
  refine div_le_one_of_le₀ ?_ (Real.sqrt_nonneg _)
  rw [rad, ← Real.sqrt_sq_eq_abs]
  exact Real.sqrt_le_sqrt (Finset.single_le_sum (f := fun i => g i ^ 2) (fun i _ => sq_nonneg _) (Finset.mem_univ i))

lemma median3_small {t : ℝ × ℝ × ℝ} {δ : ℝ} (h1 : |t.1| < δ) (h2 : |t.2.1| < δ) (h3 : |t.2.2| < δ) : |median3 t| < δ := by
  rw [abs_lt] at *
  unfold median3
  constructor
  · exact lt_max_of_lt_left (lt_min h1.1 h2.1)
  · refine max_lt ((min_le_left _ _).trans_lt h1.2) ?_
    exact (min_le_right _ _).trans_lt h3.2

lemma unit_small {η : ℝ} (hη : 0 < η) : Spec.unitLaw (Set.Ico 0 η) ≠ 0 := by
  rw [Spec.unitLaw, Measure.restrict_apply measurableSet_Ico, Set.Ico_inter_Ico, Real.volume_Ico]
  simp [hη]

lemma sym_small {η : ℝ} (hη : 0 < η) : Spec.symLaw (Set.Ioo (-η) η) ≠ 0 := by
  rw [Spec.symLaw, Measure.smul_apply, Measure.restrict_apply measurableSet_Ioo, smul_eq_mul]
  refine mul_ne_zero (by simp) ?_
  have : Set.Ioo 0 (min η 1) ⊆ Set.Ioo (-η) η ∩ Set.Ico (-1) 1 := by
    rintro x ⟨h1, h2⟩
    obtain ⟨h3, h4⟩ := lt_min_iff.mp h2
    exact ⟨⟨by linarith, h3⟩, by linarith, h4⟩
  refine fun h => ?_
  have h0 := measure_mono_null this h
  rw [Real.volume_Ioo] at h0
  simp at h0
  linarith

lemma gauss_small {η : ℝ} (hη : 0 < η) : gaussianReal 0 1 (Set.Ioo (-η) η) ≠ 0 := by
  intro h
  have := gaussianReal_absolutelyContinuous' 0 (v := 1) one_ne_zero h
  rw [Real.volume_Ioo] at this
  simp at this
  linarith

/-- All kernels: the noise is close to zero with positive probability. -/
lemma noise_small (D : Dist) {δ : ℝ} (hδ : 0 < δ) : noiseLaw D d {z | ∀ i, |z i| < δ} ≠ 0 := by
  obtain ⟨η₁, p1, h1⟩ := triRadius_small hδ
  set η := min (min η₁ δ) (min (δ ^ (d : ℝ)) 1) with hη
  have pη : 0 < η := lt_min (lt_min p1 hδ) (lt_min (Real.rpow_pos_of_pos hδ _) one_pos)
  have e1 : η ≤ η₁ := (min_le_left _ _).trans (min_le_left _ _)
  have e2 : η ≤ δ := (min_le_left _ _).trans (min_le_right _ _)
  have e3 : η ≤ δ ^ (d : ℝ) := (min_le_right _ _).trans (min_le_left _ _)
  have e4 : η ≤ 1 := (min_le_right _ _).trans (min_le_right _ _)
  have hms : MeasurableSet {z : Fin d → ℝ | ∀ i, |z i| < δ} := by
    have : {z : Fin d → ℝ | ∀ i, |z i| < δ} = ⋂ i, {z | |z i| < δ} := by ext z; simp
    rw [this]
    exact MeasurableSet.iInter fun i => measurableSet_lt (by fun_prop) measurable_const
  rw [noiseLaw, Measure.map_apply (measurable_noiseFn D) hms]
  set T : Set (NoiseTuple d) := (Set.univ.pi fun _ => Set.Ioo (-η) η) ×ˢ ((Set.univ.pi fun _ => Set.Ico 0 η) ×ˢ
    ((Set.univ.pi fun _ => Set.Ioo (-η) η) ×ˢ
      (Set.univ.pi fun _ => Set.Ioo (-η) η ×ˢ (Set.Ioo (-η) η ×ˢ Set.Ioo (-η) η)))) with hT
  have hTm : noiseTupleLaw d T ≠ 0 := by
    rw [hT, noiseTupleLaw, Measure.prod_prod, Measure.prod_prod, Measure.prod_prod, Measure.pi_pi, Measure.pi_pi,
      Measure.pi_pi, Measure.pi_pi]
    simp only [Measure.prod_prod, Finset.prod_const]
    exact mul_ne_zero (pow_ne_zero _ (gauss_small pη)) (mul_ne_zero (pow_ne_zero _ (unit_small pη))
      (mul_ne_zero (pow_ne_zero _ (sym_small pη)) (pow_ne_zero _ (mul_ne_zero (sym_small pη)
        (mul_ne_zero (sym_small pη) (sym_small pη))))))
  refine fun hz => hTm (measure_mono_null ?_ hz)
  rintro t ⟨t1, t2, t3, t4⟩ i
  have g1 := t1 i trivial
  have g2 := t2 i trivial
  have g3 := t3 i trivial
  obtain ⟨g4, g5, g6⟩ := t4 i trivial
  have hdr := abs_div_rad t.1 i
  have hpos : 0 < d := i.pos
  cases D with
  | gaussian => exact (abs_lt.mpr g1).trans_le e2
  | box =>
    simp only [noiseFn]
    split_ifs with hd1
    · exact (abs_lt.mpr g3).trans_le e2
    · have hu : t.2.1 i ^ (1 / (d : ℝ)) < δ := by
        have hlt : t.2.1 i < δ ^ (d : ℝ) := g2.2.trans_le e3
        have := Real.rpow_lt_rpow g2.1 hlt (z := 1 / (d : ℝ)) (by positivity)
        rwa [← Real.rpow_mul hδ.le, mul_one_div_cancel (by positivity), Real.rpow_one] at this
      have hu0 : 0 ≤ t.2.1 i ^ (1 / (d : ℝ)) := Real.rpow_nonneg g2.1 _
      show |t.2.1 i ^ (1 / (d : ℝ)) * t.1 i / rad t.1| < δ
      rw [mul_div_assoc, abs_mul, abs_of_nonneg hu0]
      exact (mul_le_of_le_one_right hu0 hdr).trans_lt hu
  | parabola => exact median3_small ((abs_lt.mpr g4).trans_le e2) ((abs_lt.mpr g5).trans_le e2) ((abs_lt.mpr g6).trans_le e2)
  | triweight =>
    have h2 := h1 (t.2.1 i) g2.1 (g2.2.le.trans e4) (g2.2.trans_le e1)
    have h3 := (triInverse_radius g2.1 (g2.2.le.trans e4)).2.1
    show |triRadius (t.2.1 i) * t.1 i / rad t.1| < δ
    rw [mul_div_assoc, abs_mul, abs_of_nonneg h3]
    exact (mul_le_of_le_one_right h3 hdr).trans_lt h2

lemma isOpen_insideSet (rows : List ReflRow) : IsOpen (Spec.insideSet d rows) := by
  have h1 : ∀ r : ReflRow, IsOpen {t : ℝ | Spec.StrictlyInside r t} := by
    intro r
    rcases r with _ | ⟨lo, hi⟩
    · convert isOpen_univ
      ext t
      simp [Spec.StrictlyInside]
    · have : {t : ℝ | Spec.StrictlyInside (some (lo, hi)) t} = {t | ∀ l, lo = some l → l < t} ∩ {t | ∀ h, hi = some h → t < h} := by
        ext t
        constructor
        · intro h; exact h lo hi rfl
        · rintro ⟨h, h'⟩ lo' hi' e
          cases e
          exact ⟨h, h'⟩
      rw [this]
      refine IsOpen.inter ?_ ?_
      · cases lo with
        | none => convert isOpen_univ; ext t; simp
        | some l =>
          have : {t : ℝ | ∀ h, some l = some h → h < t} = Set.Ioi l := by ext t; simp
          rw [this]; exact isOpen_Ioi
      · cases hi with
        | none => convert isOpen_univ; ext t; simp
        | some l =>
          have : {t : ℝ | ∀ h, some l = some h → t < h} = Set.Iio l := by ext t; simp
          rw [this]; exact isOpen_Iio
  have : Spec.insideSet d rows = ⋂ i : Fin d, (fun x => x i) ⁻¹' {t : ℝ | Spec.StrictlyInside (rows.getD i none) t} := by
    ext x; simp [Spec.insideSet]
  rw [this]
  exact isOpen_iInter_of_finite fun i => (h1 _).preimage (continuous_apply i)

/-- A sample lies in an open set around all data with positive probability. -/
lemma sampleLaw_pos (D : Dist) {data : List (Fin d → ℝ)} (hne : data ≠ []) {w : Option (List ℝ)} (hw : OkW data.length w)
    (L : Matrix (Fin d) (Fin d) ℝ) {S : Set (Fin d → ℝ)} (hS : IsOpen S) (hin : ∀ x ∈ data, x ∈ S) :
    sampleLaw D data w L S ≠ 0 := by
  have hn : 0 < data.length := List.length_pos_iff.mpr hne
  have hopen : IsOpen (⋂ x : {x // x ∈ data.toFinset}, {z : Fin d → ℝ | x.1 + L *ᵥ z ∈ S}) := by
    refine isOpen_iInter_of_finite fun x => hS.preimage ?_
    exact continuous_const.add (LinearMap.continuous_of_finiteDimensional (toLin' L))
  obtain ⟨δ, hδ, hball⟩ := Metric.isOpen_iff.mp hopen 0 (by
    simp only [Set.mem_iInter, Set.mem_ofPred_eq, mulVec_zero, add_zero]
    exact fun x => hin _ (List.mem_toFinset.mp x.2))
  rw [sampleLaw, Measure.map_apply (measurable_sampleOf _ _ _ _) hS.measurableSet]
  have hsub : {z : Fin d → ℝ | ∀ i, |z i| < δ / 2} ×ˢ Set.Ico (0 : ℝ) 1 ⊆ sampleOf D data w L ⁻¹' S := by
    rintro ⟨z, u⟩ ⟨hz, hu⟩
    obtain ⟨c, _, hc⟩ := choice_cuts hn hw
    have hlt := ((hc u hu.1 hu.2 _).mp rfl).1
    have hmem : data.getD (choiceIndex data.length w u) 0 ∈ data := by
      rw [List.getD_eq_getElem _ _ hlt]; exact List.getElem_mem hlt
    have hzb : z ∈ Metric.ball (0 : Fin d → ℝ) δ := by
      rw [mem_ball_zero_iff]
      refine lt_of_le_of_lt ((pi_norm_le_iff_of_nonneg (by positivity)).mpr fun i => (hz i).le) (by linarith)
    have := hball hzb
    simp only [Set.mem_iInter, Set.mem_ofPred_eq] at this
    exact this ⟨_, List.mem_toFinset.mpr hmem⟩
  refine fun h0 => ?_
  have := measure_mono_null hsub h0
  rw [Measure.prod_prod] at this
  refine mul_ne_zero (noise_small D (by positivity)) ?_ this
  exact unit_small one_pos

/-! ## C111 -/

/-- Specification: the probability that the sample of `resample(1, reflect=False)` lies in `A`. -/
noncomputable def Spec.oneSample {Ω : Type} [MeasurableSpace Ω] (k : KDE d) (μ : Measure Ω) (rnd : Ω → ℕ → ℕ → Draw d)
    (A : Set (Fin d → ℝ)) : ENNReal :=
  μ {ω | Spec.SamplesIn (n := 1) (k.resample (some 1) .none .false true (rnd ω)) fun _ => A}

/-- Specification: the probability that `resample(size, reflect=reflect)` returns. -/
noncomputable def Spec.successProb {Ω : Type} [MeasurableSpace Ω] (k : KDE d) (μ : Measure Ω) (rnd : Ω → ℕ → ℕ → Draw d)
    (size : ℕ) (reflect : Reflect) (squeeze : Bool) : ENNReal :=
  μ {ω | ∃ s, k.resample (some size) .none reflect squeeze (rnd ω) = .ok s}

/-- **C111.** For all kernels: with all data strictly inside of the boundaries, `resample` returns with positive
probability, and the samples it then returns are independent draws from the distribution of a sample drawn without
boundaries, conditioned on lying inside of the boundaries. -/
theorem C111_law {E : Ext} {a : KDEArgs d} {k : KDE d} (h : KDE.init E a = .ok k) (hd : 0 < d)
    (hM : (Spec.kernelMatrix k.covariance k.bandwidth).PosDef) (hc : k.kernel.chunk ≠ 0) (reflect : Reflect)
    (rows : List ReflRow) (hb : Spec.boundaries k reflect = .ok (some rows))
    (hin : ∀ x ∈ a.dataset, ∀ i : Fin d, Spec.StrictlyInside (rows.getD i none) (x i))
    {Ω : Type} [MeasurableSpace Ω] (μ : Measure Ω) (rnd : Ω → ℕ → ℕ → Draw d) (hrnd : Spec.RandomNumbers μ rnd)
    (size : ℕ) (squeeze : Bool) :
    0 < Spec.successProb k μ rnd size reflect squeeze ∧ 0 < Spec.oneSample k μ rnd (Spec.insideSet d rows) ∧
    ∀ A : Fin size → Set (Fin d → ℝ), (∀ j, MeasurableSet (A j)) →
      μ {ω | Spec.SamplesIn (k.resample (some size) .none reflect squeeze (rnd ω)) A}
        = Spec.successProb k μ rnd size reflect squeeze
          * ∏ j, Spec.oneSample k μ rnd (A j ∩ Spec.insideSet d rows) / Spec.oneSample k μ rnd (Spec.insideSet d rows) := by
  have hdat : k.dataset = a.dataset := by
    obtain ⟨_, _, _, _, _, _, _, _, _, _, _, _, _, _, _, _, _, _, he⟩ := init_inv h; rw [he]
  have hne : a.dataset ≠ [] := by
    obtain ⟨_, _, _, _, _, _, _, _, _, hne, _⟩ := init_inv h; exact hne
  have hw : OkW a.dataset.length k.weights := by
    intro l hl
    rw [← hdat]
    exact stored_weights h hl
  have hSm := measurable_insideSet (d := d) rows
  obtain ⟨L, hL, hlaw⟩ := reflect_law h hd hM
  obtain ⟨h1, h2⟩ := hlaw μ rnd hrnd
  obtain ⟨h3, h4⟩ := h2 reflect rows hb (by rw [hdat]; exact hin) size squeeze
  have hP := sampleLaw_pos k.kernel.dist hne hw L (isOpen_insideSet (d := d) rows) hin
  have hone : ∀ A, MeasurableSet A → Spec.oneSample k μ rnd A = sampleLaw k.kernel.dist a.dataset k.weights L A :=
    fun A hA => h1 true A hA
  refine ⟨pos_iff_ne_zero.mpr (h4 hc hP), by rw [hone _ hSm]; exact pos_iff_ne_zero.mpr hP, fun A hA => ?_⟩
  rw [h3 A hA, hone _ hSm]
  congr 1
  exact Finset.prod_congr rfl fun j _ => by rw [hone _ ((hA j).inter hSm)]

/-- **C111**, for the kernels whose samples follow the density (the Gaussian one in all dimensions, the box and parabola
kernels in one dimension): let `F` be the probability density returned by `pdf` of the KDE constructed in the same way
without boundaries.  Given that `resample` returns, the samples are independent draws from `F` cut off at the boundaries
and renormalised. -/
theorem C111_density {E : Ext} {a : KDEArgs d} {k k' : KDE d} (h : KDE.init E a = .ok k)
    (h' : KDE.init E { a with reflect := .none } = .ok k') (srt : List ℝ → List ℕ) (hd : 0 < d)
    (hM : (Spec.kernelMatrix k.covariance k.bandwidth).PosDef) (hD : Spec.ExactSampler k.kernel.dist d) :
    ∃ F : (Fin d → ℝ) → ℝ,
      (∀ pts : List (Fin d → ℝ), (k'.pdf E srt (some (.rows (Spec.rowsOf pts))) .none .none false).1
        = .ok (.rows (Spec.rowsOf pts), ⟨[pts.length], pts.map F⟩)) ∧
      ∀ (reflect : Reflect) (rows : List ReflRow), Spec.boundaries k reflect = .ok (some rows) →
      (∀ x ∈ a.dataset, ∀ i : Fin d, Spec.StrictlyInside (rows.getD i none) (x i)) →
      ∀ {Ω : Type} [MeasurableSpace Ω] (μ : Measure Ω) (rnd : Ω → ℕ → ℕ → Draw d), Spec.RandomNumbers μ rnd →
      ∀ (size : ℕ) (squeeze : Bool) (A : Fin size → Set (Fin d → ℝ)), (∀ j, MeasurableSet (A j)) →
        μ {ω | Spec.SamplesIn (k.resample (some size) .none reflect squeeze (rnd ω)) A}
          = Spec.successProb k μ rnd size reflect squeeze
            * ∏ j, (∫⁻ x in A j ∩ Spec.insideSet d rows, ENNReal.ofReal (F x))
              / ∫⁻ x in Spec.insideSet d rows, ENNReal.ofReal (F x) := by
  have hdat : k.dataset = a.dataset := by
    obtain ⟨_, _, _, _, _, _, _, _, _, _, _, _, _, _, _, _, _, _, he⟩ := init_inv h; rw [he]
  have hne : a.dataset ≠ [] := by
    obtain ⟨_, _, _, _, _, _, _, _, _, hne, _⟩ := init_inv h; exact hne
  have hw : OkW a.dataset.length k.weights := by
    intro l hl
    rw [← hdat]
    exact stored_weights h hl
  have hsame : k'.kernel = k.kernel ∧ k'.covariance = k.covariance ∧ k'.bandwidth = k.bandwidth ∧ k'.weights = k.weights := by
    obtain ⟨r1, w1, c1, b1, D1, o1, e1, x1, _, _, hw1, hc1, hb1, hD1, _, ho1, _, _, hk1⟩ := init_inv h
    obtain ⟨r2, w2, c2, b2, D2, o2, e2, x2, _, _, hw2, hc2, hb2, hD2, _, ho2, _, _, hk2⟩ := init_inv h'
    simp only at hw2 hc2 hb2 hD2
    rw [hw1] at hw2; cases hw2
    rw [hc1] at hc2; cases hc2
    rw [hb1] at hb2; cases hb2
    rw [hD1] at hD2; cases hD2
    rw [hk1, hk2]
    exact ⟨rfl, rfl, rfl, rfl⟩
  obtain ⟨s1, s2, s3, s4⟩ := hsame
  have hsf : SFinite (volume.withDensity (noiseDensity k.kernel.dist d)) := inferInstance
  refine ⟨_, fun pts => (C02_kde_density h' srt hd rfl (by rw [s2, s3]; exact hM) pts).2,
    fun reflect rows hb hin {Ω} _ μ rnd hrnd size squeeze A hA => ?_⟩
  obtain ⟨L, hL, hlaw⟩ := reflect_law h hd hM
  obtain ⟨h1, h2⟩ := hlaw μ rnd hrnd
  obtain ⟨h3, h4⟩ := h2 reflect rows hb (by rw [hdat]; exact hin) size squeeze
  have hnl : (noiseLaw k.kernel.dist d).prod Spec.unitLaw
      = (volume.withDensity (noiseDensity k.kernel.dist d)).prod Spec.unitLaw := by
    rw [← (joint_law_all k.kernel.dist).map_eq, ← (joint_law hD).map_eq]
    congr 1
    funext t
    congr 1
    rcases hD with h1 | ⟨h1, h2 | h2⟩
    · rw [h1]; rfl
    · rw [h2]; simp only [noiseFn, if_pos h1]; rfl
    · rw [h2]; rfl
  have hSm := measurable_insideSet (d := d) rows
  have hP : ∀ B, MeasurableSet B → sampleLaw k.kernel.dist a.dataset k.weights L B
      = ∫⁻ x in B, ENNReal.ofReal (Spec.kernelSum k.kernel.dist (Spec.kernelMatrix k.covariance k.bandwidth)
            (Spec.weighted a.dataset k.weights) x
          / (Real.sqrt (Spec.kernelMatrix k.covariance k.bandwidth).det * k.kernel.dist.norm d)
          / ((Spec.weighted a.dataset k.weights).map Prod.snd).sum) := by
    intro B hB
    rw [sampleLaw, hnl, (sample_law k.kernel.dist hd hne hw hM hL).map_eq, withDensity_apply _ hB]
  simp only [s1, s2, s3, s4]
  rw [h3 A hA, hP _ hSm]
  congr 1
  exact Finset.prod_congr rfl fun j _ => by rw [hP _ ((hA j).inter hSm)]

/-- Concrete case of the hypotheses of `C111_law` and `C111_density`: two data, box kernel, lower boundary 0. -/
example : ∃ (E : Ext) (a : KDEArgs 1) (k k' : KDE 1), KDE.init E a = .ok k ∧ KDE.init E { a with reflect := .none } = .ok k' ∧
    (Spec.kernelMatrix k.covariance k.bandwidth).PosDef ∧ Spec.ExactSampler k.kernel.dist 1 ∧ k.kernel.chunk ≠ 0 ∧
    Spec.boundaries k .none = .ok (some [some (some 0, none)]) ∧
    (∀ x ∈ a.dataset, ∀ i : Fin 1, Spec.StrictlyInside (([some (some 0, none)] : List ReflRow).getD i none) (x i)) ∧
    ∃ (Ω : Type) (_ : MeasurableSpace Ω) (μ : Measure Ω) (rnd : Ω → ℕ → ℕ → Draw 1), Spec.RandomNumbers μ rnd := by
  obtain ⟨k, hk, _, hD, hM, hr, hc, _⟩ := unit_init_reflect (d := 1) ⟨fun A => A, id⟩ [![1 / 2], ![3]] (by simp) .box rfl
    [some (some 0, none)] rfl (by simp) ⟨_, List.mem_singleton.mpr rfl⟩
  obtain ⟨dat, g1, _⟩ := dataExtrema_spec (data := [![1 / 2], ![3]]) (by simp : ([![1 / 2], ![3]] : List (Fin 1 → ℝ)) ≠ [])
  have hk' := init_of_stages (E := ⟨fun A => A, id⟩)
    (a := { dataset := [![1 / 2], ![3]]
            kernel := .cls .box
            bandwidth := .val (.num 1)
            covariance := some (1 : Matrix (Fin 1) (Fin 1) ℝ) })
    (reflect := none) (weights := none) (cov := 1) rfl (by simp) rfl rfl rfl rfl rfl (out := 1 + numPad)
    (by simp only [kernelOut, Dist.finite, if_true])
    (by rw [effExtrema, if_pos (by simp [Kernel.init, rescaleBw]), g1]) rfl
  refine ⟨_, _, k, _, hk, hk', by rw [hM]; exact PosDef.one, by rw [hD]; exact Or.inr ⟨rfl, Or.inl rfl⟩, by rw [hc]; norm_num,
    by simp [Spec.boundaries, hr], ?_, _, _, _, _, exists_randomNumbers 1⟩
  intro x hx i
  obtain rfl := Subsingleton.elim i 0
  intro lo hi e
  simp only [List.getD_cons_zero, Fin.val_zero, Option.some.injEq, Prod.mk.injEq] at e
  obtain ⟨rfl, rfl⟩ := e
  simp only [List.mem_cons, List.not_mem_nil, or_false] at hx
  rcases hx with rfl | rfl
  · exact ⟨by rintro l ⟨⟩; norm_num, by rintro l ⟨⟩⟩
  · exact ⟨by rintro l ⟨⟩; norm_num, by rintro l ⟨⟩⟩

end Kalepy
