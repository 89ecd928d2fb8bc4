import Verif.Props.Consistency

/-!
# C132, C133: bounds and continuity of the pdf, and its deviation from its mean
-/

namespace Kalepy

open MeasureTheory ProbabilityTheory Filter Topology Matrix

variable {d : ℕ}

/-! ## Specification -/

/-- Specification: the kernel of shape `D` and matrix `M`, scaled so that its integral is 1. -/
noncomputable def Spec.kernelAt (D : Dist) (M : Matrix (Fin d) (Fin d) ℝ) (u : Fin d → ℝ) : ℝ :=
  Spec.shape D (Spec.dist2 M u) / ∫ v, Spec.shape D (Spec.dist2 M v)

lemma kernelAt_eq (hd : 0 < d) (D : Dist) {M : Matrix (Fin d) (Fin d) ℝ} (hM : M.PosDef) :
    Spec.kernelAt D M = unitKernel D M := by
  funext u
  have := integral_shape_dist2 hd D hM 0
  simp only [sub_zero] at this
  rw [Spec.kernelAt, this, unitKernel]

lemma kernelAt_zero (hd : 0 < d) (D : Dist) {M : Matrix (Fin d) (Fin d) ℝ} (hM : M.PosDef) :
    Spec.kernelAt D M 0 = 1 / (Real.sqrt M.det * D.norm d) := by
  rw [kernelAt_eq hd D hM, unitKernel]
  congr 1
  cases D <;> simp [Spec.shape, Spec.dist2]

lemma kernelAt_bounds (hd : 0 < d) (D : Dist) {M : Matrix (Fin d) (Fin d) ℝ} (hM : M.PosDef) (u : Fin d → ℝ) :
    0 ≤ Spec.kernelAt D M u ∧ Spec.kernelAt D M u ≤ Spec.kernelAt D M 0 := by
  rw [kernelAt_zero hd D hM, kernelAt_eq hd D hM]
  exact ⟨unitKernel_nonneg hd D hM u, unitKernel_le hd D hM u⟩

/-- The pdf as an average of kernels. -/
lemma reports_average {E : Ext} {a : KDEArgs d} {k : KDE d} (h : KDE.init E a = .ok k) (srt : List ℝ → List ℕ)
    (hd : 0 < d) (hr : a.reflect = .none) (hM : (Spec.kernelMatrix k.covariance k.bandwidth).PosDef) :
    Spec.Reports E srt k fun x => ((Spec.weighted a.dataset k.weights).map fun p =>
      p.2 * Spec.kernelAt k.kernel.dist (Spec.kernelMatrix k.covariance k.bandwidth) (x - p.1)).sum
        / ((Spec.weighted a.dataset k.weights).map Prod.snd).sum := by
  intro pts
  rw [(C02_kde_density h srt hd hr hM pts).2]
  congr 3
  refine List.map_congr_left fun x _ => ?_
  congr 1
  rw [Spec.kernelSum, kernelAt_eq hd _ hM]
  simp only [unitKernel, ← mul_div_assoc]
  generalize Spec.weighted a.dataset k.weights = l
  induction l with
  | nil => simp
  | cons p l ih => rw [List.map_cons, List.map_cons, List.sum_cons, List.sum_cons, ← ih, add_div]

lemma reports_unique {E : Ext} {srt : List ℝ → List ℕ} {k : KDE d} {F G : (Fin d → ℝ) → ℝ}
    (hF : Spec.Reports E srt k F) (hG : Spec.Reports E srt k G) : F = G := by
  funext x
  have := (hF [x]).symm.trans (hG [x])
  simpa using this

/-- The weights are not negative, and their sum is positive. -/
lemma weighted_pos {E : Ext} {a : KDEArgs d} {k : KDE d} (h : KDE.init E a = .ok k) :
    (∀ p ∈ Spec.weighted a.dataset k.weights, 0 ≤ p.2) ∧
    0 < ((Spec.weighted a.dataset k.weights).map Prod.snd).sum := by
  have hl : ∀ l, k.weights = some l → l.length = a.dataset.length := fun l hl => (stored_valid h hl).1
  have hne := (C16_weights h).1
  rw [weighted_snd _ _ hl]
  cases hk : k.weights with
  | none =>
    refine ⟨fun p hp => ?_, ?_⟩
    · simp only [Spec.weighted, List.mem_map] at hp
      obtain ⟨x, -, rfl⟩ := hp
      exact zero_le_one
    · simp only [onesIfNone, List.sum_replicate, nsmul_eq_mul, mul_one]
      exact_mod_cast List.length_pos_iff.mpr hne
  | some w =>
    have hv := stored_valid h hk
    exact ⟨fun p hp => hv.2.1 _ (List.of_mem_zip hp).2, validW_sum hv⟩

/-! ## C132: bounds, continuity, decay -/

lemma wavg_bounds {α : Type*} (l : List (α × ℝ)) (g : α → ℝ) {B : ℝ} (hw : ∀ p ∈ l, 0 ≤ p.2)
    (hg : ∀ x, 0 ≤ g x ∧ g x ≤ B) :
    0 ≤ (l.map fun p => p.2 * g p.1).sum ∧ (l.map fun p => p.2 * g p.1).sum ≤ (l.map Prod.snd).sum * B := by
  induction l with
  | nil => simp
  | cons p l ih =>
    obtain ⟨h1, h2⟩ := ih fun q hq => hw q (by simp [hq])
    have hp := hw p (by simp)
    simp only [List.map_cons, List.sum_cons]
    constructor
    · exact add_nonneg (mul_nonneg hp (hg _).1) h1
    · rw [add_mul]
      exact add_le_add (mul_le_mul_of_nonneg_left (hg _).2 hp) h2

lemma continuous_shape {D : Dist} (hD : D ≠ .box) : Continuous (Spec.shape D) := by
  cases D with
  | gaussian => unfold Spec.shape; fun_prop
  | box => exact absurd rfl hD
  | parabola =>
    unfold Spec.shape
    exact Continuous.if_le (by fun_prop) continuous_const continuous_id continuous_const (by
      intro x hx; change x = 1 at hx; rw [hx]; norm_num)
  | triweight =>
    unfold Spec.shape
    exact Continuous.if_le (by fun_prop) continuous_const continuous_id continuous_const (by
      intro x hx; change x = 1 at hx; rw [hx]; norm_num)

lemma continuous_dist2 (M : Matrix (Fin d) (Fin d) ℝ) : Continuous (Spec.dist2 M) := by
  unfold Spec.dist2
  simp only [dotProduct, mulVec]
  fun_prop

lemma kernelAt_decay (hd : 0 < d) (D : Dist) {M : Matrix (Fin d) (Fin d) ℝ} (hM : M.PosDef) (a : Fin d → ℝ) :
    Tendsto (fun x => Spec.kernelAt D M (x - a)) (cocompact (Fin d → ℝ)) (𝓝 0) := by
  have h0 : Tendsto (Spec.kernelAt D M) (cocompact (Fin d → ℝ)) (𝓝 0) := by
    rw [kernelAt_eq hd D hM, ← Metric.cobounded_eq_cocompact]
    have h1 := unitKernel_decay hd D hM
    refine squeeze_zero_norm' ?_ h1
    have : ∀ᶠ u : Fin d → ℝ in Bornology.cobounded _, 1 ≤ ‖u‖ :=
      tendsto_norm_cobounded_atTop.eventually (eventually_ge_atTop 1)
    filter_upwards [this] with u hu
    rw [Real.norm_eq_abs, abs_of_nonneg (unitKernel_nonneg hd D hM u)]
    exact le_mul_of_one_le_left (unitKernel_nonneg hd D hM u) (one_le_pow₀ hu)
  exact h0.comp (Homeomorph.subRight a).isClosedEmbedding.tendsto_cocompact

/-- **C132.** The pdf of every `KDE` without boundaries is everywhere between 0 and the peak of a single kernel, tends to
0 far from the origin, and, unless the kernel is the box, is continuous. -/
theorem C132_regular {E : Ext} {a : KDEArgs d} {k : KDE d} (h : KDE.init E a = .ok k) (srt : List ℝ → List ℕ)
    (hd : 0 < d) (hr : a.reflect = .none) (hM : (Spec.kernelMatrix k.covariance k.bandwidth).PosDef) :
    ∃ F, Spec.Reports E srt k F ∧
      (∀ x, 0 ≤ F x ∧ F x ≤ Spec.kernelAt k.kernel.dist (Spec.kernelMatrix k.covariance k.bandwidth) 0) ∧
      Tendsto F (cocompact (Fin d → ℝ)) (𝓝 0) ∧ (k.kernel.dist ≠ .box → Continuous F) := by
  obtain ⟨hw, hs⟩ := weighted_pos h
  refine ⟨_, reports_average h srt hd hr hM, fun x => ?_, ?_, fun hD => ?_⟩
  · obtain ⟨h1, h2⟩ := wavg_bounds _ (fun y => Spec.kernelAt k.kernel.dist
      (Spec.kernelMatrix k.covariance k.bandwidth) (x - y)) hw fun y => kernelAt_bounds hd k.kernel.dist hM (x - y)
    exact ⟨div_nonneg h1 hs.le, by rw [div_le_iff₀' hs]; exact h2⟩
  · rw [← zero_div ((Spec.weighted a.dataset k.weights).map Prod.snd).sum]
    refine Tendsto.div_const ?_ _
    generalize Spec.weighted a.dataset k.weights = l
    induction l with
    | nil => simpa using tendsto_const_nhds
    | cons p l ih =>
      simp only [List.map_cons, List.sum_cons]
      have := ((kernelAt_decay hd k.kernel.dist hM p.1).const_mul p.2).add ih
      simpa using this
  · refine Continuous.div_const ?_ _
    generalize Spec.weighted a.dataset k.weights = l
    induction l with
    | nil => simpa using continuous_const
    | cons p l ih =>
      simp only [List.map_cons, List.sum_cons]
      refine Continuous.add (continuous_const.mul ?_) ih
      unfold Spec.kernelAt
      exact ((continuous_shape hD).comp ((continuous_dist2 _).comp (by fun_prop))).div_const _

/-- Specification: the weight of point `i`: 1 if there are no weights. -/
def Spec.weightOf (w : Option (List ℝ)) (i : ℕ) : ℝ :=
  match w with
  | none => 1
  | some l => l.getD i 0

lemma weighted_ofFn {α : Type*} {n : ℕ} (x : Fin n → α) (w : Option (List ℝ)) (hw : ∀ l, w = some l → l.length = n) :
    Spec.weighted (List.ofFn x) w = List.ofFn fun i : Fin n => (x i, Spec.weightOf w i) := by
  cases w with
  | none => simp [Spec.weighted, Spec.weightOf, List.map_ofFn, Function.comp_def]
  | some l =>
    apply List.ext_getElem
    · simp [Spec.weighted, hw l rfl]
    · intro i h1 h2
      have : i < l.length := by rw [hw l rfl]; simpa using h2
      simp [Spec.weighted, Spec.weightOf, this]

open Classical in
/-- **C132.** If some of the data points are replaced by others, while the weights, the covariance, the bandwidth and
the kernel stay the same, the pdf changes nowhere by more than the fraction of the weight that was replaced times the
peak of a single kernel. -/
theorem C132_sensitivity {E : Ext} {a a' : KDEArgs d} {k k' : KDE d} (h : KDE.init E a = .ok k)
    (h' : KDE.init E a' = .ok k') (srt : List ℝ → List ℕ) (hd : 0 < d) (hr : a.reflect = .none)
    (hr' : a'.reflect = .none) (hM : (Spec.kernelMatrix k.covariance k.bandwidth).PosDef) {n : ℕ}
    {x x' : Fin n → Fin d → ℝ} (hx : a.dataset = List.ofFn x) (hx' : a'.dataset = List.ofFn x')
    (hw : k'.weights = k.weights) (hc : k'.covariance = k.covariance) (hb : k'.bandwidth = k.bandwidth)
    (hD : k'.kernel.dist = k.kernel.dist) :
    ∃ F F', Spec.Reports E srt k F ∧ Spec.Reports E srt k' F' ∧ ∀ y, |F y - F' y| ≤
      (∑ i : Fin n with x i ≠ x' i, Spec.weightOf k.weights i) / (∑ i : Fin n, Spec.weightOf k.weights i) *
        Spec.kernelAt k.kernel.dist (Spec.kernelMatrix k.covariance k.bandwidth) 0 := by
  obtain ⟨hw0, hs⟩ := weighted_pos h
  have hl : ∀ l, k.weights = some l → l.length = n := fun l hl => by rw [(stored_valid h hl).1, hx]; simp
  have hM' : (Spec.kernelMatrix k'.covariance k'.bandwidth).PosDef := by rw [hc, hb]; exact hM
  have hF := reports_average h srt hd hr hM
  have hF' := reports_average h' srt hd hr' hM'
  refine ⟨_, _, hF, hF', fun y => ?_⟩
  rw [hx']
  rw [hx] at hs hw0 ⊢
  rw [hw, hc, hb, hD]
  rw [weighted_ofFn _ _ hl] at hs hw0
  rw [weighted_ofFn _ _ hl, weighted_ofFn _ _ hl]
  simp only [List.map_ofFn, Function.comp_def, List.sum_ofFn] at hs ⊢
  have hw1 : ∀ i : Fin n, 0 ≤ Spec.weightOf k.weights i := fun i =>
    hw0 (x i, Spec.weightOf k.weights i) (List.mem_ofFn.mpr ⟨i, rfl⟩)
  have e := fun u => kernelAt_bounds hd k.kernel.dist hM u
  set K := Spec.kernelAt k.kernel.dist (Spec.kernelMatrix k.covariance k.bandwidth)
  set W := ∑ i : Fin n, Spec.weightOf k.weights i
  rw [← sub_div, abs_div, abs_of_pos hs, div_mul_eq_mul_div]
  refine div_le_div_of_nonneg_right ?_ hs.le
  rw [← Finset.sum_sub_distrib, Finset.sum_mul, Finset.sum_filter]
  refine (Finset.abs_sum_le_sum_abs _ _).trans (Finset.sum_le_sum fun i _ => ?_)
  rw [← mul_sub, abs_mul, abs_of_nonneg (hw1 i)]
  split_ifs with hi
  · refine mul_le_mul_of_nonneg_left ?_ (hw1 i)
    have e1 := e (y - x i)
    have e2 := e (y - x' i)
    rw [abs_le]
    constructor <;> linarith
  · rw [not_not.mp hi]; simp

/-! ## C133: deviation from the mean -/

variable {Ω : Type*} [MeasurableSpace Ω] {P : Measure Ω} [IsProbabilityMeasure P]

lemma hoeffding_scaled {n : ℕ} {X : ℕ → Ω → Fin d → ℝ} (hm : ∀ i, Measurable (X i)) (hi : iIndepFun X P)
    (hid : ∀ i, P.map (X i) = P.map (X 0)) {g : (Fin d → ℝ) → ℝ} (hg : Measurable g) {B : ℝ} (hB : 0 < B)
    (hgB : ∀ y, 0 ≤ g y ∧ g y ≤ B) (hn : 0 < n) {ε : ℝ} (hε : 0 < ε) :
    P.real {ω | ε ≤ |(∑ i ∈ Finset.range n, g (X i ω)) / n - ∫ ω, g (X 0 ω) ∂P|} ≤
      2 * Real.exp (-2 * n * (ε / B) ^ 2) := by
  have hnr : (0 : ℝ) < n := by exact_mod_cast hn
  set Q := P.map (X 0) with hQ
  have hlaw : ∀ j : Fin n, HasLaw (fun ω => X j ω) Q P := fun j => ⟨(hm j).aemeasurable, hid j⟩
  have hind : iIndepFun (fun (j : Fin n) ω => X j ω) P := hi.precomp Fin.val_injective
  set f : (Fin d → ℝ) → ℝ := fun y => g y / B with hf
  have hfm : Measurable f := hg.div_const _
  have hf01 : ∀ y, f y ∈ Set.Icc (0 : ℝ) 1 := fun y =>
    ⟨div_nonneg (hgB y).1 hB.le, (div_le_one hB).mpr (hgB y).2⟩
  have hQp : IsProbabilityMeasure Q := Measure.isProbabilityMeasure_map (hm 0).aemeasurable
  have hfi : Integrable f Q := Integrable.of_mem_Icc 0 1 hfm.aemeasurable (Eventually.of_forall hf01)
  have hmean : ∫ y, f y ∂Q = (∫ ω, g (X 0 ω) ∂P) / B := by
    rw [hQ, integral_map (hm 0).aemeasurable hfm.aestronglyMeasurable, ← integral_div]
  have h1 := hoeffding_one hlaw hind hfm hf01 (ε := ε / B) (by positivity)
  have h2 := hoeffding_one (f := fun y => 1 - f y) hlaw hind (measurable_const.sub hfm)
    (fun x => ⟨sub_nonneg.mpr (hf01 x).2, sub_le_self _ (hf01 x).1⟩) (ε := ε / B) (by positivity)
  rw [integral_sub (integrable_const _) hfi] at h2
  simp only [integral_const, probReal_univ, smul_eq_mul, mul_one, hmean] at h1 h2
  set m := ∫ ω, g (X 0 ω) ∂P
  refine (measureReal_mono (s₂ := {ω | n * (ε / B) ≤ ∑ j : Fin n, (f (X j ω) - m / B)} ∪
    {ω | n * (ε / B) ≤ ∑ j : Fin n, (1 - f (X j ω) - (1 - m / B))}) ?_).trans
    ((measureReal_union_le _ _).trans (by linarith))
  intro ω hω
  have hω' : ε ≤ |(∑ i ∈ Finset.range n, g (X i ω)) / n - m| := hω
  have e1 : ∑ j : Fin n, (f (X j ω) - m / B) = n / B * ((∑ i ∈ Finset.range n, g (X i ω)) / n - m) := by
    rw [Finset.sum_sub_distrib, Finset.sum_range]
    simp only [hf, Finset.sum_const, Finset.card_univ, Fintype.card_fin, nsmul_eq_mul, ← Finset.sum_div]
    field_simp
  have e2 : ∑ j : Fin n, (1 - f (X j ω) - (1 - m / B)) = -(n / B * ((∑ i ∈ Finset.range n, g (X i ω)) / n - m)) := by
    rw [← e1, ← Finset.sum_neg_distrib]
    exact Finset.sum_congr rfl fun j _ => by ring
  have hnB : 0 < n / B := by positivity
  have e3 : n * (ε / B) = n / B * ε := by ring
  rcases le_abs.mp hω' with hh | hh
  · left
    show n * (ε / B) ≤ _
    rw [e1, e3]
    exact mul_le_mul_of_nonneg_left hh hnB.le
  · right
    show n * (ε / B) ≤ _
    rw [e2, e3, ← mul_neg]
    exact mul_le_mul_of_nonneg_left hh hnB.le

/-- **C133.** For independent data with density `f`, a given covariance and a fixed bandwidth `b`: the pdf at `x` has the
mean `∫ K(x - y) f(y) dy`, the density smoothed by the kernel, exactly and for every number `n > 1` of data; and it deviates
from its mean by `ε` or more with a probability of at most `2 exp(-2 n ε² / K(0)²)`. -/
theorem C133_deviation (hd : 0 < d) {X : ℕ → Ω → Fin d → ℝ} {f : (Fin d → ℝ) → ℝ} (hX : Spec.DrawnFrom P X f) (D : Dist)
    (E : Ext) (srt : List ℝ → List ℕ) (C : Matrix (Fin d) (Fin d) ℝ) (hC : C.PosDef) {b : ℝ} (hb : 0 < b) {n : ℕ}
    (hn : 1 < n) :
    ∃ F : Ω → (Fin d → ℝ) → ℝ,
      (∀ ω, ∃ k, KDE.init E { dataset := List.ofFn fun i : Fin n => X i ω
                              kernel := .cls D
                              bandwidth := .val (.num b)
                              covariance := some C } = .ok k ∧ Spec.Reports E srt k (F ω)) ∧
      ∀ x, Integrable (fun ω => F ω x) P ∧
        ∫ ω, F ω x ∂P = ∫ y, Spec.kernelAt D ((b ^ 2) • C) (x - y) * f y ∧
        ∀ ε > 0, P.real {ω | ε ≤ |F ω x - ∫ y, Spec.kernelAt D ((b ^ 2) • C) (x - y) * f y|} ≤
          2 * Real.exp (-2 * n * (ε / Spec.kernelAt D ((b ^ 2) • C) 0) ^ 2) := by
  have hM : ((b ^ 2) • C).PosDef := hC.smul (by positivity)
  have hnr : (0 : ℝ) < n := by positivity
  refine ⟨fun ω => estimate D ((b ^ 2) • C) n fun i => X i ω, fun ω => ?_, fun x => ?_⟩
  · obtain ⟨k, hk, hrep, -⟩ := iid_reports E srt hd D hn (fun i => X i ω) (some C) (by rintro c ⟨⟩; exact hC)
      (.val (.num b)) b hb (by simp [bwMatrix, computeBw, Except.map]) hC
    exact ⟨k, hk, hrep⟩
  · rw [kernelAt_eq hd D hM]
    set g : (Fin d → ℝ) → ℝ := fun y => unitKernel D ((b ^ 2) • C) (x - y) with hg
    have hgm : Measurable g := (measurable_unitKernel _ _).comp (by fun_prop)
    have hK0 : unitKernel D ((b ^ 2) • C) 0 = 1 / (Real.sqrt ((b ^ 2) • C).det * D.norm d) := by
      rw [← kernelAt_eq hd D hM, kernelAt_zero hd D hM]
    have hgB : ∀ y, 0 ≤ g y ∧ g y ≤ unitKernel D ((b ^ 2) • C) 0 := fun y =>
      ⟨unitKernel_nonneg hd D hM _, by rw [hK0]; exact unitKernel_le hd D hM _⟩
    have hB : 0 < unitKernel D ((b ^ 2) • C) 0 := by
      rw [hK0]
      have := mul_pos (Real.sqrt_pos.mpr hM.det_pos) (D.norm_pos d hd)
      positivity
    have hid : ∀ i, P.map (X i) = P.map (X 0) := fun i => by rw [hX.law, hX.law]
    have hgi : ∀ i, Integrable (fun ω => g (X i ω)) P := fun i =>
      Integrable.of_mem_Icc 0 _ (hgm.comp (hX.measurable i)).aemeasurable (Eventually.of_forall fun ω => hgB _)
    have hgmean : ∀ i, ∫ ω, g (X i ω) ∂P = ∫ y, g y * f y := by
      intro i
      rw [← mean_density hX g hgm, ← integral_map (hX.measurable i).aemeasurable hgm.aestronglyMeasurable, hid i,
        integral_map (hX.measurable 0).aemeasurable hgm.aestronglyMeasurable]
    refine ⟨?_, ?_, fun ε hε => ?_⟩
    · exact (integrable_finsetSum _ fun i _ => hgi i).div_const _
    · show ∫ ω, (∑ i ∈ Finset.range n, g (X i ω)) / n ∂P = _
      rw [integral_div, integral_finsetSum _ fun i _ => hgi i]
      simp only [hgmean, Finset.sum_const, Finset.card_range, nsmul_eq_mul]
      rw [mul_div_cancel_left₀ _ hnr.ne']
    · have := hoeffding_scaled hX.measurable hX.indep hid hgm hB hgB (by omega : 0 < n) hε
      rw [hgmean 0] at this
      exact this

/-! ## Concrete cases -/

/-- Concrete case of the hypotheses of `C132_regular`: three points in the plane, with any kernel. -/
example (E : Ext) (srt : List ℝ → List ℕ) (D : Dist) : ∃ (a : KDEArgs 2) (k : KDE 2), KDE.init E a = .ok k ∧
    a.dataset.length = 3 ∧ a.reflect = .none ∧ (Spec.kernelMatrix k.covariance k.bandwidth).PosDef ∧
    k.kernel.dist = D := by
  obtain ⟨k, hk, -, hM, hD⟩ := iid_reports E srt two_pos D (n := 3) (by norm_num) (fun i => ![(i : ℝ), (i : ℝ) ^ 2])
    (some 1) (by rintro c ⟨⟩; exact PosDef.one) (.val (.num (1 / 2))) (1 / 2) (by norm_num)
    (by simp [bwMatrix, computeBw, Except.map]) PosDef.one
  exact ⟨_, k, hk, by simp, rfl, hM, hD⟩

/-- Concrete case of `C132_sensitivity`: one of three points of equal weight moves, so that the pdf changes by at most a
third of the peak of a kernel. -/
example (E : Ext) (srt : List ℝ → List ℕ) (D : Dist) : ∃ (k k' : KDE 2) (F F' : (Fin 2 → ℝ) → ℝ),
    KDE.init E
      { dataset := List.ofFn ![![0, 0], ![1, 0], ![0, 1]]
        kernel := .cls D
        bandwidth := .val (.num (1 / 2))
        covariance := some 1 } = .ok k ∧
    KDE.init E
      { dataset := List.ofFn ![![0, 0], ![1, 0], ![7, 9]]
        kernel := .cls D
        bandwidth := .val (.num (1 / 2))
        covariance := some 1 } = .ok k' ∧ Spec.Reports E srt k F ∧ Spec.Reports E srt k' F' ∧
    ∀ y, |F y - F' y| ≤ 1 / 3 * Spec.kernelAt D (Spec.kernelMatrix k.covariance k.bandwidth) 0 := by
  have key : ∀ x : Fin 3 → Fin 2 → ℝ, ∃ k, KDE.init E
      { dataset := List.ofFn x
        kernel := .cls D
        bandwidth := .val (.num (1 / 2))
        covariance := some 1 } = .ok k ∧ k.weights = none ∧ k.kernel.dist = D ∧ k.covariance = 1 ∧
      k.bandwidth = Matrix.of fun _ _ => (1 / 2 : ℝ) := by
    intro x
    have := iid_init E D (n := 3) (by norm_num) (fun i => if h : i < 3 then x ⟨i, h⟩ else 0)
      (some 1) (by rintro c ⟨⟩; exact PosDef.one) (.val (.num (1 / 2))) (1 / 2) (by simp [bwMatrix, computeBw, Except.map])
    simpa using this
  obtain ⟨k, hk, hw, hD, hc, hb⟩ := key ![![0, 0], ![1, 0], ![0, 1]]
  obtain ⟨k', hk', hw', hD', hc', hb'⟩ := key ![![0, 0], ![1, 0], ![7, 9]]
  have hM : (Spec.kernelMatrix k.covariance k.bandwidth).PosDef := by
    rw [hb, kernelMatrix_const, hc]
    exact PosDef.one.smul (by norm_num)
  obtain ⟨F, F', hF, hF', hle⟩ := C132_sensitivity hk hk' srt two_pos rfl rfl hM rfl rfl (by rw [hw, hw'])
    (by rw [hc, hc']) (by rw [hb, hb']) (by rw [hD, hD'])
  refine ⟨k, k', F, F', hk, hk', hF, hF', fun y => ?_⟩
  have := hle y
  rw [hw, hD] at this
  simp only [Spec.weightOf, Finset.sum_const, Finset.card_univ, Fintype.card_fin, nsmul_eq_mul, mul_one] at this
  convert this using 3
  · have : (Finset.univ.filter fun i : Fin 3 => (![![(0 : ℝ), 0], ![1, 0], ![0, 1]] : Fin 3 → Fin 2 → ℝ) i ≠
        (![![0, 0], ![1, 0], ![7, 9]] : Fin 3 → Fin 2 → ℝ) i) = {2} := by
      ext i
      fin_cases i <;> simp
    rw [this]
    simp
  · norm_num

/-- Concrete case of the hypotheses of `C133_deviation`: data that are uniform in the unit square. -/
example (E : Ext) (srt : List ℝ → List ℕ) (D : Dist) :
    ∃ (Ω : Type) (_ : MeasurableSpace Ω) (P : Measure Ω) (_ : IsProbabilityMeasure P) (X : ℕ → Ω → Fin 2 → ℝ),
      ∃ F : Ω → (Fin 2 → ℝ) → ℝ,
      (∀ ω, ∃ k, KDE.init E { dataset := List.ofFn fun i : Fin 1000 => X i ω
                              kernel := .cls D
                              bandwidth := .val (.num (1 / 10))
                              covariance := some 1 } = .ok k ∧ Spec.Reports E srt k (F ω)) ∧
      ∀ x, ∫ ω, F ω x ∂P = ∫ y, Spec.kernelAt D (((1 / 10 : ℝ) ^ 2) • 1) (x - y) * (Set.Icc 0 1).indicator 1 y := by
  obtain ⟨Ω, mΩ, P, hP, X, hX, -, -⟩ := exists_uniform_data 2
  obtain ⟨F, h1, h2⟩ := C133_deviation two_pos hX D E srt 1 PosDef.one (b := 1 / 10) (by norm_num) (n := 1000) (by norm_num)
  exact ⟨Ω, mΩ, P, hP, X, F, h1, fun x => (h2 x).2.1⟩

end Kalepy
