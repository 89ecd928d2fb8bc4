import Verif.Props.Boundary
import Verif.Props.RegularityReflect
import Verif.Props.ReflectLaw

/-!
# C124 with boundaries: probabilities computed from the pdf tend to the true ones
-/

namespace Kalepy

open MeasureTheory ProbabilityTheory Filter Topology Matrix

variable {d : ℕ} {Ω : Type*} [MeasurableSpace Ω] {P : Measure Ω} [IsProbabilityMeasure P]

omit [IsProbabilityMeasure P] in
/-- Images of independent points are independent points, drawn from the image of the density. -/
lemma drawnFrom_image {X : ℕ → Ω → Fin d → ℝ} {f : (Fin d → ℝ) → ℝ} (hX : Spec.DrawnFrom P X f) {m : (Fin d → ℝ) → Fin d → ℝ}
    (hm : MeasurePreserving m volume volume) (hmm : ∀ y, m (m y) = y) :
    Spec.DrawnFrom P (fun i ω => m (X i ω)) fun x => f (m x) where
  measurable i := hm.measurable.comp (hX.measurable i)
  indep := hX.indep.comp (fun _ => m) fun _ => hm.measurable
  nonneg y := hX.nonneg _
  measurable_density := hX.measurable_density.comp hm.measurable
  law i := by
    have h1 : P.map (fun ω => m (X i ω)) = (P.map (X i)).map m := (Measure.map_map hm.measurable (hX.measurable i)).symm
    rw [h1, hX.law i]
    ext A hA
    rw [Measure.map_apply hm.measurable hA, withDensity_apply _ (hm.measurable hA), withDensity_apply _ hA]
    have h2 := hm.setLIntegral_comp_preimage hA (f := fun x => ENNReal.ofReal (f (m x)))
      (hX.measurable_density.comp hm.measurable).ennreal_ofReal
    simpa only [hmm] using h2

/-- If the kernel matrix is close to one for which little is missing, the estimate is close on average. -/
lemma estimate_l1 (hd : 0 < d) (D : Dist) {S M : Matrix (Fin d) (Fin d) ℝ} (hS : S.PosDef) (hM : M.PosDef) {r ε : ℝ}
    (hr : 1 < r) (hq : 1 - ε / 4 < (r * Real.sqrt (r ^ d))⁻¹)
    (h1 : ∀ u, r⁻¹ * Spec.dist2 S u ≤ Spec.dist2 M u ∧ Spec.dist2 M u ≤ r * Spec.dist2 S u)
    (h2 : r⁻¹ * Real.sqrt S.det < Real.sqrt M.det) (h3 : Real.sqrt M.det < r * Real.sqrt S.det) {h : ℝ} (hh : 0 < h)
    {n : ℕ} (hn : 0 < n) (y : ℕ → Fin d → ℝ) {g : (Fin d → ℝ) → ℝ} (hg : Integrable g) (hg1 : ∫ x, g x = 1)
    (hdef : ∫ x, max (g x - estimate D ((h ^ 2) • (r⁻¹ • S)) n y x) 0 < ε / 4) :
    ∫ x, |estimate D ((h ^ 2) • M) n y x - g x| < ε := by
  have hr0 : 0 < r := by linarith
  have hq1 : (r * Real.sqrt (r ^ d))⁻¹ ≤ 1 := by
    refine inv_le_one_of_one_le₀ ?_
    have : 1 ≤ Real.sqrt (r ^ d) := Real.one_le_sqrt.mpr (one_le_pow₀ hr.le)
    nlinarith
  obtain ⟨i1, i2⟩ := estimate_integral hd D (hM.smul (pow_pos hh 2)) hn y
  obtain ⟨j1, j2⟩ := estimate_integral hd D ((hS.smul (inv_pos.mpr hr0)).smul (pow_pos hh 2)) hn y
  rw [integral_abs_sub hg i1 (by rw [hg1, i2])]
  have hp1 : Integrable fun x => max (g x - estimate D ((h ^ 2) • M) n y x) 0 := (hg.sub i1).pos_part
  have hp2 : Integrable fun x => max (g x - estimate D ((h ^ 2) • (r⁻¹ • S)) n y x) 0 := (hg.sub j1).pos_part
  have hle : ∫ x, max (g x - estimate D ((h ^ 2) • M) n y x) 0
      ≤ ∫ x, (max (g x - estimate D ((h ^ 2) • (r⁻¹ • S)) n y x) 0
        + (1 - (r * Real.sqrt (r ^ d))⁻¹) * estimate D ((h ^ 2) • (r⁻¹ • S)) n y x) := by
    refine integral_mono hp1 (hp2.add (j1.const_mul _)) fun x => ?_
    have s1 := (estimate_sandwich hd D hS hM hr h1 h2 h3 hh n y x).1
    have s0 := estimate_nonneg hd D ((hS.smul (inv_pos.mpr hr0)).smul (pow_pos hh 2)) n y x
    have s2 := le_max_left (g x - estimate D ((h ^ 2) • (r⁻¹ • S)) n y x) 0
    have s3 := le_max_right (g x - estimate D ((h ^ 2) • (r⁻¹ • S)) n y x) 0
    refine max_le ?_ ?_
    · linarith
    · exact add_nonneg s3 (mul_nonneg (by linarith) s0)
  rw [integral_add hp2 (j1.const_mul _), integral_const_mul, j2, mul_one] at hle
  linarith

open Classical in
/-- The estimate with boundaries, at all points. -/
noncomputable def estimateB (D : Dist) (M : Matrix (Fin d) (Fin d) ℝ) (rows : List ReflRow) (n : ℕ) (y : ℕ → Fin d → ℝ)
    (x : Fin d → ℝ) : ℝ :=
  (if x ∈ Spec.Allowed rows then estimate D M n y x else 0)
    + ((List.finRange d).map fun j : Fin d => if Spec.AllowedFrom rows j x then
        ((Spec.bounds (rows.getD j none)).map fun b => estimate D M n (fun i => Spec.mirror j b (y i)) x).sum else 0).sum

lemma imageAverage_estimate (hd : 0 < d) (D : Dist) {M : Matrix (Fin d) (Fin d) ℝ} (hM : M.PosDef) (n : ℕ)
    (y : ℕ → Fin d → ℝ) (m : (Fin d → ℝ) → Fin d → ℝ) (x : Fin d → ℝ) :
    imageAverage D M (Spec.weighted (List.ofFn fun i : Fin n => y i) none) m x = estimate D M n (fun i => m (y i)) x := by
  have htot : ((Spec.weighted (List.ofFn fun i : Fin n => y i) none).map Prod.snd).sum = (n : ℝ) := by
    simp [Spec.weighted, Function.comp_def]
  rw [imageAverage, htot, estimate, kernelAt_eq hd D hM]
  simp only [Spec.weighted, List.map_map, Function.comp_def, one_mul, List.map_ofFn, List.sum_ofFn]
  rw [Finset.sum_range]

/-- What the estimator of independent data with boundaries reports, at all points. -/
lemma iid_reports_planes (E : Ext) (srt : List ℝ → List ℕ) (hd : 0 < d) (D : Dist) {n : ℕ} (hn : 1 < n) (y : ℕ → Fin d → ℝ)
    (C : Option (Matrix (Fin d) (Fin d) ℝ)) (hC : ∀ c, C = some c → c.PosDef) (bw : BwArg) (b : ℝ) (hb0 : 0 < b)
    (hb : bwMatrix d n false bw = .ok (Matrix.of fun _ _ => b)) {rows : List ReflRow} (hrows : Spec.GoodRows d rows)
    (hS : (C.getD (Spec.sampleCov (Spec.weighted (List.ofFn fun i : Fin n => y i) none))).PosDef) :
    ∃ k, KDE.init E
      { dataset := List.ofFn fun i : Fin n => y i
        kernel := .cls D
        bandwidth := bw
        covariance := C
        reflect := Reflect.ofChecked (some rows) } = .ok k ∧
      Spec.Reports E srt k (estimateB D ((b ^ 2) •
        C.getD (Spec.sampleCov (Spec.weighted (List.ofFn fun i : Fin n => y i) none))) rows n y) ∧
      (Spec.kernelMatrix k.covariance k.bandwidth).PosDef ∧ k.kernel.dist = D ∧ k.reflect = some rows := by
  obtain ⟨k, hk, hw, hkd, hc, hbw, hkr⟩ := iid_init_rows E D hn y C hC bw b hb hrows
  have hM : Spec.kernelMatrix k.covariance k.bandwidth = (b ^ 2) •
      C.getD (Spec.sampleCov (Spec.weighted (List.ofFn fun i : Fin n => y i) none)) := by rw [hc, hbw, kernelMatrix_const]
  have hMp : (Spec.kernelMatrix k.covariance k.bandwidth).PosDef := by rw [hM]; exact hS.smul (by positivity)
  refine ⟨k, hk, ?_, hMp, hkd, hkr⟩
  have h1 := reports_planes hk srt hd hMp hkr
  rw [hM] at hMp
  rw [hM, hw, hkd] at h1
  simp only [planeSum, imageAverage_estimate hd D hMp] at h1
  exact h1

lemma measurable_allowedFrom (rows : List ReflRow) (j : Fin d) : MeasurableSet {x | Spec.AllowedFrom rows j x} :=
  measurable_okOn rows fun i => j ≤ i

lemma integrable_list_sum {α β : Type*} [MeasurableSpace β] {μ : Measure β} (l : List α) (g : α → β → ℝ)
    (h : ∀ a ∈ l, Integrable (g a) μ) : Integrable (fun x => (l.map fun a => g a x).sum) μ := by
  induction l with
  | nil => simp
  | cons a l ih =>
    simp only [List.map_cons, List.sum_cons]
    exact (h a (List.mem_cons_self ..)).add (ih fun b hb => h b (List.mem_cons_of_mem _ hb))

lemma integral_list_le {α β : Type*} [MeasurableSpace β] {μ : Measure β} (l : List α) (g : α → β → ℝ) {c : ℝ}
    (h : ∀ a ∈ l, Integrable (g a) μ) (hc : ∀ a ∈ l, ∫ x, g a x ∂μ ≤ c) :
    ∫ x, (l.map fun a => g a x).sum ∂μ ≤ l.length * c := by
  induction l with
  | nil => simp
  | cons a l ih =>
    have h' : ∀ b ∈ l, Integrable (g b) μ := fun b hb => h b (List.mem_cons_of_mem _ hb)
    simp only [List.map_cons, List.sum_cons, List.length_cons, Nat.cast_add, Nat.cast_one]
    rw [integral_add (h a (List.mem_cons_self ..)) (integrable_list_sum l g h'), add_mul, one_mul, add_comm]
    exact add_le_add (ih h' fun b hb => hc b (List.mem_cons_of_mem _ hb)) (hc a (List.mem_cons_self ..))

lemma estimateB_integrable (hd : 0 < d) (D : Dist) {M : Matrix (Fin d) (Fin d) ℝ} (hM : M.PosDef) (rows : List ReflRow)
    {n : ℕ} (hn : 0 < n) (y : ℕ → Fin d → ℝ) : Integrable (estimateB D M rows n y) := by
  classical
  have h1 : ∀ y', Integrable (estimate D M n y') := fun y' => (estimate_integral hd D hM hn y').1
  unfold estimateB
  refine Integrable.add ?_ (integrable_list_sum _ _ fun j _ => ?_)
  · refine ((h1 y).indicator (measurable_allowed rows)).congr (Eventually.of_forall fun x => ?_)
    simp only [Set.indicator_apply]
  · refine ((integrable_list_sum (Spec.bounds (rows.getD j none)) (fun b x => estimate D M n
      (fun i => Spec.mirror j b (y i)) x) fun b _ => h1 _).indicator (measurable_allowedFrom rows j)).congr
      (Eventually.of_forall fun x => ?_)
    simp only [Set.indicator_apply, Set.mem_ofPred_eq]

/-- With boundaries, the estimate misses the density by no more than the estimates from the data and from their mirror images
miss the densities of these. -/
lemma estimateB_le (hd : 0 < d) (D : Dist) {M : Matrix (Fin d) (Fin d) ℝ} (hM : M.PosDef) (rows : List ReflRow)
    (n : ℕ) (y : ℕ → Fin d → ℝ) {f : (Fin d → ℝ) → ℝ} (hf : ∀ z ∉ Spec.Allowed rows, f z = 0) :
    ∀ᵐ x : Fin d → ℝ, |estimateB D M rows n y x - f x|
      ≤ ((images d rows).map fun m => |estimate D M n (fun i => m (y i)) x - f (m x)|).sum := by
  classical
  filter_upwards [ae_not_bounds rows] with x hx
  have h0 := fun y' => estimate_nonneg hd D hM n y' x
  rw [images, List.map_cons, List.sum_cons, List.map_flatMap, List.flatMap_def, List.sum_flatten, List.map_map, estimateB,
    add_sub_right_comm]
  refine (abs_add_le _ _).trans (add_le_add ?_ ?_)
  · by_cases hxa : x ∈ Spec.Allowed rows
    · rw [if_pos hxa]; exact le_rfl
    · rw [if_neg hxa, hf x hxa]
      simp
  · have hnn : ∀ j : Fin d, 0 ≤ (if Spec.AllowedFrom rows j x then ((Spec.bounds (rows.getD j none)).map fun b =>
        estimate D M n (fun i => Spec.mirror j b (y i)) x).sum else 0) := by
      intro j
      split_ifs
      · refine List.sum_nonneg fun t ht => ?_
        obtain ⟨b, _, rfl⟩ := List.mem_map.mp ht
        exact h0 _
      · exact le_rfl
    rw [abs_of_nonneg (List.sum_nonneg fun t ht => by obtain ⟨j, _, rfl⟩ := List.mem_map.mp ht; exact hnn j)]
    refine List.sum_le_sum fun j _ => ?_
    simp only [Function.comp_apply, List.map_map]
    by_cases hj : Spec.AllowedFrom rows j x
    · rw [if_pos hj]
      refine List.sum_le_sum fun b hb => ?_
      have hv : Spec.mirror j b x ∉ Spec.Allowed rows := by
        intro hcon
        refine hcon j ?_
        rw [mirror_same]
        exact mirror_violates (hj j le_rfl) hb fun e => hx j (e ▸ hb)
      simp only [Function.comp_apply, hf _ hv, sub_zero]
      exact le_abs_self _
    · rw [if_neg hj]
      refine List.sum_nonneg fun t ht => ?_
      obtain ⟨b, _, rfl⟩ := List.mem_map.mp ht
      exact abs_nonneg _

omit [IsProbabilityMeasure P] in
/-- Finitely many events that become improbable: that one of them happens becomes improbable. -/
lemma tendsto_exists {α : Type*} (l : List α) (B : α → ℕ → Set Ω) (h : ∀ a ∈ l, Tendsto (fun n => P (B a n)) atTop (𝓝 0)) :
    Tendsto (fun n => P {ω | ∃ a ∈ l, ω ∈ B a n}) atTop (𝓝 0) := by
  induction l with
  | nil => simp
  | cons a l ih =>
    have h1 := (h a (List.mem_cons_self ..)).add (ih fun b hb => h b (List.mem_cons_of_mem _ hb))
    rw [add_zero] at h1
    refine tendsto_of_tendsto_of_tendsto_of_le_of_le tendsto_const_nhds h1 (fun _ => zero_le) fun n => ?_
    refine le_trans (measure_mono fun ω hω => ?_) (measure_union_le _ _)
    obtain ⟨b, hb, hω⟩ := hω
    rcases List.mem_cons.mp hb with rfl | hb
    · exact Or.inl hω
    · exact Or.inr ⟨b, hb, hω⟩

/-- The covariance of the kernels is close to its limit with a probability that tends to 1. -/
lemma limitCov_close {X : ℕ → Ω → Fin d → ℝ} {f : (Fin d → ℝ) → ℝ} (hX : Spec.DrawnFrom P X f)
    {C : Option (Matrix (Fin d) (Fin d) ℝ)} (hC : ∀ c, C = some c → c.PosDef)
    (hmom : C = none → Integrable fun y => ‖y‖ ^ 2 * f y) {r : ℝ} (hr : 1 < r) :
    Tendsto (fun n : ℕ => P {ω | ¬ ((C.getD (Spec.sampleCov (Spec.weighted (List.ofFn fun i : Fin n => X i ω) none))).PosDef ∧
      (∀ u, r⁻¹ * Spec.dist2 (Spec.limitCov P X C) u
          ≤ Spec.dist2 (C.getD (Spec.sampleCov (Spec.weighted (List.ofFn fun i : Fin n => X i ω) none))) u ∧
        Spec.dist2 (C.getD (Spec.sampleCov (Spec.weighted (List.ofFn fun i : Fin n => X i ω) none))) u
          ≤ r * Spec.dist2 (Spec.limitCov P X C) u) ∧
      r⁻¹ * Real.sqrt (Spec.limitCov P X C).det
        < Real.sqrt (C.getD (Spec.sampleCov (Spec.weighted (List.ofFn fun i : Fin n => X i ω) none))).det ∧
      Real.sqrt (C.getD (Spec.sampleCov (Spec.weighted (List.ofFn fun i : Fin n => X i ω) none))).det
        < r * Real.sqrt (Spec.limitCov P X C).det)}) atTop (𝓝 0) := by
  have hS := limitCov_posDef hX hC hmom
  cases C with
  | some c =>
    have h1 := (matrix_close (hC c rfl) hr).self_of_nhds ((hC c rfl).isHermitian : c.IsSymm)
    refine tendsto_const_nhds.congr fun n => ?_
    rw [eq_comm]
    convert measure_empty (μ := P)
    rw [Set.eq_empty_iff_forall_notMem]
    exact fun ω hω => hω h1
  | none =>
    have hid : ∀ i, P.map (X i) = P.map (X 0) := fun i => by rw [hX.law i, hX.law 0]
    have c1 := prob_nhds_tendsto (measurable_sampleCov hX.measurable)
      (sampleCov_tendsto hX.measurable hid (fun i j hij => hX.indep.indepFun hij) (coord_memLp hX (hmom rfl)))
      (matrix_close hS hr)
    refine tendsto_of_tendsto_of_tendsto_of_le_of_le tendsto_const_nhds c1 (fun _ => zero_le) fun n => ?_
    exact measure_mono fun ω hω hcon => hω (hcon (sampleCov_symm _))

/-- The core of the matter. -/
lemma tv_reflect_core (hd : 0 < d) {X : ℕ → Ω → Fin d → ℝ} {f : (Fin d → ℝ) → ℝ} (hX : Spec.DrawnFrom P X f)
    {C : Option (Matrix (Fin d) (Fin d) ℝ)} (hC : ∀ c, C = some c → c.PosDef)
    (hmom : C = none → Integrable fun y => ‖y‖ ^ 2 * f y) {rows : List ReflRow} (hrows : Spec.GoodRows d rows)
    (hf : ∀ z ∉ Spec.Allowed rows, f z = 0) (D : Dist) (E : Ext)
    (srt : List ℝ → List ℕ) (bw : ℕ → BwArg) (h : ℕ → ℝ) (hh : Spec.Shrinks d h)
    (hb : ∀ n : ℕ, 1 < n → bwMatrix d n false (bw n) = .ok (Matrix.of fun _ _ => h n)) {ε : ℝ} (hε : 0 < ε) :
    Tendsto (fun n : ℕ => P {ω | ¬ ∃ k M,
      KDE.init E
        { dataset := List.ofFn fun i : Fin n => X i ω
          kernel := .cls D
          bandwidth := bw n
          covariance := C
          reflect := Reflect.ofChecked (some rows) } = .ok k ∧
      Spec.Reports E srt k (estimateB D M rows n fun i => X i ω) ∧ M.PosDef ∧
      (Spec.kernelMatrix k.covariance k.bandwidth).PosDef ∧ k.kernel.dist = D ∧ k.reflect = some rows ∧
      (∃ k', KDE.init E
        { dataset := List.ofFn fun i : Fin n => X i ω
          kernel := .cls D
          bandwidth := bw n
          covariance := C } = .ok k' ∧ Spec.Reports E srt k' (estimate D M n fun i => X i ω)) ∧
      ∫ x, |estimate D M n (fun i => X i ω) x - f x| < ε ∧
      ∫ x, |estimateB D M rows n (fun i => X i ω) x - f x| < ε}) atTop (𝓝 0) := by
  have hS := limitCov_posDef hX hC hmom
  set S := Spec.limitCov P X C with hSdef
  set ε' := ε / ((images d rows).length + 1) with hε'
  have hlen : (0 : ℝ) < (images d rows).length + 1 := by positivity
  have hε0 : 0 < ε' := by positivity
  have hεle : (images d rows).length * ε' < ε := by
    rw [hε', ← mul_div_assoc, div_lt_iff₀ hlen]
    nlinarith
  have hε1 : ε' ≤ ε := div_le_self hε.le (by simp)
  obtain ⟨r, hr, -, hr2⟩ := exists_factor d (v := 1) (ε := min (ε' / 4) 1) (by positivity)
  have hr0 : 0 < r := by linarith
  have hq : 0 < r * Real.sqrt (r ^ d) := mul_pos hr0 (Real.sqrt_pos.mpr (by positivity))
  have hq' : 1 - ε' / 4 < (r * Real.sqrt (r ^ d))⁻¹ := by
    have a := inv_pos.mpr hq
    have b : 0 < min (ε' / 4) 1 := by positivity
    have c := min_le_left (ε' / 4) 1
    nlinarith
  have hdraw : ∀ m ∈ images d rows, Spec.DrawnFrom P (fun i ω => m (X i ω)) fun x => f (m x) := fun m hm =>
    drawnFrom_image hX (images_spec hm).1 (images_spec hm).2.1
  have hone : ∀ m ∈ images d rows, ∫ x, f (m x) = 1 := fun m hm => by
    have := mean_density (hdraw m hm) (fun _ => 1) measurable_const
    simpa using this.symm
  have c1 := limitCov_close hX hC hmom hr
  have c2 := tendsto_exists (P := P) (images d rows) (fun m n => {ω | ε' / 4 ≤ ∫ x, max (f (m x)
    - estimate D ((h n ^ 2) • (r⁻¹ • S)) n (fun i => m (X i ω)) x) 0}) fun m hm =>
      deficit_prob hd D (hS.smul (inv_pos.mpr hr0)) (hdraw m hm) hh (show 0 < ε' / 4 by positivity)
  have hlim := c1.add c2
  simp only [add_zero] at hlim
  refine tendsto_of_tendsto_of_tendsto_of_le_of_le' tendsto_const_nhds hlim (Eventually.of_forall fun _ => zero_le) ?_
  filter_upwards [eventually_gt_atTop 1] with n hn
  refine le_trans (measure_mono ?_) (measure_union_le _ _)
  intro ω hω
  by_contra hnot
  rw [Set.mem_union, not_or, Set.mem_ofPred_eq, not_not] at hnot
  obtain ⟨⟨m1, m2, m3, m4⟩, g3⟩ := hnot
  simp only [Set.mem_ofPred_eq, not_exists, not_and, not_le] at g3
  obtain ⟨k, hk, hrep, hpd, hkd, hkr⟩ := iid_reports_planes E srt hd D hn (fun i => X i ω) C hC (bw n) (h n) (hh.1 n)
    (hb n hn) hrows m1
  set M := C.getD (Spec.sampleCov (Spec.weighted (List.ofFn fun i : Fin n => X i ω) none)) with hMdef
  have hMp : ((h n ^ 2) • M).PosDef := m1.smul (pow_pos (hh.1 n) 2)
  have hl1 : ∀ m ∈ images d rows, ∫ x, |estimate D ((h n ^ 2) • M) n (fun i => m (X i ω)) x - f (m x)| < ε' := fun m hm =>
    estimate_l1 hd D hS m1 hr hq' m2 m3 m4 (hh.1 n) (by omega) _ (density_integrable (hdraw m hm)) (hone m hm) (g3 m hm)
  have hint : ∀ m ∈ images d rows, Integrable fun x => |estimate D ((h n ^ 2) • M) n (fun i => m (X i ω)) x - f (m x)| :=
    fun m hm => ((estimate_integral hd D hMp (by omega) _).1.sub (density_integrable (hdraw m hm))).abs
  obtain ⟨k', hk', hrep', -⟩ := iid_reports E srt hd D hn (fun i => X i ω) C hC (bw n) (h n) (hh.1 n) (hb n hn) m1
  refine hω ⟨k, _, hk, hrep, hMp, hpd, hkd, hkr, ⟨k', hk', hrep'⟩, lt_of_lt_of_le (hl1 id (List.mem_cons_self ..)) hε1, ?_⟩
  refine lt_of_le_of_lt ?_ hεle
  refine le_trans (integral_mono_ae ((estimateB_integrable hd D hMp rows (by omega) _).sub (density_integrable hX)).abs
    (integrable_list_sum _ _ hint) (estimateB_le hd D hMp rows n (fun i => X i ω) hf)) ?_
  exact integral_list_le _ _ hint fun m hm => (hl1 m hm).le

/-! ## C124 with boundaries -/

/-- **C124 with boundaries.** Let the data be independent points with a density `f` that vanishes outside of the boundaries
and need not be continuous, and let the bandwidths `h n` get small slowly enough.  Then, for every kernel, and with a given
covariance or the one computed from the data, the pdf `F` of the `KDE` with `reflect` of the first `n` points is close to `f`
on average over all of space: the probabilities that `F` gives to regions are close to the true probabilities, for all
regions at once.  This happens with a probability that tends to 1 as `n` grows.  (At single points `F` may be too low,
in corners, by a factor: C125.) -/
theorem C124_reflect (hd : 0 < d) {X : ℕ → Ω → Fin d → ℝ} {f : (Fin d → ℝ) → ℝ} (hX : Spec.DrawnFrom P X f)
    {C : Option (Matrix (Fin d) (Fin d) ℝ)} (hC : ∀ c, C = some c → c.PosDef)
    (hmom : C = none → Integrable fun y => ‖y‖ ^ 2 * f y) {rows : List ReflRow} (hrows : Spec.GoodRows d rows)
    (hf : ∀ z ∉ Spec.Allowed rows, f z = 0) (D : Dist) (E : Ext)
    (srt : List ℝ → List ℕ) (bw : ℕ → BwArg) (h : ℕ → ℝ) (hh : Spec.Shrinks d h)
    (hb : ∀ n : ℕ, 1 < n → Spec.OneBandwidth d n (bw n) (h n)) {ε : ℝ} (hε : 0 < ε) :
    Tendsto (fun n : ℕ => P {ω | ¬ ∃ k F,
      KDE.init E
        { dataset := List.ofFn fun i : Fin n => X i ω
          kernel := .cls D
          bandwidth := bw n
          covariance := C
          reflect := Reflect.ofChecked (some rows) } = .ok k ∧
      Spec.Reports E srt k F ∧ Integrable F ∧ ∫ x, |F x - f x| < ε ∧
      ∀ A, MeasurableSet A → |(∫ x in A, F x) - P.real (X 0 ⁻¹' A)| < ε}) atTop (𝓝 0) := by
  have h1 := tv_reflect_core hd hX hC hmom hrows hf D E srt bw h hh (fun n hn => bw_one (hb n hn)) hε
  refine tendsto_of_tendsto_of_tendsto_of_le_of_le' tendsto_const_nhds h1 (Eventually.of_forall fun _ => zero_le) ?_
  filter_upwards [eventually_gt_atTop 0] with n hn
  refine measure_mono fun ω hω hex => hω ?_
  obtain ⟨k, M, hk, hrep, hM, -, -, -, -, -, hlt⟩ := hex
  have hi := estimateB_integrable hd D hM rows hn fun i => X i ω
  exact ⟨k, _, hk, hrep, hi, hlt, fun A hA => by
    rw [prob_region hX hA]; exact region_close (density_integrable hX) hi hlt A⟩

/-- A point that is drawn from a density that vanishes outside of the boundaries is strictly inside of them. -/
lemma ae_inside (rows : List ReflRow) {f : (Fin d → ℝ) → ℝ} (hf : ∀ z ∉ Spec.Allowed rows, f z = 0) :
    ∀ᵐ x : Fin d → ℝ, x ∉ Spec.insideSet d rows → f x = 0 := by
  filter_upwards [ae_not_bounds rows] with x hx hxi
  refine hf x fun hxa => hxi fun i => ?_
  have h1 := hxa i
  have h2 := hx i
  intro lo hi e
  rw [e] at h1 h2
  simp only [Spec.bounds, List.mem_append, Option.mem_toList, not_or] at h2
  refine ⟨fun l hl => lt_of_le_of_ne (not_lt.mp fun hlt => h1 ⟨_, _, rfl, Or.inl ⟨l, hl, hlt⟩⟩) fun hE => h2.1 ?_,
    fun u hu => lt_of_le_of_ne (not_lt.mp fun hlt => h1 ⟨_, _, rfl, Or.inr ⟨u, hu, hlt⟩⟩) fun hE => h2.2 ?_⟩
  · rw [hl, hE]
  · rw [hu, hE]

/-- **C124 for samples with boundaries.** If the kernel is one that is sampled exactly (C84), then the points that `resample`
of the `KDE` with boundaries returns follow nearly the law of the data: there is a law `Q` that gives to every region nearly
the probability with which a data point is in it, and, given that `resample` returns, the points it returns are
independent and have the law `Q`.  This happens with a probability that tends to 1 as the number of data grows. -/
theorem C124_reflect_samples (hd : 0 < d) {X : ℕ → Ω → Fin d → ℝ} {f : (Fin d → ℝ) → ℝ} (hX : Spec.DrawnFrom P X f)
    {C : Option (Matrix (Fin d) (Fin d) ℝ)} (hC : ∀ c, C = some c → c.PosDef)
    (hmom : C = none → Integrable fun y => ‖y‖ ^ 2 * f y) {rows : List ReflRow} (hrows : Spec.GoodRows d rows)
    (hf : ∀ z ∉ Spec.Allowed rows, f z = 0) (D : Dist) (hD : Spec.ExactSampler D d) (E : Ext)
    (bw : ℕ → BwArg) (h : ℕ → ℝ) (hh : Spec.Shrinks d h)
    (hb : ∀ n : ℕ, 1 < n → Spec.OneBandwidth d n (bw n) (h n)) {ε : ℝ} (hε : 0 < ε) :
    Tendsto (fun n : ℕ => P {ω | ¬ ∃ k,
      KDE.init E
        { dataset := List.ofFn fun i : Fin n => X i ω
          kernel := .cls D
          bandwidth := bw n
          covariance := C
          reflect := Reflect.ofChecked (some rows) } = .ok k ∧
      ∃ Q : Measure (Fin d → ℝ), IsProbabilityMeasure Q ∧
        (∀ A, MeasurableSet A → |Q.real A - P.real (X 0 ⁻¹' A)| < ε) ∧
        ∀ (Ω' : Type) [MeasurableSpace Ω'] (μ : Measure Ω') (rnd : Ω' → ℕ → ℕ → Draw d), Spec.RandomNumbers μ rnd →
          ∀ (size : ℕ) (squeeze : Bool), 0 < Spec.successProb k μ rnd size .none squeeze ∧
            ∀ A : Fin size → Set (Fin d → ℝ), (∀ j, MeasurableSet (A j)) →
              μ {ω' | Spec.SamplesIn (k.resample (some size) .none .none squeeze (rnd ω')) A}
                = Spec.successProb k μ rnd size .none squeeze * ∏ j, Q (A j)}) atTop (𝓝 0) := by
  have h1 := tv_reflect_core hd hX hC hmom hrows hf D E (fun _ => []) bw h hh (fun n hn => bw_one (hb n hn))
    (half_pos (lt_min hε one_pos))
  have hfi := density_integrable hX
  have hf1 : ∫ x, f x = 1 := by
    have := mean_density hX (fun _ => 1) measurable_const
    simpa using this.symm
  have hSm := measurable_insideSet (d := d) rows
  have hae := ae_inside rows hf
  have hdata : ∀ᵐ ω ∂P, ∀ i, X i ω ∈ Spec.insideSet d rows := by
    rw [ae_all_iff]
    intro i
    have hz : P.map (X i) (Spec.insideSet d rows)ᶜ = 0 := by
      rw [hX.law i, withDensity_apply _ hSm.compl, lintegral_eq_zero_iff hX.measurable_density.ennreal_ofReal,
        EventuallyEq, ae_restrict_iff' hSm.compl]
      filter_upwards [hae] with x hx hxs
      simp [hx hxs]
    rw [Measure.map_apply (hX.measurable i) hSm.compl] at hz
    exact measure_eq_zero_iff_ae_notMem.mp hz |>.mono fun ω hω => not_not.mp hω
  refine tendsto_of_tendsto_of_tendsto_of_le_of_le' tendsto_const_nhds h1 (Eventually.of_forall fun _ => zero_le) ?_
  filter_upwards [eventually_gt_atTop 1] with n hn
  refine measure_mono_ae ?_
  filter_upwards [hdata] with ω hin hω hex
  refine hω ?_
  obtain ⟨k, M, hk, -, hM, hpd, hkd, hkr, ⟨k', hk', hrep'⟩, hlt, -⟩ := hex
  set F := estimate D M n (fun i => X i ω) with hFdef
  have hFi : Integrable F := (estimate_integral hd D hM (by omega) _).1
  have hF1 : ∫ x, F x = 1 := (estimate_integral hd D hM (by omega) _).2
  have hF0 : ∀ x, 0 ≤ F x := fun x => estimate_nonneg hd D hM n _ x
  have hch : k.kernel.chunk ≠ 0 := by
    obtain ⟨_, _, _, _, _, _, _, _, _, _, _, _, _, _, _, _, _, _, he⟩ := init_inv hk
    rw [he]
    simp [Kernel.init]
  have hinside : ∀ x ∈ List.ofFn fun i : Fin n => X i ω, ∀ i : Fin d, Spec.StrictlyInside (rows.getD i none) (x i) := by
    intro x hx
    obtain ⟨i, rfl⟩ := List.mem_ofFn.mp hx
    exact hin i
  obtain ⟨G, hG, hlaw⟩ := C111_density hk hk' (fun _ => []) hd hpd (by rw [hkd]; exact hD)
  have hGF : F = G := by
    funext x
    have e1 := hG [x]
    rw [hrep' [x]] at e1
    simpa using e1
  rw [← hGF] at hlaw
  set V : Measure (Fin d → ℝ) := volume.withDensity fun x => ENNReal.ofReal (F x) with hV
  set S := Spec.insideSet d rows with hSdef
  have hVA : ∀ A, MeasurableSet A → V A = ENNReal.ofReal (∫ x in A, F x) := fun A hA => withDensity_real hFi hF0 hA
  have hclose := region_close hfi hFi hlt
  have hfS : ∀ A, MeasurableSet A → ∫ x in A, f x = ∫ x in S ∩ A, f x := by
    intro A hA
    rw [← integral_indicator hA, ← integral_indicator (hSm.inter hA)]
    refine integral_congr_ae ?_
    filter_upwards [hae] with x hx
    by_cases hxS : x ∈ S
    · by_cases hxA : x ∈ A
      · rw [Set.indicator_of_mem hxA, Set.indicator_of_mem (show x ∈ S ∩ A from ⟨hxS, hxA⟩)]
      · rw [Set.indicator_of_notMem hxA, Set.indicator_of_notMem fun hx' => hxA hx'.2]
    · simp [hxS, hx hxS]
  have hS1 : ∫ x in S, f x = 1 := by
    have := hfS Set.univ MeasurableSet.univ
    rw [Set.inter_univ, Measure.restrict_univ, hf1] at this
    exact this.symm
  set s := ∫ x in S, F x with hs
  have hmin : min ε 1 ≤ ε ∧ min ε 1 ≤ 1 := ⟨min_le_left _ _, min_le_right _ _⟩
  have hsc := hclose S
  rw [hS1, abs_lt] at hsc
  have hs0 : 0 < s := by linarith [hsc.1, hmin.2]
  have hs1 : s ≤ 1 := by rw [← hF1]; exact setIntegral_le_integral hFi (Eventually.of_forall hF0)
  have hVS0 : V S ≠ 0 := by rw [hVA S hSm]; exact (ENNReal.ofReal_pos.mpr hs0).ne'
  have hVSt : V S ≠ ⊤ := by rw [hVA S hSm]; exact ENNReal.ofReal_ne_top
  refine ⟨k, hk, ProbabilityTheory.cond V S, cond_isProbabilityMeasure_of_finite hVS0 hVSt, fun A hA => ?_,
    fun Ω' _ μ rnd hrnd size squeeze => ⟨?_, fun A hA => ?_⟩⟩
  · set t := ∫ x in S ∩ A, F x with ht
    have ht0 : 0 ≤ t := integral_nonneg hF0
    have hts : t ≤ s := setIntegral_mono_set hFi.integrableOn (Eventually.of_forall hF0)
      (Eventually.of_forall fun x hx => hx.1)
    have hta := hclose (S ∩ A)
    rw [← hfS A hA, ← prob_region hX hA, abs_lt] at hta
    have hQ : (ProbabilityTheory.cond V S).real A = t / s := by
      rw [measureReal_def, cond_apply hSm, hVA _ hSm, hVA _ (hSm.inter hA), ← ENNReal.ofReal_inv_of_pos hs0,
        ← ENNReal.ofReal_mul (inv_nonneg.mpr hs0.le), ENNReal.toReal_ofReal (by positivity), div_eq_inv_mul]
    rw [hQ]
    have h2 : t ≤ t / s := by rw [le_div_iff₀ hs0]; nlinarith
    have h3 : t / s ≤ t + (1 - s) := by rw [div_le_iff₀ hs0]; nlinarith
    rw [abs_lt]
    constructor <;> linarith [hsc.1, hta.1, hta.2, hmin.1]
  · exact (C111_law hk hd hpd hch .none rows (by rw [Spec.boundaries, hkr]) hinside μ rnd hrnd size squeeze).1
  · rw [hlaw .none rows (by rw [Spec.boundaries, hkr]) hinside μ rnd hrnd size squeeze A hA]
    congr 1
    refine Finset.prod_congr rfl fun j _ => ?_
    rw [cond_apply hSm, hV, withDensity_apply _ hSm, withDensity_apply _ (hSm.inter (hA j)), Set.inter_comm, ENNReal.div_eq_inv_mul]

/-- The hypotheses of `C124_reflect` and `C124_reflect_samples` hold for `KDE(data, reflect=[[0, 1], [0, 1]])` of uniform
points in the square. -/
example (E : Ext) (srt : List ℝ → List ℕ) (ε : ℝ) (hε : 0 < ε) :
    ∃ (Ω : Type) (_ : MeasurableSpace Ω) (P : Measure Ω) (_ : IsProbabilityMeasure P) (X : ℕ → Ω → Fin 2 → ℝ),
      Tendsto (fun n : ℕ => P {ω | ¬ ∃ k F,
        KDE.init E
          { dataset := List.ofFn fun i : Fin n => X i ω
            kernel := .cls .gaussian
            bandwidth := .none
            reflect := Reflect.ofChecked (some squareRows) } = .ok k ∧
        Spec.Reports E srt k F ∧ Integrable F ∧ ∫ x, |F x - (Set.Icc (0 : Fin 2 → ℝ) 1).indicator 1 x| < ε ∧
        ∀ A, MeasurableSet A → |(∫ x in A, F x) - P.real (X 0 ⁻¹' A)| < ε}) atTop (𝓝 0) := by
  obtain ⟨Ω, mΩ, P, hP, X, hX, hmom, -⟩ := exists_uniform_data 2
  refine ⟨Ω, mΩ, P, hP, X, ?_⟩
  refine C124_reflect two_pos hX (C := none) (by simp) (fun _ => hmom) squareRows_good
    (fun z hz => Set.indicator_of_notMem (squareRows_allowed ▸ hz) _) .gaussian E srt (fun _ => .none) _
    (shrinks_power 2 one_pos) (fun n hn => ?_) hε
  simp only [if_neg (show n ≠ 0 by omega), mul_one]
  exact ⟨by positivity, Or.inl ⟨rfl, rfl⟩⟩

/-- The remaining hypothesis of `C124_reflect_samples`. -/
example : Spec.ExactSampler .gaussian 2 := Or.inl rfl

end Kalepy
