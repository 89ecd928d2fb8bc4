import Verif.Proofs.KernelL1
import Verif.Props.Consistency

/-!
# C124: probabilities computed from the pdf of independent data tend to the true probabilities
-/

namespace Kalepy

open MeasureTheory ProbabilityTheory Filter Topology Matrix

variable {d : ℕ} {Ω : Type*} [MeasurableSpace Ω] {P : Measure Ω} [IsProbabilityMeasure P]

lemma measurable_estimate (D : Dist) (M : Matrix (Fin d) (Fin d) ℝ) (n : ℕ) {X : ℕ → Ω → Fin d → ℝ}
    (hX : ∀ i, Measurable (X i)) : Measurable fun p : Ω × (Fin d → ℝ) => estimate D M n (fun i => X i p.1) p.2 := by
  unfold estimate
  refine Measurable.div_const (Finset.measurable_fun_sum _ fun i _ => ?_) _
  exact (measurable_unitKernel D M).comp (measurable_snd.sub ((hX i).comp measurable_fst))

lemma measurable_estimate_left (D : Dist) (M : Matrix (Fin d) (Fin d) ℝ) (n : ℕ) {X : ℕ → Ω → Fin d → ℝ}
    (hX : ∀ i, Measurable (X i)) (x : Fin d → ℝ) : Measurable fun ω => estimate D M n (fun i => X i ω) x := by
  unfold estimate
  refine Measurable.div_const (Finset.measurable_fun_sum _ fun i _ => ?_) _
  exact (measurable_unitKernel D M).comp (measurable_const.sub (hX i))

lemma estimate_nonneg (hd : 0 < d) (D : Dist) {M : Matrix (Fin d) (Fin d) ℝ} (hM : M.PosDef) (n : ℕ) (y : ℕ → Fin d → ℝ)
    (x : Fin d → ℝ) : 0 ≤ estimate D M n y x :=
  div_nonneg (Finset.sum_nonneg fun i _ => unitKernel_nonneg hd D hM _) (Nat.cast_nonneg _)

lemma unitKernel_integrable (hd : 0 < d) (D : Dist) {M : Matrix (Fin d) (Fin d) ℝ} (hM : M.PosDef) (a : Fin d → ℝ) :
    Integrable fun x => unitKernel D M (x - a) := (integrable_shape_dist2 hd D hM a).div_const _

lemma estimate_integral (hd : 0 < d) (D : Dist) {M : Matrix (Fin d) (Fin d) ℝ} (hM : M.PosDef) {n : ℕ} (hn : 0 < n)
    (y : ℕ → Fin d → ℝ) : Integrable (estimate D M n y) ∧ ∫ x, estimate D M n y x = 1 := by
  unfold estimate
  refine ⟨(integrable_finset_sum _ fun i _ => unitKernel_integrable hd D hM (y i)).div_const _, ?_⟩
  rw [integral_div, integral_finsetSum _ fun i _ => unitKernel_integrable hd D hM (y i)]
  have h1 : ∀ i, ∫ x, unitKernel D M (x - y i) = 1 := fun i => by
    rw [integral_sub_right_eq_self (fun x => unitKernel D M x) (y i), unitKernel_integral hd D hM]
  simp only [h1, Finset.sum_const, Finset.card_range, nsmul_eq_mul, mul_one]
  exact div_self (by positivity)

/-- What nonnegative random numbers lack of their limit in probability tends to 0 on average. -/
lemma deficit_point {A : ℕ → Ω → ℝ} (hm : ∀ n, Measurable (A n)) (h0 : ∀ n ω, 0 ≤ A n ω) {c : ℝ}
    (h : ∀ δ, 0 < δ → Tendsto (fun n => P {ω | δ ≤ |A n ω - c|}) atTop (𝓝 0)) :
    Tendsto (fun n => ∫⁻ ω, ENNReal.ofReal (c - A n ω) ∂P) atTop (𝓝 0) := by
  rw [ENNReal.tendsto_atTop_zero]
  intro η hη
  by_cases hηt : η = ⊤
  · exact ⟨0, fun n _ => by rw [hηt]; exact le_top⟩
  -- half from closeness, half from the probability not to be close
  have hη' : 0 < η.toReal := ENNReal.toReal_pos hη.ne' hηt
  have hlim := ENNReal.Tendsto.const_mul (h _ (half_pos hη')) (a := ENNReal.ofReal c)
    (Or.inr ENNReal.ofReal_ne_top)
  rw [mul_zero, ENNReal.tendsto_atTop_zero] at hlim
  obtain ⟨N, hN⟩ := hlim (ENNReal.ofReal (η.toReal / 2)) (ENNReal.ofReal_pos.mpr (half_pos hη'))
  refine ⟨N, fun n hn => ?_⟩
  set B := {ω | η.toReal / 2 ≤ |A n ω - c|} with hB
  have hBm : MeasurableSet B := measurableSet_le measurable_const ((hm n).sub_const c).norm
  calc ∫⁻ ω, ENNReal.ofReal (c - A n ω) ∂P
      ≤ ∫⁻ ω, (ENNReal.ofReal (η.toReal / 2) + B.indicator (fun _ => ENNReal.ofReal c) ω) ∂P := by
        refine lintegral_mono fun ω => ?_
        by_cases hω : ω ∈ B
        · simp only [Set.indicator_of_mem hω]
          refine le_add_of_nonneg_of_le zero_le (ENNReal.ofReal_le_ofReal ?_)
          linarith [h0 n ω]
        · simp only [Set.indicator_of_notMem hω, add_zero]
          refine ENNReal.ofReal_le_ofReal ?_
          rw [hB, Set.mem_ofPred_eq, not_le, abs_lt] at hω
          linarith [hω.1]
    _ = ENNReal.ofReal (η.toReal / 2) + ENNReal.ofReal c * P B := by
        rw [lintegral_add_left measurable_const, lintegral_const, measure_univ, mul_one, lintegral_indicator_const hBm]
    _ ≤ ENNReal.ofReal (η.toReal / 2) + ENNReal.ofReal (η.toReal / 2) := add_le_add_right (hN n hn) _
    _ = η := by
        rw [← ENNReal.ofReal_add (half_pos hη').le (half_pos hη').le, add_halves, ENNReal.ofReal_toReal hηt]

/-- What is missing of the density: its expected integral tends to 0. -/
lemma deficit_tendsto (hd : 0 < d) (D : Dist) {S : Matrix (Fin d) (Fin d) ℝ} (hS : S.PosDef) {X : ℕ → Ω → Fin d → ℝ}
    {f : (Fin d → ℝ) → ℝ} (hX : Spec.DrawnFrom P X f) {h : ℕ → ℝ}
    (hh : Spec.Shrinks d h) :
    Tendsto (fun n : ℕ => ∫⁻ ω, ∫⁻ x, ENNReal.ofReal (f x - estimate D ((h n ^ 2) • S) n (fun i => X i ω) x) ∂volume ∂P) atTop
      (𝓝 0) := by
  have hSn : ∀ n, ((h n ^ 2) • S).PosDef := fun n => hS.smul (pow_pos (hh.1 n) 2)
  have hmeas : ∀ n, Measurable fun p : Ω × (Fin d → ℝ) =>
      ENNReal.ofReal (f p.2 - estimate D ((h n ^ 2) • S) n (fun i => X i p.1) p.2) := fun n =>
    ((hX.measurable_density.comp measurable_snd).sub (measurable_estimate D _ n hX.measurable)).ennreal_ofReal
  have hswap : ∀ n, ∫⁻ ω, ∫⁻ x, ENNReal.ofReal (f x - estimate D ((h n ^ 2) • S) n (fun i => X i ω) x) ∂volume ∂P
      = ∫⁻ x, ∫⁻ ω, ENNReal.ofReal (f x - estimate D ((h n ^ 2) • S) n (fun i => X i ω) x) ∂P ∂volume := fun n =>
    lintegral_lintegral_swap (hmeas n).aemeasurable
  simp only [hswap]
  have hle : ∀ n x, ∫⁻ ω, ENNReal.ofReal (f x - estimate D ((h n ^ 2) • S) n (fun i => X i ω) x) ∂P ≤ ENNReal.ofReal (f x) := by
    intro n x
    calc _ ≤ ∫⁻ _, ENNReal.ofReal (f x) ∂P := lintegral_mono fun ω => ENNReal.ofReal_le_ofReal (by
            linarith [estimate_nonneg hd D (hSn n) n (fun i => X i ω) x])
      _ = _ := by simp
  -- along a subsequence the smoothed density tends to the density at almost every point
  refine tendsto_of_subseq_tendsto fun ns hns => ?_
  have hL1 := (kernel_L1_tendsto hd D hS (density_integrable hX) hX.measurable_density hh.1 hh.2.1).comp hns
  have hin : TendstoInMeasure volume (fun k x => ∫ y, unitKernel D ((h (ns k) ^ 2) • S) (x - y) * f y) atTop f := by
    refine tendstoInMeasure_of_tendsto_eLpNorm one_ne_zero (fun k => ?_) hX.measurable_density.aestronglyMeasurable ?_
    · have : StronglyMeasurable fun x => ∫ y, (fun p : (Fin d → ℝ) × (Fin d → ℝ) =>
          unitKernel D ((h (ns k) ^ 2) • S) (p.1 - p.2) * f p.2) (x, y) := by
        refine StronglyMeasurable.integral_prod_right' (f := fun p : (Fin d → ℝ) × (Fin d → ℝ) =>
          unitKernel D ((h (ns k) ^ 2) • S) (p.1 - p.2) * f p.2) (Measurable.stronglyMeasurable ?_)
        exact ((measurable_unitKernel D _).comp (measurable_fst.sub measurable_snd)).mul
          (hX.measurable_density.comp measurable_snd)
      exact this.aestronglyMeasurable
    · refine hL1.congr fun k => ?_
      rw [eLpNorm_one_eq_lintegral_enorm]
      rfl
  obtain ⟨ms, hms, hae⟩ := hin.exists_seq_tendsto_ae
  refine ⟨ms, ?_⟩
  have hseq : Tendsto (fun k => ns (ms k)) atTop atTop := hns.comp hms.tendsto_atTop
  rw [← lintegral_zero (μ := (volume : Measure (Fin d → ℝ)))]
  refine tendsto_lintegral_of_dominated_convergence (fun x => ENNReal.ofReal (f x))
    (fun k => (hmeas (ns (ms k))).lintegral_prod_left') (fun k => Eventually.of_forall (hle (ns (ms k)))) ?_ ?_
  · have := (density_integrable hX).2
    rw [hasFiniteIntegral_iff_ofReal (Eventually.of_forall hX.nonneg)] at this
    exact this.ne
  · filter_upwards [hae] with x hx
    refine deficit_point (A := fun k ω => estimate D ((h (ns (ms k)) ^ 2) • S) (ns (ms k)) (fun i => X i ω) x)
      (fun k => measurable_estimate_left D _ _ hX.measurable x)
      (fun k ω => estimate_nonneg hd D (hSn _) _ (fun i => X i ω) x) (c := f x) fun δ hδ => ?_
    have h1 := estimate_tendsto_of hd D hS hX hh (l := Filter.map (fun k => ns (ms k)) atTop) hseq
      (tendsto_map'_iff.mpr hx) hδ
    exact tendsto_map'_iff.mp h1

/-- Two densities differ by twice what one of them lacks. -/
lemma integral_abs_sub {f g : (Fin d → ℝ) → ℝ} (hf : Integrable f) (hg : Integrable g) (h : ∫ x, f x = ∫ x, g x) :
    ∫ x, |g x - f x| = 2 * ∫ x, max (f x - g x) 0 := by
  have h1 : ∀ x, |g x - f x| = 2 * max (f x - g x) 0 + (g x - f x) := by
    intro x
    rcases le_total (f x) (g x) with hle | hle
    · rw [abs_of_nonneg (by linarith), max_eq_right (by linarith)]
      ring
    · rw [abs_of_nonpos (by linarith), max_eq_left (by linarith)]
      ring
  simp only [h1]
  have hm : Integrable fun x => max (f x - g x) 0 := (hf.sub hg).pos_part
  have hs : ∫ x, (g x - f x) = 0 := by rw [integral_sub hg hf, h, sub_self]
  have h2 : Integrable fun x => g x - f x := hg.sub hf
  rw [integral_add (hm.const_mul 2) h2, hs, add_zero, integral_const_mul]

/-- The part missing is integrable, and tends to 0 in probability. -/
lemma deficit_prob (hd : 0 < d) (D : Dist) {S : Matrix (Fin d) (Fin d) ℝ} (hS : S.PosDef) {X : ℕ → Ω → Fin d → ℝ}
    {f : (Fin d → ℝ) → ℝ} (hX : Spec.DrawnFrom P X f) {h : ℕ → ℝ}
    (hh : Spec.Shrinks d h) {ε : ℝ} (hε : 0 < ε) :
    Tendsto (fun n : ℕ => P {ω | ε ≤ ∫ x, max (f x - estimate D ((h n ^ 2) • S) n (fun i => X i ω) x) 0}) atTop (𝓝 0) := by
  have h1 := ENNReal.Tendsto.div_const (deficit_tendsto hd D hS hX hh) (b := ENNReal.ofReal ε)
    (Or.inr (ENNReal.ofReal_pos.mpr hε).ne')
  rw [ENNReal.zero_div] at h1
  refine tendsto_of_tendsto_of_tendsto_of_le_of_le tendsto_const_nhds h1 (fun _ => zero_le) fun n => ?_
  have hmeas : Measurable fun p : Ω × (Fin d → ℝ) =>
      ENNReal.ofReal (f p.2 - estimate D ((h n ^ 2) • S) n (fun i => X i p.1) p.2) :=
    ((hX.measurable_density.comp measurable_snd).sub (measurable_estimate D _ n hX.measurable)).ennreal_ofReal
  refine le_trans (measure_mono fun ω hω => ?_)
    (meas_ge_le_lintegral_div hmeas.lintegral_prod_right'.aemeasurable (ENNReal.ofReal_pos.mpr hε).ne' ENNReal.ofReal_ne_top)
  simp only [Set.mem_ofPred_eq] at hω ⊢
  refine (ENNReal.ofReal_le_ofReal hω).trans ?_
  by_cases hi : Integrable fun x => max (f x - estimate D ((h n ^ 2) • S) n (fun i => X i ω) x) 0
  · rw [ofReal_integral_eq_lintegral_ofReal hi (Eventually.of_forall fun x => le_max_right _ _)]
    refine lintegral_mono fun x => ?_
    rw [ENNReal.ofReal_max, ENNReal.ofReal_zero, max_eq_left zero_le]
  · rw [integral_undef hi]
    simp

/-- The estimator misses the density by at most `ε`, over all of space, with vanishing exceptions. -/
lemma tv_core (hd : 0 < d) {X : ℕ → Ω → Fin d → ℝ} {f : (Fin d → ℝ) → ℝ} (hX : Spec.DrawnFrom P X f)
    (hmom : Integrable fun y => ‖y‖ ^ 2 * f y) (D : Dist) (E : Ext)
    (srt : List ℝ → List ℕ) (bw : ℕ → BwArg) (h : ℕ → ℝ) (hh : Spec.Shrinks d h)
    (hb : ∀ n : ℕ, 1 < n → bwMatrix d n false (bw n) = .ok (Matrix.of fun _ _ => h n)) {ε : ℝ} (hε : 0 < ε) :
    Tendsto (fun n : ℕ => P {ω | ¬ ∃ k F,
      KDE.init E { dataset := List.ofFn fun i : Fin n => X i ω, kernel := .cls D, bandwidth := bw n } = .ok k ∧
      Spec.Reports E srt k F ∧ (Spec.kernelMatrix k.covariance k.bandwidth).PosDef ∧ k.kernel.dist = D ∧ Integrable F ∧
      ∫ x, |F x - f x| < ε}) atTop (𝓝 0) := by
  have hid : ∀ i, P.map (X i) = P.map (X 0) := fun i => by rw [hX.law i, hX.law 0]
  have hL2 := coord_memLp hX hmom
  have hac : P.map (X 0) ≪ volume := by rw [hX.law 0]; exact withDensity_absolutelyContinuous _ _
  have hfi := density_integrable hX
  have hf1 : ∫ x, f x = 1 := by
    have := mean_density hX (fun _ => 1) measurable_const
    simpa using this.symm
  set S := trueCov P (X 0) with hSdef
  have hS : S.PosDef := trueCov_posDef (hX.measurable 0) hL2 hac
  obtain ⟨r, hr, -, hr2⟩ := exists_factor d (v := 1) (ε := min (ε / 4) 1) (by positivity)
  have hr0 : 0 < r := by linarith
  have hq : 0 < r * Real.sqrt (r ^ d) := mul_pos hr0 (Real.sqrt_pos.mpr (by positivity))
  have hq' : 1 - ε / 4 < (r * Real.sqrt (r ^ d))⁻¹ := by
    have a := inv_pos.mpr hq
    have b : 0 < min (ε / 4) 1 := by positivity
    have c := min_le_left (ε / 4) 1
    nlinarith
  have hq1 : (r * Real.sqrt (r ^ d))⁻¹ ≤ 1 := by
    refine inv_le_one_of_one_le₀ ?_
    have : 1 ≤ Real.sqrt (r ^ d) := Real.one_le_sqrt.mpr (one_le_pow₀ hr.le)
    nlinarith
  set U := {M : Fin d → Fin d → ℝ | (Matrix.of M).IsSymm → (Matrix.of M).PosDef ∧
      (∀ u, r⁻¹ * Spec.dist2 S u ≤ Spec.dist2 (Matrix.of M) u ∧ Spec.dist2 (Matrix.of M) u ≤ r * Spec.dist2 S u) ∧
      r⁻¹ * Real.sqrt S.det < Real.sqrt (Matrix.of M).det ∧ Real.sqrt (Matrix.of M).det < r * Real.sqrt S.det} with hU
  have c1 := prob_nhds_tendsto (measurable_sampleCov hX.measurable)
    (sampleCov_tendsto hX.measurable hid (fun i j hij => hX.indep.indepFun hij) hL2) (U := U) (matrix_close hS hr)
  have c3 := deficit_prob hd D (hS.smul (inv_pos.mpr hr0)) hX hh (show 0 < ε / 4 by positivity)
  have hlim := c1.add c3
  simp only [add_zero] at hlim
  refine tendsto_of_tendsto_of_tendsto_of_le_of_le' tendsto_const_nhds hlim (Eventually.of_forall fun _ => zero_le) ?_
  filter_upwards [eventually_gt_atTop 1] with n hn
  refine le_trans (measure_mono ?_) (measure_union_le _ _)
  intro ω hω
  by_contra hnot
  simp only [Set.mem_union, Set.mem_ofPred_eq, not_or, not_not, not_le] at hnot
  obtain ⟨g1, g3⟩ := hnot
  obtain ⟨m1, m2, m3, m4⟩ := g1 (sampleCov_symm _)
  obtain ⟨k, hk, hrep, hpd, hkd⟩ := iid_reports E srt hd D hn (fun i => X i ω) none (by simp) (bw n) (h n) (hh.1 n) (hb n hn) m1
  simp only [Option.getD_none] at hrep
  set M := Spec.sampleCov (Spec.weighted (List.ofFn fun i : Fin n => X i ω) none) with hMdef
  have hMp : M.PosDef := m1
  obtain ⟨i1, i2⟩ := estimate_integral hd D (hMp.smul (pow_pos (hh.1 n) 2)) (by omega : 0 < n) fun i => X i ω
  obtain ⟨j1, j2⟩ := estimate_integral hd D ((hS.smul (inv_pos.mpr hr0)).smul (pow_pos (hh.1 n) 2)) (by omega : 0 < n)
    fun i => X i ω
  refine hω ⟨k, _, hk, hrep, hpd, hkd, i1, ?_⟩
  rw [integral_abs_sub hfi i1 (by rw [hf1, i2])]
  have hp1 : Integrable fun x => max (f x - estimate D ((h n ^ 2) • M) n (fun i => X i ω) x) 0 := (hfi.sub i1).pos_part
  have hp2 : Integrable fun x => max (f x - estimate D ((h n ^ 2) • (r⁻¹ • S)) n (fun i => X i ω) x) 0 :=
    (hfi.sub j1).pos_part
  have hle : ∫ x, max (f x - estimate D ((h n ^ 2) • M) n (fun i => X i ω) x) 0
      ≤ ∫ x, (max (f x - estimate D ((h n ^ 2) • (r⁻¹ • S)) n (fun i => X i ω) x) 0
        + (1 - (r * Real.sqrt (r ^ d))⁻¹) * estimate D ((h n ^ 2) • (r⁻¹ • S)) n (fun i => X i ω) x) := by
    refine integral_mono hp1 (hp2.add (j1.const_mul _)) fun x => ?_
    have s1 := (estimate_sandwich hd D hS hMp hr m2 m3 m4 (hh.1 n) n (fun i => X i ω) x).1
    have s0 := estimate_nonneg hd D ((hS.smul (inv_pos.mpr hr0)).smul (pow_pos (hh.1 n) 2)) n (fun i => X i ω) x
    have s2 := le_max_left (f x - estimate D ((h n ^ 2) • (r⁻¹ • S)) n (fun i => X i ω) x) 0
    have s3 := le_max_right (f x - estimate D ((h n ^ 2) • (r⁻¹ • S)) n (fun i => X i ω) x) 0
    refine max_le ?_ ?_
    · linarith
    · exact add_nonneg s3 (mul_nonneg (by linarith) s0)
  rw [integral_add hp2 (j1.const_mul _), integral_const_mul, j2, mul_one] at hle
  linarith

omit [IsProbabilityMeasure P] in
/-- The probability of a region is the integral of the density. -/
lemma prob_region {X : ℕ → Ω → Fin d → ℝ} {f : (Fin d → ℝ) → ℝ} (hX : Spec.DrawnFrom P X f) {A : Set (Fin d → ℝ)}
    (hA : MeasurableSet A) : P.real (X 0 ⁻¹' A) = ∫ x in A, f x := by
  rw [measureReal_def, ← Measure.map_apply (hX.measurable 0) hA, hX.law 0, withDensity_apply _ hA,
    integral_eq_lintegral_of_nonneg_ae (Eventually.of_forall hX.nonneg) hX.measurable_density.aestronglyMeasurable]

/-- Integrals over regions are as close as the densities are on average. -/
lemma region_close {f F : (Fin d → ℝ) → ℝ} (hf : Integrable f) (hF : Integrable F) {ε : ℝ} (h : ∫ x, |F x - f x| < ε)
    (A : Set (Fin d → ℝ)) : |(∫ x in A, F x) - ∫ x in A, f x| < ε := by
  refine lt_of_le_of_lt ?_ h
  have h1 : (∫ x in A, F x) - ∫ x in A, f x = ∫ x in A, (F x - f x) :=
    (integral_sub hF.integrableOn hf.integrableOn).symm
  rw [h1]
  refine (abs_integral_le_integral_abs).trans ?_
  exact setIntegral_le_integral (hF.sub hf).abs (Eventually.of_forall fun x => abs_nonneg _)

/-! ## C124 -/

/-- **C124.** Let the data be independent points with a density `f` that has second moments (and need not be continuous),
and let the bandwidths `h n` get small slowly enough.  Then, for every kernel, the `KDE` made from the first `n` points exists,
and its pdf `F` is close to `f` on average over all of space: the probabilities that `F` gives to regions are close to
the true probabilities, for all regions at once.  This happens with a probability that tends to 1 as `n` grows. -/
theorem C124_consistent (hd : 0 < d) {X : ℕ → Ω → Fin d → ℝ} {f : (Fin d → ℝ) → ℝ} (hX : Spec.DrawnFrom P X f)
    (hmom : Integrable fun y => ‖y‖ ^ 2 * f y) (D : Dist) (E : Ext) (srt : List ℝ → List ℕ) (bw : ℕ → BwVal) (h : ℕ → ℝ)
    (hh : Spec.Shrinks d h) (hb : ∀ n : ℕ, 1 < n → Spec.BwMeans d n (bw n) (h n)) {ε : ℝ} (hε : 0 < ε) :
    Tendsto (fun n : ℕ => P {ω | ¬ ∃ k F,
      KDE.init E { dataset := List.ofFn fun i : Fin n => X i ω, kernel := .cls D, bandwidth := .val (bw n) } = .ok k ∧
      Spec.Reports E srt k F ∧ Integrable F ∧ ∫ x, |F x - f x| < ε ∧
      ∀ A, MeasurableSet A → |(∫ x in A, F x) - P.real (X 0 ⁻¹' A)| < ε}) atTop (𝓝 0) := by
  have h1 := tv_core hd hX hmom D E srt (fun n => .val (bw n)) h hh (fun n hn => bw_const (hb n hn)) hε
  refine tendsto_of_tendsto_of_tendsto_of_le_of_le tendsto_const_nhds h1 (fun _ => zero_le) fun n => ?_
  refine measure_mono fun ω hω hex => hω ?_
  obtain ⟨k, F, hk, hrep, -, -, hi, hlt⟩ := hex
  exact ⟨k, F, hk, hrep, hi, hlt, fun A hA => by
    rw [prob_region hX hA]; exact region_close (density_integrable hX) hi hlt A⟩

/-- **C124 for `KDE(data)`**: all arguments other than the data have their default values. -/
theorem C124_default (hd : 0 < d) {X : ℕ → Ω → Fin d → ℝ} {f : (Fin d → ℝ) → ℝ} (hX : Spec.DrawnFrom P X f)
    (hmom : Integrable fun y => ‖y‖ ^ 2 * f y) (E : Ext) (srt : List ℝ → List ℕ) {ε : ℝ} (hε : 0 < ε) :
    Tendsto (fun n : ℕ => P {ω | ¬ ∃ k F,
      KDE.init E { dataset := List.ofFn fun i : Fin n => X i ω } = .ok k ∧
      Spec.Reports E srt k F ∧ Integrable F ∧ ∫ x, |F x - f x| < ε ∧
      ∀ A, MeasurableSet A → |(∫ x in A, F x) - P.real (X 0 ⁻¹' A)| < ε}) atTop (𝓝 0) := by
  have h1 := tv_core hd hX hmom .gaussian E srt (fun _ => .none) _ (shrinks_power d one_pos) (fun n hn => by
    simp only [if_neg (show n ≠ 0 by omega), mul_one]
    have hn0 : (0 : ℝ) < n := by positivity
    simp [bwMatrix, computeBw, Except.map, hn0, scottFactor]) hε
  refine tendsto_of_tendsto_of_tendsto_of_le_of_le tendsto_const_nhds h1 (fun _ => zero_le) fun n => ?_
  refine measure_mono fun ω hω hex => hω ?_
  obtain ⟨k, F, hk, hrep, -, -, hi, hlt⟩ := hex
  exact ⟨k, F, hk, hrep, hi, hlt, fun A hA => by
    rw [prob_region hX hA]; exact region_close (density_integrable hX) hi hlt A⟩

/-- **C124 for samples.** If the kernel is one that is sampled exactly (C84), then new points drawn from the `KDE`
with `resample` follow nearly the law of the data: the chance of a new point to be in a region is close to the chance of
a data point, for all regions at once, with a probability that tends to 1 as the number of data grows. -/
theorem C124_samples (hd : 0 < d) {X : ℕ → Ω → Fin d → ℝ} {f : (Fin d → ℝ) → ℝ} (hX : Spec.DrawnFrom P X f)
    (hmom : Integrable fun y => ‖y‖ ^ 2 * f y) (D : Dist) (hD : Spec.ExactSampler D d) (E : Ext) (bw : ℕ → BwVal)
    (h : ℕ → ℝ) (hh : Spec.Shrinks d h) (hb : ∀ n : ℕ, 1 < n → Spec.BwMeans d n (bw n) (h n)) {ε : ℝ} (hε : 0 < ε) :
    Tendsto (fun n : ℕ => P {ω | ¬ ∃ k,
      KDE.init E { dataset := List.ofFn fun i : Fin n => X i ω, kernel := .cls D, bandwidth := .val (bw n) } = .ok k ∧
      ∀ (Ω' : Type) [MeasurableSpace Ω'] (μ : Measure Ω') (rnd : Ω' → ℕ → ℕ → Draw d), Spec.RandomNumbers μ rnd →
        ∀ (size : ℕ) (squeeze : Bool), ∃ Y : Fin size → Ω' → Fin d → ℝ,
          (∀ᵐ ω' ∂μ, ∃ s, k.resample (some size) .none .none squeeze (rnd ω') = .ok s ∧
            s.points = List.ofFn fun j => Y j ω') ∧
          iIndepFun Y μ ∧
          ∀ j A, MeasurableSet A → |μ.real (Y j ⁻¹' A) - P.real (X 0 ⁻¹' A)| < ε}) atTop (𝓝 0) := by
  have h1 := tv_core hd hX hmom D E (fun _ => []) (fun n => .val (bw n)) h hh (fun n hn => bw_const (hb n hn)) hε
  refine tendsto_of_tendsto_of_tendsto_of_le_of_le tendsto_const_nhds h1 (fun _ => zero_le) fun n => ?_
  refine measure_mono fun ω hω hex => hω ?_
  obtain ⟨k, F, hk, hrep, hpd, hkd, hi, hlt⟩ := hex
  refine ⟨k, hk, fun Ω' _ μ rnd hrnd size squeeze => ?_⟩
  obtain ⟨G, hG, hsam⟩ := C84_partial hk (fun _ => []) hd rfl hpd (by rw [hkd]; exact hD)
  have hGF : G = F := by
    funext x
    have e1 := hG [x]
    rw [hrep [x]] at e1
    simpa using e1.symm
  subst hGF
  obtain ⟨Y, hY, hlaw, hind⟩ := hsam μ rnd hrnd size squeeze
  have hG0 : ∀ x, 0 ≤ G x := (pdf_facts hk (fun _ => []) hd rfl hpd hG).2
  refine ⟨Y, hY, hind, fun j A hA => ?_⟩
  have e : μ.real (Y j ⁻¹' A) = ∫ x in A, G x := by
    rw [measureReal_def, ← Measure.map_apply_of_aemeasurable (hlaw j).aemeasurable hA, (hlaw j).map_eq,
      withDensity_apply _ hA, integral_eq_lintegral_of_nonneg_ae (Eventually.of_forall hG0) hi.aestronglyMeasurable.restrict]
  rw [e, prob_region hX hA]
  exact region_close (density_integrable hX) hi hlt A

/-- `C124_samples` applies to points drawn uniformly from the unit square. -/
example (ε : ℝ) (hε : 0 < ε) (E : Ext) : ∃ (Ω : Type) (_ : MeasurableSpace Ω) (P : Measure Ω) (_ : IsProbabilityMeasure P)
    (X : ℕ → Ω → Fin 2 → ℝ), (∀ A, MeasurableSet A → P (X 0 ⁻¹' A) = volume (A ∩ Set.Icc 0 1)) ∧
    Tendsto (fun n : ℕ => P {ω | ¬ ∃ k,
      KDE.init E { dataset := List.ofFn fun i : Fin n => X i ω, kernel := .cls .gaussian, bandwidth := .val (.str "scott") }
        = .ok k ∧
      ∀ (Ω' : Type) [MeasurableSpace Ω'] (μ : Measure Ω') (rnd : Ω' → ℕ → ℕ → Draw 2), Spec.RandomNumbers μ rnd →
        ∀ (size : ℕ) (squeeze : Bool), ∃ Y : Fin size → Ω' → Fin 2 → ℝ,
          (∀ᵐ ω' ∂μ, ∃ s, k.resample (some size) .none .none squeeze (rnd ω') = .ok s ∧
            s.points = List.ofFn fun j => Y j ω') ∧
          iIndepFun Y μ ∧
          ∀ j A, MeasurableSet A → |μ.real (Y j ⁻¹' A) - P.real (X 0 ⁻¹' A)| < ε}) atTop (𝓝 0) := by
  obtain ⟨Ω, mΩ, P, hP, X, hX, hmom, -⟩ := exists_uniform_data 2
  refine ⟨Ω, mΩ, P, hP, X, fun A hA => ?_, C124_samples two_pos hX hmom .gaussian (Or.inl rfl) E (fun _ => .str "scott") _
    (shrinks_power 2 one_pos) (fun n hn => ?_) hε⟩
  · rw [← Measure.map_apply (hX.measurable 0) hA, hX.law 0, withDensity_apply _ hA]
    classical
    have : (fun y : Fin 2 → ℝ => ENNReal.ofReal ((Set.Icc 0 1).indicator 1 y)) = (Set.Icc 0 1).indicator 1 := by
      funext y
      by_cases hy : y ∈ Set.Icc (0 : Fin 2 → ℝ) 1 <;> simp [hy]
    rw [this, setLIntegral_indicator measurableSet_Icc]
    simp [Set.inter_comm]
  · simp only [if_neg (show n ≠ 0 by omega), mul_one]
    exact ⟨by positivity, Or.inl ⟨rfl, rfl⟩⟩

end Kalepy
