import Mathlib.MeasureTheory.Integral.PeakFunction
import Mathlib.Probability.Moments.Variance
import Mathlib.Probability.IdentDistrib
import Mathlib.MeasureTheory.Function.ConvergenceInMeasure
import Verif.Proofs.Integrals
import Verif.Props.Distribution

/-!
# Averages of kernels over independent data
-/

namespace Kalepy

open MeasureTheory ProbabilityTheory Filter Topology Matrix

variable {d : ℕ} {Ω : Type*} [MeasurableSpace Ω] {P : Measure Ω} [IsProbabilityMeasure P]

/-- Averages of bounded functions of independent data converge to the limit of their means, if the bounds grow slower
than the number of data. -/
lemma avg_tendsto {V : Type*} [MeasurableSpace V] {X : ℕ → Ω → V} (hX : ∀ i, Measurable (X i))
    {l : Filter ℕ} (hl : l ≤ atTop) (hid : ∀ i, P.map (X i) = P.map (X 0)) (hind : Pairwise fun i j => IndepFun (X i) (X j) P)
    (ψ : ℕ → V → ℝ) (hψ : ∀ n, Measurable (ψ n)) (h0 : ∀ n y, 0 ≤ ψ n y) (b : ℕ → ℝ) (hb : ∀ n y, ψ n y ≤ b n)
    (hbn : Tendsto (fun n : ℕ => b n / n) l (𝓝 0)) {L : ℝ}
    (hL : Tendsto (fun n => ∫ ω, ψ n (X 0 ω) ∂P) l (𝓝 L)) {ε : ℝ} (hε : 0 < ε) :
    Tendsto (fun n : ℕ => P {ω | ε ≤ |(∑ i ∈ Finset.range n, ψ n (X i ω)) / n - L|}) l (𝓝 0) := by
  have hm : ∀ n i, Measurable fun ω => ψ n (X i ω) := fun n i => (hψ n).comp (hX i)
  have hLp : ∀ n i, MemLp (fun ω => ψ n (X i ω)) 2 P := fun n i =>
    MemLp.of_bound (hm n i).aestronglyMeasurable (b n) (Eventually.of_forall fun ω => by
      rw [Real.norm_eq_abs, abs_of_nonneg (h0 _ _)]; exact hb _ _)
  have hint : ∀ n i, Integrable (fun ω => ψ n (X i ω)) P := fun n i => (hLp n i).integrable one_le_two
  have hmean : ∀ n i, ∫ ω, ψ n (X i ω) ∂P = ∫ ω, ψ n (X 0 ω) ∂P := by
    intro n i
    rw [← integral_map (hX i).aemeasurable (hψ n).aestronglyMeasurable, hid i,
      integral_map (hX 0).aemeasurable (hψ n).aestronglyMeasurable]
  have hvar : ∀ n i, variance (fun ω => ψ n (X i ω)) P ≤ b n * ∫ ω, ψ n (X 0 ω) ∂P := by
    intro n i
    refine (variance_le_expectation_sq (hm n i).aestronglyMeasurable).trans ?_
    rw [← hmean n i, ← integral_const_mul]
    refine integral_mono ((hLp n i).integrable_sq) ((hint n i).const_mul _) fun ω => ?_
    simp only [Pi.pow_apply, sq]
    exact mul_le_mul_of_nonneg_right (hb _ _) (h0 _ _)
  have hS : ∀ n, variance (∑ i ∈ Finset.range n, fun ω => ψ n (X i ω)) P ≤ n * (b n * ∫ ω, ψ n (X 0 ω) ∂P) := by
    intro n
    rw [IndepFun.variance_sum (fun i _ => hLp n i) (fun i _ j _ hij => (hind hij).comp (hψ n) (hψ n))]
    refine (Finset.sum_le_card_nsmul _ _ _ fun i _ => hvar n i).trans (le_of_eq ?_)
    simp
  have hES : ∀ n, ∫ ω, (∑ i ∈ Finset.range n, fun ω => ψ n (X i ω)) ω ∂P = n * ∫ ω, ψ n (X 0 ω) ∂P := by
    intro n
    simp only [Finset.sum_apply]
    rw [integral_finsetSum _ fun i _ => hint n i, Finset.sum_congr rfl fun i _ => hmean n i]
    simp
  have hlim : Tendsto (fun n : ℕ => ENNReal.ofReal (b n / n * (∫ ω, ψ n (X 0 ω) ∂P) * (4 / ε ^ 2))) l (𝓝 0) := by
    rw [← ENNReal.ofReal_zero]
    refine ENNReal.tendsto_ofReal ?_
    have := (hbn.mul hL).mul_const (4 / ε ^ 2)
    simpa using this
  refine tendsto_of_tendsto_of_tendsto_of_le_of_le' tendsto_const_nhds hlim (Eventually.of_forall fun _ => zero_le) ?_
  filter_upwards [hl (eventually_gt_atTop 0), (Metric.tendsto_nhds.mp hL) (ε / 2) (half_pos hε)] with n hn hclose
  have hn' : (0 : ℝ) < n := Nat.cast_pos.mpr hn
  have hsub : {ω | ε ≤ |(∑ i ∈ Finset.range n, ψ n (X i ω)) / n - L|}
      ⊆ {ω | (n : ℝ) * (ε / 2) ≤ |(∑ i ∈ Finset.range n, fun ω => ψ n (X i ω)) ω
          - P[(∑ i ∈ Finset.range n, fun ω => ψ n (X i ω))]|} := by
    intro ω hω
    simp only [Set.mem_ofPred_eq] at hω ⊢
    rw [hES n]
    simp only [Finset.sum_apply]
    rw [Real.dist_eq] at hclose
    set m := ∫ ω, ψ n (X 0 ω) ∂P
    set S := ∑ i ∈ Finset.range n, ψ n (X i ω)
    have h1 : ε / 2 ≤ |S / n - m| := by
      have := abs_sub_le (S / n) m L
      linarith
    have h2 : S - n * m = n * (S / n - m) := by field_simp
    rw [h2, abs_mul, abs_of_pos hn']
    exact mul_le_mul_of_nonneg_left h1 hn'.le
  refine (measure_mono hsub).trans ?_
  have hLS : MemLp (∑ i ∈ Finset.range n, fun ω => ψ n (X i ω)) 2 P := memLp_finsetSum' _ fun i _ => hLp n i
  refine (meas_ge_le_variance_div_sq hLS (mul_pos hn' (half_pos hε))).trans (ENNReal.ofReal_le_ofReal ?_)
  rw [div_le_iff₀ (by positivity)]
  refine (hS n).trans (le_of_eq ?_)
  field_simp
  ring

/-! ### Kernels as approximations of a point mass -/

lemma quad_lower {A : Matrix (Fin d) (Fin d) ℝ} (hA : A.PosDef) : ∃ c > 0, ∀ u : Fin d → ℝ, c * ‖u‖ ^ 2 ≤ u ⬝ᵥ A *ᵥ u := by
  rcases Nat.eq_zero_or_pos d with rfl | hd
  · exact ⟨1, one_pos, fun u => by
      have : u = 0 := Subsingleton.elim _ _
      simp [this]⟩
  have hcont : Continuous fun u : Fin d → ℝ => u ⬝ᵥ A *ᵥ u := by
    simp only [dotProduct, mulVec]
    fun_prop
  have : Nonempty (Fin d) := ⟨⟨0, hd⟩⟩
  obtain ⟨v, hv, hmin⟩ := (isCompact_sphere (0 : Fin d → ℝ) 1).exists_isMinOn (NormedSpace.sphere_nonempty.mpr zero_le_one)
    hcont.continuousOn
  have hv0 : v ≠ 0 := by
    rintro rfl
    simp at hv
  have hpos : 0 < v ⬝ᵥ A *ᵥ v := by simpa using hA.dotProduct_mulVec_pos hv0
  refine ⟨_, hpos, fun u => ?_⟩
  by_cases hu : u = 0
  · simp [hu]
  have hnu : 0 < ‖u‖ := norm_pos_iff.mpr hu
  have h1 : v ⬝ᵥ A *ᵥ v ≤ (‖u‖⁻¹ • u) ⬝ᵥ A *ᵥ (‖u‖⁻¹ • u) := hmin (by simp [norm_smul, hnu.ne'])
  rw [mulVec_smul, dotProduct_smul, smul_dotProduct, smul_eq_mul, smul_eq_mul] at h1
  have h2 : u ⬝ᵥ A *ᵥ u = ‖u‖ ^ 2 * (‖u‖⁻¹ * (‖u‖⁻¹ * (u ⬝ᵥ A *ᵥ u))) := by field_simp
  rw [h2, mul_comm]
  exact mul_le_mul_of_nonneg_left h1 (by positivity)

lemma shape_le_exp (D : Dist) {s : ℝ} (hs : 0 ≤ s) : Spec.shape D s ≤ Real.exp ((1 - s) / 2) := by
  have h1 : s ≤ 1 → 1 ≤ Real.exp ((1 - s) / 2) := fun h => Real.one_le_exp (by linarith)
  cases D with
  | gaussian => exact Real.exp_le_exp.mpr (by linarith)
  | box =>
    simp only [Spec.shape]
    split_ifs with h
    · exact h1 h
    · positivity
  | parabola =>
    simp only [Spec.shape]
    split_ifs with h
    · exact le_trans (by linarith) (h1 h)
    · positivity
  | triweight =>
    simp only [Spec.shape]
    split_ifs with h
    · exact le_trans (pow_le_one₀ (by linarith) (by linarith)) (h1 h)
    · positivity

lemma shape_le_one (D : Dist) {s : ℝ} (hs : 0 ≤ s) : Spec.shape D s ≤ 1 := by
  refine (shape_antitone D hs).trans ?_
  cases D <;> simp [Spec.shape]

lemma dist2_nonneg' {M : Matrix (Fin d) (Fin d) ℝ} (hM : M.PosDef) (u : Fin d → ℝ) : 0 ≤ Spec.dist2 M u := by
  obtain ⟨c, hc, h⟩ := quad_lower hM.inv
  exact le_trans (by positivity) (h u)

/-- A kernel with matrix `M`, normalised. -/
noncomputable def unitKernel (D : Dist) (M : Matrix (Fin d) (Fin d) ℝ) (u : Fin d → ℝ) : ℝ :=
  Spec.shape D (Spec.dist2 M u) / (Real.sqrt M.det * D.norm d)

lemma measurable_shape (D : Dist) : Measurable (Spec.shape D) := by
  cases D with
  | gaussian => exact (Real.measurable_exp.comp (by fun_prop))
  | box => exact Measurable.ite measurableSet_Iic (by fun_prop) (by fun_prop)
  | parabola => exact Measurable.ite measurableSet_Iic (by fun_prop) (by fun_prop)
  | triweight => exact Measurable.ite measurableSet_Iic (by fun_prop) (by fun_prop)

lemma measurable_unitKernel (D : Dist) (M : Matrix (Fin d) (Fin d) ℝ) : Measurable (unitKernel D M) := by
  refine Measurable.div_const ((measurable_shape D).comp ?_) _
  have : Continuous (Spec.dist2 M) := by
    unfold Spec.dist2
    simp only [dotProduct, mulVec]
    fun_prop
  exact this.measurable

lemma unitKernel_nonneg (hd : 0 < d) (D : Dist) {M : Matrix (Fin d) (Fin d) ℝ} (hM : M.PosDef) (u : Fin d → ℝ) :
    0 ≤ unitKernel D M u :=
  div_nonneg (shape_nonneg' _ _) (mul_pos (Real.sqrt_pos.mpr hM.det_pos) (D.norm_pos d hd)).le

lemma unitKernel_le (hd : 0 < d) (D : Dist) {M : Matrix (Fin d) (Fin d) ℝ} (hM : M.PosDef) (u : Fin d → ℝ) :
    unitKernel D M u ≤ 1 / (Real.sqrt M.det * D.norm d) :=
  div_le_div_of_nonneg_right (shape_le_one _ (dist2_nonneg' hM u))
    (mul_pos (Real.sqrt_pos.mpr hM.det_pos) (D.norm_pos d hd)).le

lemma unitKernel_integral (hd : 0 < d) (D : Dist) {M : Matrix (Fin d) (Fin d) ℝ} (hM : M.PosDef) :
    ∫ u, unitKernel D M u = 1 := by
  unfold unitKernel
  have h := integral_shape_dist2 hd D hM 0
  simp only [sub_zero] at h
  rw [integral_div, h, div_self (mul_pos (Real.sqrt_pos.mpr hM.det_pos) (D.norm_pos d hd)).ne']

lemma unitKernel_decay (hd : 0 < d) (D : Dist) {M : Matrix (Fin d) (Fin d) ℝ} (hM : M.PosDef) :
    Tendsto (fun u : Fin d → ℝ => ‖u‖ ^ Module.finrank ℝ (Fin d → ℝ) * unitKernel D M u) (Bornology.cobounded _) (𝓝 0) := by
  obtain ⟨c, hc, hlow⟩ := quad_lower hM.inv
  set B := 1 / (Real.sqrt M.det * D.norm d) with hB
  have hBpos : 0 < B := by
    have := mul_pos (Real.sqrt_pos.mpr hM.det_pos) (D.norm_pos d hd)
    positivity
  rw [Module.finrank_fintype_fun_eq_card, Fintype.card_fin]
  have h1 : Tendsto (fun r : ℝ => r ^ d * (Real.exp ((1 - c * r ^ 2) / 2) * B)) atTop (𝓝 0) := by
    have h2 : Tendsto (fun r : ℝ => (c / 2 * r) ^ d * Real.exp (-(c / 2 * r))) atTop (𝓝 0) :=
      (Real.tendsto_pow_mul_exp_neg_atTop_nhds_zero d).comp (tendsto_id.const_mul_atTop (half_pos hc))
    have h3 : Tendsto (fun r : ℝ => Real.exp (1 / 2) * B * (2 / c) ^ d * ((c / 2 * r) ^ d * Real.exp (-(c / 2 * r)))) atTop (𝓝 0) := by
      simpa using h2.const_mul (Real.exp (1 / 2) * B * (2 / c) ^ d)
    refine tendsto_of_tendsto_of_tendsto_of_le_of_le' tendsto_const_nhds h3 ?_ ?_
    · filter_upwards [eventually_ge_atTop 0] with r hr
      positivity
    · filter_upwards [eventually_ge_atTop 1] with r hr
      have e1 : Real.exp ((1 - c * r ^ 2) / 2) ≤ Real.exp (1 / 2) * Real.exp (-(c / 2 * r)) := by
        rw [← Real.exp_add]
        refine Real.exp_le_exp.mpr ?_
        have : 0 ≤ c * (r * (r - 1)) := mul_nonneg hc.le (mul_nonneg (by linarith) (by linarith))
        nlinarith
      have e2 : Real.exp (1 / 2) * B * (2 / c) ^ d * ((c / 2 * r) ^ d * Real.exp (-(c / 2 * r)))
          = r ^ d * (Real.exp (1 / 2) * Real.exp (-(c / 2 * r)) * B) := by
        have : (2 / c) ^ d * (c / 2 * r) ^ d = r ^ d := by
          rw [← mul_pow]
          congr 1
          field_simp
        rw [← this]
        ring
      rw [e2]
      have hr0 : 0 ≤ r := by linarith
      gcongr
  refine tendsto_of_tendsto_of_tendsto_of_le_of_le tendsto_const_nhds (h1.comp tendsto_norm_cobounded_atTop) ?_ ?_
  · intro u
    exact mul_nonneg (by positivity) (unitKernel_nonneg hd D hM u)
  · intro u
    simp only [Function.comp]
    refine mul_le_mul_of_nonneg_left ?_ (by positivity)
    have h4 : unitKernel D M u = Spec.shape D (Spec.dist2 M u) * B := by rw [unitKernel, hB]; ring
    rw [h4]
    refine mul_le_mul_of_nonneg_right ?_ hBpos.le
    refine (shape_le_exp D (dist2_nonneg' hM u)).trans (Real.exp_le_exp.mpr ?_)
    have := hlow u
    simp only [Spec.dist2]
    linarith

lemma dist2_smul_matrix (M : Matrix (Fin d) (Fin d) ℝ) {t : ℝ} (ht : t ≠ 0) (u : Fin d → ℝ) :
    Spec.dist2 (t • M) u = t⁻¹ * Spec.dist2 M u := by
  unfold Spec.dist2
  have h : (t • M)⁻¹ = t⁻¹ • M⁻¹ := by
    by_cases hM : IsUnit M.det
    · refine inv_eq_left_inv ?_
      rw [smul_mul_smul_comm, nonsing_inv_mul _ hM, inv_mul_cancel₀ ht, one_smul]
    · rw [nonsing_inv_apply_not_isUnit _ hM, nonsing_inv_apply_not_isUnit, smul_zero]
      rw [det_smul]
      intro h
      exact hM (isUnit_of_mul_isUnit_right h)
  rw [h, smul_mulVec, dotProduct_smul, smul_eq_mul]

lemma dist2_smul_vec (M : Matrix (Fin d) (Fin d) ℝ) (t : ℝ) (u : Fin d → ℝ) :
    Spec.dist2 M (t • u) = t ^ 2 * Spec.dist2 M u := by
  unfold Spec.dist2
  rw [mulVec_smul, dotProduct_smul, smul_dotProduct, smul_eq_mul, smul_eq_mul]
  ring

/-- Scaling the matrix by `h²` scales the kernel by `h`. -/
lemma unitKernel_scale (D : Dist) (M : Matrix (Fin d) (Fin d) ℝ) {h : ℝ} (hh : 0 < h) (u : Fin d → ℝ) :
    unitKernel D ((h ^ 2) • M) u = h⁻¹ ^ d * unitKernel D M (h⁻¹ • u) := by
  unfold unitKernel
  rw [dist2_smul_matrix M (by positivity), dist2_smul_vec, det_smul, Fintype.card_fin, ← pow_mul, mul_comm 2 d, pow_mul,
    Real.sqrt_mul (by positivity), Real.sqrt_sq (by positivity), inv_pow]
  field_simp

/-- Means of narrow kernels around `x`: they tend to the value at `x`. -/
lemma kernel_mean_tendsto (hd : 0 < d) (D : Dist) {M : Matrix (Fin d) (Fin d) ℝ} (hM : M.PosDef) {g : (Fin d → ℝ) → ℝ}
    (hg : Integrable g) {x : Fin d → ℝ} (hx : ContinuousAt g x) {h : ℕ → ℝ} (hh : ∀ n, 0 < h n)
    (h0 : Tendsto h atTop (𝓝 0)) :
    Tendsto (fun n => ∫ y, unitKernel D ((h n ^ 2) • M) (x - y) * g y) atTop (𝓝 (g x)) := by
  have hc : Tendsto (fun n => (h n)⁻¹) atTop atTop :=
    (tendsto_nhdsWithin_of_tendsto_nhds_of_eventually_within _ h0 (Eventually.of_forall fun n => hh n)).inv_tendsto_nhdsGT_zero
  have := (tendsto_integral_comp_smul_smul_of_integrable' (μ := volume) (unitKernel_nonneg hd D hM)
    (unitKernel_integral hd D hM) (unitKernel_decay hd D hM) hg hx).comp hc
  refine this.congr fun n => ?_
  simp only [Function.comp, Module.finrank_fintype_fun_eq_card, Fintype.card_fin, smul_eq_mul]
  refine integral_congr_ae (Eventually.of_forall fun y => ?_)
  simp only
  rw [unitKernel_scale D M (hh n)]

end Kalepy
