import Mathlib.Probability.StrongLaw
import Mathlib.Probability.Moments.Covariance
import Mathlib.MeasureTheory.Measure.Lebesgue.EqHaar
import Verif.Proofs.Consistency
import Verif.Props.Covariance

/-!
# The covariance of the data tends to the covariance of their law
-/

namespace Kalepy

open MeasureTheory ProbabilityTheory Filter Topology Matrix

variable {d : ℕ} {Ω : Type*} [MeasurableSpace Ω] {P : Measure Ω} [IsProbabilityMeasure P]

/-- The covariance of the law of a random point. -/
noncomputable def trueCov (P : Measure Ω) (Y : Ω → Fin d → ℝ) : Matrix (Fin d) (Fin d) ℝ :=
  Matrix.of fun i j => covariance (fun ω => Y ω i) (fun ω => Y ω j) P

lemma sampleCov_ofFn (n : ℕ) (x : ℕ → Fin d → ℝ) (hn : 1 < n) (i j : Fin d) :
    Spec.sampleCov (Spec.weighted (List.ofFn fun k : Fin n => x k) none) i j
      = ((∑ k ∈ Finset.range n, x k i * x k j) / n
          - (∑ k ∈ Finset.range n, x k i) / n * ((∑ k ∈ Finset.range n, x k j) / n)) * (n / (n - 1)) := by
  have hn0 : (n : ℝ) ≠ 0 := by positivity
  have hn1 : (n : ℝ) - 1 ≠ 0 := by
    have : (1 : ℝ) < n := by exact_mod_cast hn
    linarith
  have hsum : ∀ f : (Fin d → ℝ) → ℝ, ((List.ofFn fun k : Fin n => x k).map f).sum = ∑ k ∈ Finset.range n, f (x k) := by
    intro f
    rw [List.map_ofFn, List.sum_ofFn, Finset.sum_range]
    rfl
  have h1 : ∀ l : Fin d, Spec.mean (Spec.weighted (List.ofFn fun k : Fin n => x k) none) l
      = (∑ k ∈ Finset.range n, x k l) / n := by
    intro l
    simp only [Spec.mean, Spec.weighted, List.map_map, Function.comp_def, one_mul]
    rw [hsum fun y => y l, hsum fun _ => 1]
    simp
  simp only [Spec.sampleCov, of_apply, h1]
  simp only [Spec.weighted, List.map_map, Function.comp_def, one_mul]
  rw [hsum fun y => (y i - (∑ k ∈ Finset.range n, x k i) / n) * (y j - (∑ k ∈ Finset.range n, x k j) / n),
    hsum fun _ => 1, hsum fun _ => 1 ^ 2]
  set A := (∑ k ∈ Finset.range n, x k i)
  set B := (∑ k ∈ Finset.range n, x k j)
  have h2 : ∑ k ∈ Finset.range n, (x k i - A / n) * (x k j - B / n)
      = (∑ k ∈ Finset.range n, x k i * x k j) - A * B / n := by
    have : ∀ k, (x k i - A / n) * (x k j - B / n) = x k i * x k j - x k i * (B / n) - A / n * x k j + A / n * (B / n) := by
      intro k; ring
    simp only [this]
    rw [Finset.sum_add_distrib, Finset.sum_sub_distrib, Finset.sum_sub_distrib, ← Finset.sum_mul, ← Finset.mul_sum]
    simp only [Finset.sum_const, Finset.card_range, nsmul_eq_mul]
    change _ - A * (B / n) - A / n * B + _ = _
    field_simp
    ring
  rw [h2]
  simp only [Finset.sum_const, Finset.card_range, nsmul_eq_mul, mul_one, one_pow]
  rw [div_self hn0]
  field_simp

lemma sampleCov_tendsto {X : ℕ → Ω → Fin d → ℝ} (hX : ∀ i, Measurable (X i)) (hid : ∀ i, P.map (X i) = P.map (X 0))
    (hind : Pairwise fun i j => IndepFun (X i) (X j) P) (h2 : ∀ i, MemLp (fun ω => X 0 ω i) 2 P) :
    ∀ᵐ ω ∂P, Tendsto (fun n : ℕ => (Spec.sampleCov (Spec.weighted (List.ofFn fun k : Fin n => X k ω) none) :
      Fin d → Fin d → ℝ)) atTop (𝓝 (trueCov P (X 0))) := by
  have slln : ∀ f : (Fin d → ℝ) → ℝ, Measurable f → Integrable (fun ω => f (X 0 ω)) P →
      ∀ᵐ ω ∂P, Tendsto (fun n : ℕ => (∑ k ∈ Finset.range n, f (X k ω)) / n) atTop (𝓝 (∫ ω, f (X 0 ω) ∂P)) := by
    intro f hf hint
    refine strong_law_ae_real (fun k ω => f (X k ω)) hint (fun i j hij => (hind hij).comp hf hf) fun i => ?_
    exact IdentDistrib.comp ⟨(hX i).aemeasurable, (hX 0).aemeasurable, hid i⟩ hf
  have hint1 : ∀ i, Integrable (fun ω => X 0 ω i) P := fun i => (h2 i).integrable one_le_two
  have hint2 : ∀ i j, Integrable (fun ω => X 0 ω i * X 0 ω j) P := fun i j => (h2 i).integrable_mul (h2 j)
  have a1 : ∀ᵐ ω ∂P, ∀ i : Fin d, Tendsto (fun n : ℕ => (∑ k ∈ Finset.range n, X k ω i) / n) atTop
      (𝓝 (∫ ω, X 0 ω i ∂P)) := ae_all_iff.mpr fun i => slln (fun y => y i) (measurable_pi_apply i) (hint1 i)
  have a2 : ∀ᵐ ω ∂P, ∀ i j : Fin d, Tendsto (fun n : ℕ => (∑ k ∈ Finset.range n, X k ω i * X k ω j) / n) atTop
      (𝓝 (∫ ω, X 0 ω i * X 0 ω j ∂P)) := ae_all_iff.mpr fun i => ae_all_iff.mpr fun j =>
    slln (fun y => y i * y j) ((measurable_pi_apply i).mul (measurable_pi_apply j)) (hint2 i j)
  filter_upwards [a1, a2] with ω w1 w2
  refine tendsto_pi_nhds.mpr fun i => tendsto_pi_nhds.mpr fun j => ?_
  have h3 : Tendsto (fun n : ℕ => (n : ℝ) / (n - 1)) atTop (𝓝 1) := by
    have : Tendsto (fun n : ℕ => (1 - 1 / (n : ℝ))⁻¹) atTop (𝓝 (1 - 0)⁻¹) :=
      (tendsto_const_nhds.sub tendsto_one_div_atTop_nhds_zero_nat).inv₀ (by norm_num)
    rw [sub_zero, inv_one] at this
    refine this.congr' ?_
    filter_upwards [eventually_gt_atTop 1] with n hn
    have hn1 : (1 : ℝ) < n := by exact_mod_cast hn
    have : (n : ℝ) - 1 ≠ 0 := by linarith
    field_simp
  have h4 := ((w2 i j).sub ((w1 i).mul (w1 j))).mul h3
  rw [mul_one] at h4
  have h5 : trueCov P (X 0) i j = (∫ ω, X 0 ω i * X 0 ω j ∂P) - (∫ ω, X 0 ω i ∂P) * ∫ ω, X 0 ω j ∂P := by
    simp only [trueCov, of_apply]
    rw [covariance_eq_sub (h2 i) (h2 j)]
    rfl
  rw [h5]
  refine h4.congr' ?_
  filter_upwards [eventually_gt_atTop 1] with n hn
  exact (sampleCov_ofFn n (fun k => X k ω) hn i j).symm

/-- Points on a hyperplane have probability zero. -/
lemma hyperplane_null {u : Fin d → ℝ} (hu : u ≠ 0) (m : ℝ) : volume {y : Fin d → ℝ | u ⬝ᵥ y = m} = 0 := by
  let φ : (Fin d → ℝ) →ₗ[ℝ] ℝ := dotProductBilin ℝ ℝ u
  have hφ : ∀ y, φ y = u ⬝ᵥ y := fun y => rfl
  have hker : LinearMap.ker φ ≠ ⊤ := by
    intro h
    have : φ u = 0 := by
      have : u ∈ LinearMap.ker φ := by rw [h]; trivial
      exact this
    rw [hφ] at this
    exact hu (dotProduct_self_eq_zero.mp this)
  by_cases hne : ∃ y₀, u ⬝ᵥ y₀ = m
  · obtain ⟨y₀, hy⟩ := hne
    have hset : {y : Fin d → ℝ | u ⬝ᵥ y = m} = (fun y => y + -y₀) ⁻¹' (LinearMap.ker φ : Set (Fin d → ℝ)) := by
      ext y
      simp only [Set.mem_ofPred_eq, Set.mem_preimage, SetLike.mem_coe, LinearMap.mem_ker, hφ, dotProduct_add, dotProduct_neg,
        hy]
      constructor
      · rintro rfl; ring
      · intro h; linarith
    rw [hset, measure_preimage_add_right]
    exact Measure.addHaar_submodule _ _ hker
  · have : {y : Fin d → ℝ | u ⬝ᵥ y = m} = ∅ := by
      ext y
      simp only [Set.mem_ofPred_eq, Set.mem_empty_iff_false, iff_false]
      exact fun h => hne ⟨y, h⟩
    rw [this, measure_empty]

/-- A law with a density has a positive definite covariance. -/
lemma trueCov_posDef {Y : Ω → Fin d → ℝ} (hY : Measurable Y) (h2 : ∀ i, MemLp (fun ω => Y ω i) 2 P)
    (hac : P.map Y ≪ volume) : (trueCov P Y).PosDef := by
  have hsym : (trueCov P Y).IsHermitian := by
    ext i j
    simp only [conjTranspose_apply, star_trivial, trueCov, of_apply]
    exact covariance_comm _ _
  refine PosDef.of_dotProduct_mulVec_pos hsym fun u hu => ?_
  have hLu : MemLp (fun ω => u ⬝ᵥ Y ω) 2 P := by
    simp only [dotProduct]
    exact memLp_finsetSum _ fun i _ => (h2 i).const_mul _
  have hq : star u ⬝ᵥ trueCov P Y *ᵥ u = variance (fun ω => u ⬝ᵥ Y ω) P := by
    rw [← covariance_self hLu.aestronglyMeasurable.aemeasurable]
    simp only [dotProduct]
    rw [covariance_fun_sum_fun_sum (fun i => (h2 i).const_mul _) fun i => (h2 i).const_mul _]
    simp only [covariance_const_mul_left, covariance_const_mul_right, mulVec, dotProduct, trueCov, of_apply, star_trivial,
      Finset.mul_sum]
    refine Finset.sum_congr rfl fun i _ => Finset.sum_congr rfl fun j _ => ?_
    ring
  rw [hq]
  refine lt_of_le_of_ne (variance_nonneg _ _) fun h0 => ?_
  have hev : evariance (fun ω => u ⬝ᵥ Y ω) P = 0 := by
    rw [← hLu.ofReal_variance_eq, ← h0, ENNReal.ofReal_zero]
  rw [evariance_eq_zero_iff hLu.aestronglyMeasurable.aemeasurable] at hev
  set m := P[fun ω => u ⬝ᵥ Y ω]
  have hms : MeasurableSet {y : Fin d → ℝ | u ⬝ᵥ y = m} := by
    have : Continuous fun y : Fin d → ℝ => u ⬝ᵥ y := by unfold dotProduct; fun_prop
    exact measurableSet_eq_fun this.measurable measurable_const
  have h1 : P.map Y {y | u ⬝ᵥ y = m} = 1 := by
    rw [Measure.map_apply hY hms]
    exact (prob_compl_eq_zero_iff (hY hms)).mp (ae_iff.mp hev)
  rw [hac (hyperplane_null hu m)] at h1
  exact zero_ne_one h1

/-- Almost sure convergence: neighbourhoods of the limit are missed with vanishing probability. -/
lemma prob_nhds_tendsto {V : Type*} [PseudoMetricSpace V] [MeasurableSpace V] [BorelSpace V] [SecondCountableTopology V]
    {Z : ℕ → Ω → V} {z : V} (hZ : ∀ n, Measurable (Z n))
    (h : ∀ᵐ ω ∂P, Tendsto (fun n => Z n ω) atTop (𝓝 z)) {U : Set V} (hU : U ∈ 𝓝 z) :
    Tendsto (fun n => P {ω | Z n ω ∉ U}) atTop (𝓝 0) := by
  obtain ⟨ε, hε, hball⟩ := Metric.mem_nhds_iff.mp hU
  have h1 := tendstoInMeasure_of_tendsto_ae (fun n => (hZ n).aestronglyMeasurable) h
  have h2 := (tendstoInMeasure_iff_dist.mp h1) ε hε
  refine tendsto_of_tendsto_of_tendsto_of_le_of_le tendsto_const_nhds h2 (fun _ => zero_le) fun n => measure_mono fun ω hω => ?_
  simp only [Set.mem_ofPred_eq] at hω ⊢
  by_contra hlt
  exact hω (hball (Metric.mem_ball.mpr (not_le.mp hlt)))

/-! ### Matrices close to a positive definite one -/

/-- Quadratic forms of matrices close to `S` are close to that of `S`. -/
lemma quad_close {S : Matrix (Fin d) (Fin d) ℝ} (hS : S.PosDef) {δ : ℝ} (hδ : 0 < δ) :
    ∀ᶠ M : Fin d → Fin d → ℝ in 𝓝 S, ∀ u : Fin d → ℝ,
      (1 - δ) * (u ⬝ᵥ S *ᵥ u) ≤ u ⬝ᵥ (Matrix.of M) *ᵥ u ∧ u ⬝ᵥ (Matrix.of M) *ᵥ u ≤ (1 + δ) * (u ⬝ᵥ S *ᵥ u) := by
  obtain ⟨c, hc, hlow⟩ := quad_lower hS
  have hη : 0 < δ * c / (d * d + 1) := by positivity
  filter_upwards [Metric.ball_mem_nhds (α := Fin d → Fin d → ℝ) S hη] with M hM u
  have hent : ∀ i j, |M i j - S i j| ≤ δ * c / (d * d + 1) := by
    intro i j
    have h1 : dist M (S : Fin d → Fin d → ℝ) < δ * c / (d * d + 1) := Metric.mem_ball.mp hM
    have h2 := (dist_le_pi_dist (M i) (S i) j).trans ((dist_le_pi_dist M (S : Fin d → Fin d → ℝ) i).trans h1.le)
    rwa [Real.dist_eq] at h2
  have hdiff : |u ⬝ᵥ (Matrix.of M) *ᵥ u - u ⬝ᵥ S *ᵥ u| ≤ δ * (u ⬝ᵥ S *ᵥ u) := by
    have e : u ⬝ᵥ (Matrix.of M) *ᵥ u - u ⬝ᵥ S *ᵥ u = ∑ i, ∑ j, u i * ((M i j - S i j) * u j) := by
      simp only [dotProduct, mulVec, of_apply, Finset.mul_sum, ← Finset.sum_sub_distrib]
      refine Finset.sum_congr rfl fun i _ => Finset.sum_congr rfl fun j _ => ?_
      ring
    rw [e]
    calc |∑ i, ∑ j, u i * ((M i j - S i j) * u j)| ≤ ∑ i : Fin d, ∑ j : Fin d, ‖u‖ * (δ * c / (d * d + 1) * ‖u‖) := by
          refine (Finset.abs_sum_le_sum_abs _ _).trans (Finset.sum_le_sum fun i _ => ?_)
          refine (Finset.abs_sum_le_sum_abs _ _).trans (Finset.sum_le_sum fun j _ => ?_)
          rw [abs_mul, abs_mul]
          have n1 : |u i| ≤ ‖u‖ := norm_le_pi_norm u i
          have n2 : |u j| ≤ ‖u‖ := norm_le_pi_norm u j
          have := hent i j
          gcongr
      _ = δ * (c * ‖u‖ ^ 2) * ((d * d) / (d * d + 1)) := by
          simp only [Finset.sum_const, Finset.card_univ, Fintype.card_fin, nsmul_eq_mul]
          field_simp
      _ ≤ δ * (c * ‖u‖ ^ 2) * 1 := by
          refine mul_le_mul_of_nonneg_left ?_ (by positivity)
          rw [div_le_one (by positivity)]
          linarith
      _ ≤ δ * (u ⬝ᵥ S *ᵥ u) := by
          rw [mul_one]
          exact mul_le_mul_of_nonneg_left (hlow u) hδ.le
  rw [abs_le] at hdiff
  constructor <;> linarith [hdiff.1, hdiff.2]

/-- The inverse as a maximum. -/
lemma dist2_max {M : Matrix (Fin d) (Fin d) ℝ} (hM : M.PosDef) (u v : Fin d → ℝ) :
    2 * (u ⬝ᵥ v) - v ⬝ᵥ M *ᵥ v ≤ Spec.dist2 M u := by
  have hunit : IsUnit M.det := hM.det_pos.ne'.isUnit
  have hsym : M.IsSymm := by
    have := hM.isHermitian
    rwa [Matrix.IsHermitian, conjTranspose_eq_transpose_of_trivial] at this
  have h0 : 0 ≤ (v - M⁻¹ *ᵥ u) ⬝ᵥ M *ᵥ (v - M⁻¹ *ᵥ u) := by
    obtain ⟨c, hc, h⟩ := quad_lower hM
    exact le_trans (by positivity) (h _)
  rw [mulVec_sub, mulVec_mulVec, mul_nonsing_inv _ hunit, one_mulVec, sub_dotProduct, dotProduct_sub, dotProduct_sub] at h0
  have h1 : (M⁻¹ *ᵥ u) ⬝ᵥ M *ᵥ v = u ⬝ᵥ v := by
    rw [dotProduct_mulVec, ← mulVec_transpose, hsym.eq, mulVec_mulVec, mul_nonsing_inv _ hunit, one_mulVec]
  have h2 : v ⬝ᵥ u = u ⬝ᵥ v := dotProduct_comm _ _
  have h3 : (M⁻¹ *ᵥ u) ⬝ᵥ u = u ⬝ᵥ M⁻¹ *ᵥ u := dotProduct_comm _ _
  rw [h1, h2, h3] at h0
  simp only [Spec.dist2]
  linarith

lemma dist2_anti {A B : Matrix (Fin d) (Fin d) ℝ} (hA : A.PosDef) (hB : B.PosDef)
    (h : ∀ v : Fin d → ℝ, v ⬝ᵥ A *ᵥ v ≤ v ⬝ᵥ B *ᵥ v) (u : Fin d → ℝ) : Spec.dist2 B u ≤ Spec.dist2 A u := by
  have hunit : IsUnit B.det := hB.det_pos.ne'.isUnit
  have h1 := dist2_max hA u (B⁻¹ *ᵥ u)
  have h2 := h (B⁻¹ *ᵥ u)
  rw [mulVec_mulVec (M := B), mul_nonsing_inv _ hunit, one_mulVec] at h2
  have h3 : (B⁻¹ *ᵥ u) ⬝ᵥ u = u ⬝ᵥ B⁻¹ *ᵥ u := dotProduct_comm _ _
  rw [h3] at h2
  simp only [Spec.dist2] at h1 ⊢
  linarith

/-- Symmetric matrices close to `S` have nearly its inverse and determinant. -/
lemma matrix_close {S : Matrix (Fin d) (Fin d) ℝ} (hS : S.PosDef) {r : ℝ} (hr : 1 < r) :
    ∀ᶠ M : Fin d → Fin d → ℝ in 𝓝 S, (Matrix.of M).IsSymm → (Matrix.of M).PosDef ∧
      (∀ u, r⁻¹ * Spec.dist2 S u ≤ Spec.dist2 (Matrix.of M) u ∧ Spec.dist2 (Matrix.of M) u ≤ r * Spec.dist2 S u) ∧
      r⁻¹ * Real.sqrt S.det < Real.sqrt (Matrix.of M).det ∧ Real.sqrt (Matrix.of M).det < r * Real.sqrt S.det := by
  have hr0 : 0 < r := by linarith
  have hri : r⁻¹ < 1 := inv_lt_one_of_one_lt₀ hr
  have hdet : ContinuousAt (fun M : Fin d → Fin d → ℝ => Real.sqrt (Matrix.of M).det) S := by
    refine (Real.continuous_sqrt.comp ?_).continuousAt
    exact Continuous.matrix_det continuous_id
  have hs : 0 < Real.sqrt S.det := Real.sqrt_pos.mpr hS.det_pos
  have hδ : 0 < min (1 - r⁻¹) (r - 1) := lt_min (by linarith) (by linarith)
  have hl : r⁻¹ * Real.sqrt S.det < Real.sqrt (Matrix.of (S : Fin d → Fin d → ℝ)).det := by
    show r⁻¹ * Real.sqrt S.det < Real.sqrt S.det
    nlinarith
  have hu : Real.sqrt (Matrix.of (S : Fin d → Fin d → ℝ)).det < r * Real.sqrt S.det := by
    show Real.sqrt S.det < r * Real.sqrt S.det
    nlinarith
  filter_upwards [quad_close hS hδ, hdet.eventually (eventually_gt_nhds hl), hdet.eventually (eventually_lt_nhds hu)] with M h1 h2 h3 hsym
  have hq0 : ∀ u : Fin d → ℝ, 0 ≤ u ⬝ᵥ S *ᵥ u := by
    intro u
    obtain ⟨c, hc, h⟩ := quad_lower hS
    exact le_trans (by positivity) (h u)
  have hlo : ∀ u : Fin d → ℝ, r⁻¹ * (u ⬝ᵥ S *ᵥ u) ≤ u ⬝ᵥ (Matrix.of M) *ᵥ u := fun u => by
    have := (h1 u).1
    have h5 : min (1 - r⁻¹) (r - 1) ≤ 1 - r⁻¹ := min_le_left _ _
    nlinarith [hq0 u]
  have hhi : ∀ u : Fin d → ℝ, u ⬝ᵥ (Matrix.of M) *ᵥ u ≤ r * (u ⬝ᵥ S *ᵥ u) := fun u => by
    have := (h1 u).2
    have h5 : min (1 - r⁻¹) (r - 1) ≤ r - 1 := min_le_right _ _
    nlinarith [hq0 u]
  have hM : (Matrix.of M).PosDef := by
    refine PosDef.of_dotProduct_mulVec_pos ?_ fun u hu => ?_
    · rw [Matrix.IsHermitian, conjTranspose_eq_transpose_of_trivial]
      exact hsym
    · have h6 : 0 < u ⬝ᵥ S *ᵥ u := by simpa using hS.dotProduct_mulVec_pos hu
      rw [star_trivial]
      exact lt_of_lt_of_le (mul_pos (inv_pos.mpr hr0) h6) (hlo u)
  refine ⟨hM, fun u => ⟨?_, ?_⟩, h2, h3⟩
  · rw [← dist2_smul_matrix S hr0.ne']
    refine dist2_anti hM (hS.smul hr0) (fun v => ?_) u
    rw [smul_mulVec, dotProduct_smul, smul_eq_mul]
    exact hhi v
  · have : r = (r⁻¹)⁻¹ := (inv_inv r).symm
    conv_rhs => rw [this]
    rw [← dist2_smul_matrix S (inv_ne_zero hr0.ne')]
    refine dist2_anti (hS.smul (inv_pos.mpr hr0)) hM (fun v => ?_) u
    rw [smul_mulVec, dotProduct_smul, smul_eq_mul]
    exact hlo v

end Kalepy
