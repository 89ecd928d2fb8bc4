import Mathlib.MeasureTheory.Constructions.HaarToSphere
import Mathlib.MeasureTheory.Measure.Lebesgue.VolumeOfBalls
import Mathlib.Analysis.SpecialFunctions.Gaussian.GaussianIntegral
import Mathlib.Analysis.SpecialFunctions.Integrals.Basic
import Mathlib.MeasureTheory.Integral.Pi
import Verif.Proofs.DensitySpec
import Verif.Proofs.Chol

/-!
# Integrals of the kernels
-/

namespace Kalepy

open MeasureTheory Matrix

variable {d : ℕ}

/-! ### Radial functions -/

lemma nballVol_eq (hd : 0 < d) :
    (volume : Measure (EuclideanSpace ℝ (Fin d))).real (Metric.ball 0 1) = Dist.nballVol d := by
  have : Nonempty (Fin d) := ⟨⟨0, hd⟩⟩
  rw [Measure.real, EuclideanSpace.volume_ball]
  simp only [ENNReal.ofReal_one, one_pow, one_mul, Fintype.card_fin]
  rw [ENNReal.toReal_ofReal]
  · rw [Dist.nballVol, Real.sqrt_eq_rpow, ← Real.rpow_natCast, ← Real.rpow_mul Real.pi_pos.le]
    congr 2
    ring
  · exact div_nonneg (by positivity) (Real.Gamma_nonneg_of_nonneg (by positivity))

/-- Integral of a function of the squared Euclidean norm. -/
lemma integral_radial (hd : 0 < d) (f : ℝ → ℝ) :
    ∫ x : Fin d → ℝ, f (x ⬝ᵥ x) = d * Dist.nballVol d * ∫ r in Set.Ioi (0 : ℝ), r ^ (d - 1) * f (r ^ 2) := by
  have hn : Nonempty (Fin d) := ⟨⟨0, hd⟩⟩
  have h1 : ∀ x : Fin d → ℝ, x ⬝ᵥ x = ‖(WithLp.toLp 2 x : EuclideanSpace ℝ (Fin d))‖ ^ 2 := by
    intro x
    rw [EuclideanSpace.real_norm_sq_eq]
    simp [dotProduct, pow_two]
  have h2 : ∫ x : Fin d → ℝ, f (x ⬝ᵥ x) = ∫ x : EuclideanSpace ℝ (Fin d), f (‖x‖ ^ 2) := by
    rw [← (PiLp.volume_preserving_toLp (Fin d)).integral_comp
      (MeasurableEquiv.toLp 2 _).measurableEmbedding]
    simp only [h1]
  rw [h2, integral_fun_norm_addHaar volume (fun r => f (r ^ 2)), nballVol_eq hd]
  simp [finrank_euclideanSpace, mul_assoc]

/-! ### The radial integrals of the finite kernels -/

lemma integral_Ioi_cut (n : ℕ) (g : ℝ → ℝ) :
    ∫ r in Set.Ioi (0 : ℝ), r ^ n * (if r ^ 2 ≤ 1 then g r else 0) = ∫ r in (0:ℝ)..1, r ^ n * g r := by
  rw [intervalIntegral.integral_of_le zero_le_one]
  have : ∀ r ∈ Set.Ioi (0 : ℝ), r ^ n * (if r ^ 2 ≤ 1 then g r else 0)
      = (Set.Iic (1:ℝ)).indicator (fun r => r ^ n * g r) r := by
    intro r hr
    have hr' : (0:ℝ) < r := hr
    by_cases h : r ≤ 1
    · rw [Set.indicator_of_mem (show r ∈ Set.Iic (1:ℝ) from h), if_pos (by nlinarith)]
    · rw [Set.indicator_of_notMem (show r ∉ Set.Iic (1:ℝ) from h), if_neg (by nlinarith), mul_zero]
  rw [setIntegral_congr_fun measurableSet_Ioi this, integral_indicator measurableSet_Iic,
    Measure.restrict_restrict measurableSet_Iic, Set.Iic_inter_Ioi]

lemma norm_box (hd : 0 < d) : ∫ x : Fin d → ℝ, Spec.shape .box (x ⬝ᵥ x) = Dist.norm .box d := by
  rw [integral_radial hd]
  simp only [Spec.shape]
  rw [integral_Ioi_cut (d - 1) fun _ => 1]
  have hd' : ((d - 1 : ℕ) : ℝ) + 1 = d := by
    rw [← Nat.cast_succ]; congr 1; omega
  have hd0 : (d : ℝ) ≠ 0 := by positivity
  simp only [mul_one, integral_pow, hd', one_pow, zero_pow (Nat.succ_ne_zero _), sub_zero, Dist.norm]
  field_simp

lemma norm_parabola (hd : 0 < d) : ∫ x : Fin d → ℝ, Spec.shape .parabola (x ⬝ᵥ x) = Dist.norm .parabola d := by
  rw [integral_radial hd]
  simp only [Spec.shape]
  rw [integral_Ioi_cut (d - 1) fun r => 1 - r ^ 2]
  have hd' : ((d - 1 : ℕ) : ℝ) = d - 1 := by
    rw [Nat.cast_sub (by omega)]; simp
  have hd0 : (d : ℝ) ≠ 0 := by positivity
  have hd2 : (d : ℝ) + 2 ≠ 0 := by positivity
  have : ∀ r : ℝ, r ^ (d - 1) * (1 - r ^ 2) = r ^ (d - 1) - r ^ (d - 1 + 2) := by intro r; rw [pow_add]; ring
  simp only [this]
  rw [intervalIntegral.integral_sub (by simp) (by simp)]
  simp only [integral_pow, one_pow, zero_pow (Nat.succ_ne_zero _), sub_zero, Dist.norm]
  push_cast
  rw [hd']
  have e1 : (d:ℝ) - 1 + 1 = d := by ring
  have e2 : (d:ℝ) - 1 + 2 + 1 = d + 2 := by ring
  rw [e1, e2]
  field_simp
  ring

lemma spBeta_four {x : ℝ} (hx : 0 < x) :
    Dist.spBeta (3 + 1) x = 6 / (x * (x + 1) * (x + 2) * (x + 3)) := by
  have g1 : Real.Gamma (3 + 1) = 6 := by
    have := Real.Gamma_nat_eq_factorial 3
    push_cast at this
    rw [this]
    norm_num [Nat.factorial]
  have g2 : Real.Gamma (3 + 1 + x) = (x + 3) * ((x + 2) * ((x + 1) * (x * Real.Gamma x))) := by
    rw [show 3 + 1 + x = (x + 3) + 1 by ring, Real.Gamma_add_one (by linarith),
      show x + 3 = (x + 2) + 1 by ring, Real.Gamma_add_one (by linarith),
      show x + 2 = (x + 1) + 1 by ring, Real.Gamma_add_one (by linarith), Real.Gamma_add_one (by linarith)]
  have g3 := (Real.Gamma_pos_of_pos hx).ne'
  rw [Dist.spBeta, g1, g2]
  field_simp

lemma norm_triweight (hd : 0 < d) : ∫ x : Fin d → ℝ, Spec.shape .triweight (x ⬝ᵥ x) = Dist.norm .triweight d := by
  rw [integral_radial hd]
  simp only [Spec.shape]
  rw [integral_Ioi_cut (d - 1) fun r => (1 - r ^ 2) ^ 3]
  have hd' : ((d - 1 : ℕ) : ℝ) = d - 1 := by
    rw [Nat.cast_sub (by omega)]; simp
  have hd0 : (0:ℝ) < d := by positivity
  have : ∀ r : ℝ, r ^ (d - 1) * (1 - r ^ 2) ^ 3
      = (r ^ (d - 1) - 3 * r ^ (d - 1 + 2)) + (3 * r ^ (d - 1 + 4) - r ^ (d - 1 + 6)) := by
    intro r; rw [pow_add, pow_add, pow_add]; ring
  simp only [this]
  have hi : ∀ (c : ℝ) (n : ℕ), IntervalIntegrable (fun r : ℝ => c * r ^ n) volume 0 1 :=
    fun c n => (continuous_const.mul (continuous_pow n)).intervalIntegrable _ _
  have hp : ∀ n : ℕ, IntervalIntegrable (fun r : ℝ => r ^ n) volume 0 1 :=
    fun n => (continuous_pow n).intervalIntegrable _ _
  rw [intervalIntegral.integral_add ((hp _).sub (hi _ _)) ((hi _ _).sub (hp _)),
    intervalIntegral.integral_sub (hp _) (hi _ _), intervalIntegral.integral_sub (hi _ _) (hp _),
    intervalIntegral.integral_const_mul, intervalIntegral.integral_const_mul]
  simp only [integral_pow, one_pow, zero_pow (Nat.succ_ne_zero _), sub_zero, Dist.norm, Dist.betaKernelNorm]
  rw [spBeta_four (by positivity)]
  push_cast
  rw [hd']
  have e1 : (d:ℝ) - 1 + 1 = d := by ring
  have e2 : (d:ℝ) - 1 + 2 + 1 = d + 2 := by ring
  have e3 : (d:ℝ) - 1 + 4 + 1 = d + 4 := by ring
  have e4 : (d:ℝ) - 1 + 6 + 1 = d + 6 := by ring
  rw [e1, e2, e3, e4]
  field_simp
  ring

lemma norm_gaussian : ∫ x : Fin d → ℝ, Spec.shape .gaussian (x ⬝ᵥ x) = Dist.norm .gaussian d := by
  have h1 : ∀ x : Fin d → ℝ, Spec.shape .gaussian (x ⬝ᵥ x) = ∏ i, Real.exp (-(1/2) * (x i) ^ 2) := by
    intro x
    rw [Spec.shape, ← Real.exp_sum]
    congr 1
    rw [← Finset.mul_sum, dotProduct]
    simp only [pow_two]
    ring
  simp only [h1]
  rw [integral_fintype_prod_volume_eq_prod (fun (_ : Fin d) (t : ℝ) => Real.exp (-(1/2) * t ^ 2))]
  simp only [integral_gaussian, Finset.prod_const, Finset.card_univ, Fintype.card_fin, Dist.norm]
  rw [Real.sqrt_eq_rpow, ← Real.rpow_natCast, ← Real.rpow_mul (by positivity)]
  congr 1
  · ring
  · ring

/-- The `norm` of each kernel is its integral. -/
theorem integral_shape (hd : 0 < d) (D : Dist) : ∫ x : Fin d → ℝ, Spec.shape D (x ⬝ᵥ x) = D.norm d := by
  cases D
  · exact norm_gaussian
  · exact norm_box hd
  · exact norm_parabola hd
  · exact norm_triweight hd

/-! ### Change of variables -/

lemma integral_comp_mulVec {A : Matrix (Fin d) (Fin d) ℝ} (hA : A.det ≠ 0) (f : (Fin d → ℝ) → ℝ) :
    ∫ x, f (A *ᵥ x) = |A.det|⁻¹ * ∫ x, f x := by
  have hm := Real.map_matrix_volume_pi_eq_smul_volume_pi hA
  have hemb : MeasurableEmbedding (toLin' A) := by
    have hinj : Function.Injective (toLin' A) := by
      have := Matrix.mulVec_injective_iff_isUnit.mpr ((Matrix.isUnit_iff_isUnit_det A).mpr (isUnit_iff_ne_zero.mpr hA))
      intro x y h
      exact this (by simpa using h)
    exact (LinearMap.continuous_of_finiteDimensional (toLin' A)).measurableEmbedding hinj
  have : ∫ x, f (toLin' A x) = ∫ y, f y ∂(Measure.map (toLin' A) volume) := (hemb.integral_map f).symm
  simp only [toLin'_apply] at this
  rw [this, hm, integral_smul_measure, abs_inv, ENNReal.toReal_ofReal (by positivity)]
  rfl

/-- Integral of a kernel with matrix `M` around `a`. -/
theorem integral_shape_dist2 (hd : 0 < d) (D : Dist) {M : Matrix (Fin d) (Fin d) ℝ} (hM : M.PosDef) (a : Fin d → ℝ) :
    ∫ x, Spec.shape D (Spec.dist2 M (x - a)) = Real.sqrt M.det * D.norm d := by
  rw [integral_sub_right_eq_self (fun x => Spec.shape D (Spec.dist2 M x)) a]
  obtain ⟨U, hU⟩ := cholesky_of_posDef hM.inv
  have hsym : (M⁻¹).IsSymm := by
    have := hM.inv.isHermitian
    rwa [Matrix.IsHermitian, Matrix.conjTranspose_eq_transpose_of_trivial] at this
  have hdet := cholesky_det_pos hU
  have hq : ∀ v, Spec.dist2 M v = (U *ᵥ v) ⬝ᵥ (U *ᵥ v) := by
    intro v
    rw [Spec.dist2, ← cholesky_quadForm hsym hU v]
    simp [dotProduct, mulVec, pow_two]
  simp only [hq]
  rw [integral_comp_mulVec hdet.ne' fun y => Spec.shape D (y ⬝ᵥ y), integral_shape hd, abs_of_pos hdet]
  have hdd : U.det * U.det = M.det⁻¹ := by
    have := congrArg det (cholesky_mul hsym hU)
    rw [det_mul, det_transpose, det_nonsing_inv, Ring.inverse_eq_inv'] at this
    exact this
  congr 1
  symm
  rw [Real.sqrt_eq_iff_mul_self_eq hM.det_pos.le (by positivity), ← mul_inv, hdd, inv_inv]

lemma integrable_shape_dist2 (hd : 0 < d) (D : Dist) {M : Matrix (Fin d) (Fin d) ℝ} (hM : M.PosDef) (a : Fin d → ℝ) :
    Integrable fun x => Spec.shape D (Spec.dist2 M (x - a)) := by
  by_contra h
  have h1 := integral_shape_dist2 hd D hM a
  rw [integral_undef h] at h1
  have := mul_pos (Real.sqrt_pos.mpr hM.det_pos) (D.norm_pos d hd)
  linarith

end Kalepy
