import Mathlib.LinearAlgebra.Matrix.Permutation
import Verif.Proofs.Law

/-!
# First and second moments of the kernels
-/

namespace Kalepy

open MeasureTheory Matrix

variable {d : ℕ}

/-- Specification: variance of the kernel of unit matrix along each axis. -/
noncomputable def Spec.kernelVar : Dist → ℕ → ℝ
  | .gaussian, _ => 1
  | .box, d => 1 / (d + 2)
  | .parabola, d => 1 / (d + 4)
  | .triweight, d => 1 / (d + 8)

lemma kernelVar_pos (D : Dist) (d : ℕ) : 0 < Spec.kernelVar D d := by
  cases D <;> simp only [Spec.kernelVar] <;> positivity

lemma nballVol_add_two (d : ℕ) : Dist.nballVol (d + 2) = Dist.nballVol d * (2 * Real.pi / (d + 2)) := by
  have hg := (Real.Gamma_pos_of_pos (show (0:ℝ) < (d:ℝ) / 2 + 1 by positivity)).ne'
  have e1 : ((d + 2 : ℕ) : ℝ) / 2 = (d : ℝ) / 2 + 1 := by push_cast; ring
  rw [Dist.nballVol, Dist.nballVol, e1, Real.Gamma_add_one (by positivity), Real.rpow_add_one Real.pi_pos.ne']
  field_simp

lemma nballVol_pos (d : ℕ) : 0 < Dist.nballVol d := by
  unfold Dist.nballVol
  have := Real.Gamma_pos_of_pos (show (0:ℝ) < (d:ℝ) / 2 + 1 by positivity)
  have := Real.pi_pos
  positivity

/-- The norms in two more dimensions give the variance. -/
lemma norm_add_two (hd : 0 < d) (D : Dist) : D.norm (d + 2) = 2 * Real.pi * Spec.kernelVar D d * D.norm d := by
  have hd' : (0:ℝ) < d := by exact_mod_cast hd
  cases D
  · simp only [Dist.norm, Spec.kernelVar]
    rw [show ((d + 2 : ℕ) : ℝ) / 2 = (d : ℝ) / 2 + 1 by push_cast; ring, Real.rpow_add_one (by positivity)]
    ring
  · simp only [Dist.norm, Spec.kernelVar, nballVol_add_two]
    ring
  · simp only [Dist.norm, Spec.kernelVar, nballVol_add_two]
    push_cast
    field_simp
    ring
  · simp only [Dist.norm, Dist.betaKernelNorm, Spec.kernelVar, nballVol_add_two]
    rw [spBeta_four (by positivity), spBeta_four (by positivity)]
    push_cast
    field_simp
    ring

lemma integral_sq_shape (hd : 0 < d) (D : Dist) :
    ∫ x : Fin d → ℝ, (x ⬝ᵥ x) * Spec.shape D (x ⬝ᵥ x) = d * (Spec.kernelVar D d * D.norm d) := by
  have h1 := integral_radial hd fun s => s * Spec.shape D s
  have h2 := integral_radial (d := d + 2) (by omega) fun s => Spec.shape D s
  rw [integral_shape (by omega)] at h2
  have hI : ∀ r : ℝ, r ^ (d - 1) * (r ^ 2 * Spec.shape D (r ^ 2)) = r ^ (d + 2 - 1) * Spec.shape D (r ^ 2) := by
    intro r
    rw [← mul_assoc, ← pow_add]
    congr 2
    omega
  simp only [hI] at h1
  have hv := nballVol_pos d
  have hv2 := nballVol_pos (d + 2)
  have hp := Real.pi_pos
  set I := ∫ r in Set.Ioi (0 : ℝ), r ^ (d + 2 - 1) * Spec.shape D (r ^ 2) with hIdef
  rw [h1]
  rw [norm_add_two hd, nballVol_add_two] at h2
  push_cast at h2
  field_simp at h2
  linear_combination (-(d:ℝ)) * h2

lemma integrable_sq_shape (hd : 0 < d) (D : Dist) :
    Integrable fun x : Fin d → ℝ => (x ⬝ᵥ x) * Spec.shape D (x ⬝ᵥ x) := by
  by_contra h
  have h1 := integral_sq_shape hd D
  rw [integral_undef h] at h1
  have hd' : (0:ℝ) < d := by exact_mod_cast hd
  have := mul_pos hd' (mul_pos (kernelVar_pos D d) (D.norm_pos d hd))
  linarith

lemma integrable_shape (hd : 0 < d) (D : Dist) : Integrable fun x : Fin d → ℝ => Spec.shape D (x ⬝ᵥ x) := by
  have := integrable_shape_dist2 hd D PosDef.one (0 : Fin d → ℝ)
  simpa [Spec.dist2] using this

lemma measurable_dot {φ : ℝ → ℝ} (hφ : Measurable φ) : Measurable fun x : Fin d → ℝ => φ (x ⬝ᵥ x) := by
  refine hφ.comp ?_
  unfold dotProduct
  fun_prop

lemma sq_le_dot (x : Fin d → ℝ) (i : Fin d) : x i ^ 2 ≤ x ⬝ᵥ x := by
  have : x ⬝ᵥ x = ∑ i, x i ^ 2 := by simp [dotProduct, sq]
  rw [this]
  exact Finset.single_le_sum (f := fun i => x i ^ 2) (fun j _ => sq_nonneg _) (Finset.mem_univ i)

lemma abs_mul_le_dot (x : Fin d → ℝ) (i j : Fin d) : |x i * x j| ≤ x ⬝ᵥ x := by
  have h1 := sq_le_dot x i
  have h2 := sq_le_dot x j
  rw [abs_mul]
  nlinarith [sq_nonneg (|x i| - |x j|), sq_abs (x i), sq_abs (x j)]

lemma integrable_radial2 {φ : ℝ → ℝ} (hφ : Measurable φ) (h0 : ∀ s, 0 ≤ φ s)
    (hi : Integrable fun x : Fin d → ℝ => (x ⬝ᵥ x) * φ (x ⬝ᵥ x)) (i j : Fin d) :
    Integrable fun x : Fin d → ℝ => x i * x j * φ (x ⬝ᵥ x) := by
  refine hi.mono' ?_ (ae_of_all _ fun x => ?_)
  · exact (((measurable_pi_apply i).mul (measurable_pi_apply j)).mul (measurable_dot hφ)).aestronglyMeasurable
  · rw [Real.norm_eq_abs, abs_mul, abs_of_nonneg (h0 (x ⬝ᵥ x))]
    exact mul_le_mul_of_nonneg_right (abs_mul_le_dot x i j) (h0 _)

lemma integral_radial1 (φ : ℝ → ℝ) (i : Fin d) : ∫ x : Fin d → ℝ, x i * φ (x ⬝ᵥ x) = 0 := by
  have h := integral_neg_eq_self (fun x : Fin d → ℝ => x i * φ (x ⬝ᵥ x)) volume
  simp only [Pi.neg_apply, neg_dotProduct_neg, neg_mul, integral_neg] at h
  linarith

lemma integral_radial2_ne (φ : ℝ → ℝ) {i j : Fin d} (hij : i ≠ j) :
    ∫ x : Fin d → ℝ, x i * x j * φ (x ⬝ᵥ x) = 0 := by
  set A : Matrix (Fin d) (Fin d) ℝ := diagonal fun k => if k = i then -1 else 1 with hA
  have hdet : A.det = -1 := by
    rw [hA, det_diagonal, Finset.prod_ite_eq' Finset.univ i fun _ => (-1 : ℝ)]
    simp
  have h := integral_comp_mulVec (A := A) (by rw [hdet]; norm_num) fun x => x i * x j * φ (x ⬝ᵥ x)
  have hmul : ∀ (x : Fin d → ℝ) k, (A *ᵥ x) k = (if k = i then -1 else 1) * x k := fun x k => mulVec_diagonal _ _ _
  have hdot : ∀ x : Fin d → ℝ, (A *ᵥ x) ⬝ᵥ (A *ᵥ x) = x ⬝ᵥ x := by
    intro x
    simp only [dotProduct, hmul]
    refine Finset.sum_congr rfl fun k _ => ?_
    split_ifs <;> ring
  simp only [hdot, hmul, if_pos, if_neg hij.symm, hdet] at h
  have h' : ∀ x : Fin d → ℝ, -1 * x i * (1 * x j) * φ (x ⬝ᵥ x) = -(x i * x j * φ (x ⬝ᵥ x)) := by
    intro x; ring
  simp only [h', integral_neg] at h
  norm_num at h
  linarith

/-- Exchange of two coordinates. -/
lemma integral_radial_swap (φ : ℝ → ℝ) (g : ℝ → ℝ → ℝ) (i j k l : Fin d) :
    ∫ x : Fin d → ℝ, g (x (Equiv.swap i j k)) (x (Equiv.swap i j l)) * φ (x ⬝ᵥ x)
      = ∫ x : Fin d → ℝ, g (x k) (x l) * φ (x ⬝ᵥ x) := by
  set e := Equiv.swap i j with he
  have h := (volume_measurePreserving_piCongrLeft (fun _ : Fin d => ℝ) e).integral_comp'
    (fun x : Fin d → ℝ => g (x k) (x l) * φ (x ⬝ᵥ x))
  rw [← h]
  refine integral_congr_ae (ae_of_all _ fun x => ?_)
  have hx : ∀ k, (MeasurableEquiv.piCongrLeft (fun _ : Fin d => ℝ) e) x k = x (e k) := by
    intro k
    obtain ⟨a, rfl⟩ := e.surjective k
    have : e (e a) = a := by rw [he]; exact Equiv.swap_apply_self i j a
    rw [this]
    exact Equiv.piCongrLeft_apply_apply (P := fun _ : Fin d => ℝ) (e := e) x a
  have hdot : (MeasurableEquiv.piCongrLeft (fun _ : Fin d => ℝ) e) x ⬝ᵥ (MeasurableEquiv.piCongrLeft (fun _ : Fin d => ℝ) e) x
      = x ⬝ᵥ x := by
    simp only [dotProduct, hx]
    exact Equiv.sum_comp e fun k => x k * x k
  simp only [hdot, hx]

lemma integral_radial2 (hd : 0 < d) {φ : ℝ → ℝ} (hφ : Measurable φ) (h0 : ∀ s, 0 ≤ φ s)
    (hi : Integrable fun x : Fin d → ℝ => (x ⬝ᵥ x) * φ (x ⬝ᵥ x)) (i j : Fin d) :
    ∫ x : Fin d → ℝ, x i * x j * φ (x ⬝ᵥ x) = if i = j then (∫ x : Fin d → ℝ, (x ⬝ᵥ x) * φ (x ⬝ᵥ x)) / d else 0 := by
  split_ifs with h
  · subst h
    have hd' : (d:ℝ) ≠ 0 := by positivity
    have h2 : ∀ x : Fin d → ℝ, (x ⬝ᵥ x) * φ (x ⬝ᵥ x) = ∑ k, x k * x k * φ (x ⬝ᵥ x) := by
      intro x
      rw [← Finset.sum_mul]
      rfl
    have hs : ∀ k, ∫ x : Fin d → ℝ, x k * x k * φ (x ⬝ᵥ x) = ∫ x : Fin d → ℝ, x i * x i * φ (x ⬝ᵥ x) := by
      intro k
      have := integral_radial_swap φ (fun a b => a * b) i k i i
      rwa [Equiv.swap_apply_left] at this
    simp only [h2]
    rw [integral_finsetSum _ fun k _ => integrable_radial2 hφ h0 hi k k, Finset.sum_congr rfl fun k _ => hs k,
      Finset.sum_const, Finset.card_univ, Fintype.card_fin, nsmul_eq_mul]
    field_simp
  · exact integral_radial2_ne φ h

lemma integrable_coord2 (hd : 0 < d) (D : Dist) (i j : Fin d) :
    Integrable fun x : Fin d → ℝ => x i * x j * Spec.shape D (x ⬝ᵥ x) :=
  integrable_radial2 (measurable_shape D) (shape_nonneg' D) (integrable_sq_shape hd D) i j

lemma integrable_coord (hd : 0 < d) (D : Dist) (i : Fin d) :
    Integrable fun x : Fin d → ℝ => x i * Spec.shape D (x ⬝ᵥ x) := by
  refine ((integrable_sq_shape hd D).add (integrable_shape hd D)).mono' ?_ (ae_of_all _ fun x => ?_)
  · exact ((measurable_pi_apply i).mul (measurable_dot (measurable_shape D))).aestronglyMeasurable
  · have h0 := shape_nonneg' D (x ⬝ᵥ x)
    rw [Real.norm_eq_abs, abs_mul, abs_of_nonneg h0, Pi.add_apply, ← add_one_mul]
    refine mul_le_mul_of_nonneg_right ?_ h0
    have h1 := sq_le_dot x i
    nlinarith [sq_nonneg (|x i| - 1), sq_abs (x i)]

lemma integral_coord (D : Dist) (i : Fin d) : ∫ x : Fin d → ℝ, x i * Spec.shape D (x ⬝ᵥ x) = 0 := integral_radial1 _ i

lemma integral_coord2 (hd : 0 < d) (D : Dist) (i j : Fin d) :
    ∫ x : Fin d → ℝ, x i * x j * Spec.shape D (x ⬝ᵥ x) = if i = j then Spec.kernelVar D d * D.norm d else 0 := by
  rw [integral_radial2 hd (measurable_shape D) (shape_nonneg' D) (integrable_sq_shape hd D), integral_sq_shape hd]
  have hd' : (d:ℝ) ≠ 0 := by positivity
  rw [mul_div_cancel_left₀ _ hd']

/-! ### Kernels with a matrix -/

lemma integrable_comp_mulVec {A : Matrix (Fin d) (Fin d) ℝ} (hA : A.det ≠ 0) {f : (Fin d → ℝ) → ℝ}
    (hf : Integrable fun x => f (A *ᵥ x)) : Integrable f := by
  have hm := Real.map_matrix_volume_pi_eq_smul_volume_pi hA
  have hemb : MeasurableEmbedding (toLin' A) := by
    have hinj : Function.Injective (toLin' A) := by
      have := Matrix.mulVec_injective_iff_isUnit.mpr ((Matrix.isUnit_iff_isUnit_det A).mpr (isUnit_iff_ne_zero.mpr hA))
      intro x y h
      exact this (by simpa using h)
    exact (LinearMap.continuous_of_finiteDimensional (toLin' A)).measurableEmbedding hinj
  have h1 : Integrable f (Measure.map (toLin' A) volume) := by
    rw [hemb.integrable_map_iff]
    simpa [Function.comp_def, toLin'_apply] using hf
  rw [hm, integrable_smul_measure (by simpa using hA) (by simp)] at h1
  exact h1

/-- Root of a positive definite matrix, as used by the sampler. -/
lemma exists_root {M : Matrix (Fin d) (Fin d) ℝ} (hM : M.PosDef) :
    ∃ L : Matrix (Fin d) (Fin d) ℝ, L * Lᵀ = M ∧ 0 < L.det ∧ L.det = Real.sqrt M.det := by
  obtain ⟨U, hU⟩ := cholesky_of_posDef hM
  have hsym : M.IsSymm := hM.isHermitian
  have hmul := cholesky_mul hsym hU
  have hpos := cholesky_det_pos hU
  refine ⟨Uᵀ, by rw [transpose_transpose, hmul], by rwa [det_transpose], ?_⟩
  have := congrArg det hmul
  rw [det_mul, det_transpose] at this
  rw [det_transpose, ← this, Real.sqrt_mul_self hpos.le]

/-- First and second moments of the kernel with matrix `M`. -/
theorem kernel_moments (hd : 0 < d) (D : Dist) {M : Matrix (Fin d) (Fin d) ℝ} (hM : M.PosDef) (i j : Fin d) :
    (Integrable fun v : Fin d → ℝ => v i * Spec.shape D (Spec.dist2 M v)) ∧
    ∫ v : Fin d → ℝ, v i * Spec.shape D (Spec.dist2 M v) = 0 ∧
    (Integrable fun v : Fin d → ℝ => v i * v j * Spec.shape D (Spec.dist2 M v)) ∧
    ∫ v : Fin d → ℝ, v i * v j * Spec.shape D (Spec.dist2 M v)
      = Real.sqrt M.det * D.norm d * (Spec.kernelVar D d * M i j) := by
  obtain ⟨L, hL, hdet, hsq⟩ := exists_root hM
  have hq : ∀ z, Spec.dist2 M (L *ᵥ z) = z ⬝ᵥ z := by
    intro z
    rw [dist2_coloured hM.det_pos.ne'.isUnit hL]
    simp [dotProduct, sq]
  have e1 : ∀ z : Fin d → ℝ, (L *ᵥ z) i * Spec.shape D (Spec.dist2 M (L *ᵥ z))
      = ∑ a, L i a * (z a * Spec.shape D (z ⬝ᵥ z)) := by
    intro z
    rw [hq, mulVec, dotProduct, Finset.sum_mul]
    simp only [mul_assoc]
  have e2 : ∀ z : Fin d → ℝ, (L *ᵥ z) i * (L *ᵥ z) j * Spec.shape D (Spec.dist2 M (L *ᵥ z))
      = ∑ a, ∑ b, L i a * L j b * (z a * z b * Spec.shape D (z ⬝ᵥ z)) := by
    intro z
    rw [hq, mulVec, mulVec, dotProduct, dotProduct, Finset.sum_mul_sum, Finset.sum_mul]
    refine Finset.sum_congr rfl fun a _ => ?_
    rw [Finset.sum_mul]
    refine Finset.sum_congr rfl fun b _ => ?_
    ring
  have i1 : ∀ a, Integrable fun z : Fin d → ℝ => L i a * (z a * Spec.shape D (z ⬝ᵥ z)) := fun a =>
    (integrable_coord hd D a).const_mul _
  have i2 : ∀ a b, Integrable fun z : Fin d → ℝ => L i a * L j b * (z a * z b * Spec.shape D (z ⬝ᵥ z)) := fun a b =>
    (integrable_coord2 hd D a b).const_mul _
  have c1 := integral_comp_mulVec hdet.ne' fun v => v i * Spec.shape D (Spec.dist2 M v)
  have c2 := integral_comp_mulVec hdet.ne' fun v => v i * v j * Spec.shape D (Spec.dist2 M v)
  refine ⟨integrable_comp_mulVec hdet.ne' ?_, ?_, integrable_comp_mulVec hdet.ne' ?_, ?_⟩
  · simp only [e1]
    exact integrable_finset_sum _ fun a _ => i1 a
  · simp only [e1] at c1
    rw [integral_finsetSum _ fun a _ => i1 a] at c1
    simp only [integral_const_mul, integral_coord, mul_zero, Finset.sum_const_zero] at c1
    have := inv_ne_zero (abs_pos.mpr hdet.ne').ne'
    rcases mul_eq_zero.mp c1.symm with h | h
    · exact absurd h this
    · exact h
  · simp only [e2]
    exact integrable_finset_sum _ fun a _ => integrable_finset_sum _ fun b _ => i2 a b
  · simp only [e2] at c2
    rw [integral_finsetSum _ fun a _ => integrable_finset_sum _ fun b _ => i2 a b] at c2
    simp only [integral_finsetSum _ fun b _ => i2 _ b, integral_const_mul, integral_coord2 hd, mul_ite, mul_zero,
      Finset.sum_ite_eq, Finset.mem_univ, if_true] at c2
    rw [← Finset.sum_mul] at c2
    have hMij : ∑ a, L i a * L j a = M i j := by
      rw [← hL, mul_apply]
      rfl
    rw [hMij, abs_of_pos hdet, hsq] at c2
    have hne : Real.sqrt M.det ≠ 0 := by rw [← hsq]; exact hdet.ne'
    field_simp at c2
    linear_combination -c2

/-- Moments of the kernel around `c`. -/
theorem kernel_moments_at (hd : 0 < d) (D : Dist) {M : Matrix (Fin d) (Fin d) ℝ} (hM : M.PosDef) (c m : Fin d → ℝ)
    (i j : Fin d) :
    (Integrable fun x : Fin d → ℝ => x i * Spec.shape D (Spec.dist2 M (x - c))) ∧
    ∫ x : Fin d → ℝ, x i * Spec.shape D (Spec.dist2 M (x - c)) = Real.sqrt M.det * D.norm d * c i ∧
    (Integrable fun x : Fin d → ℝ => (x i - m i) * (x j - m j) * Spec.shape D (Spec.dist2 M (x - c))) ∧
    ∫ x : Fin d → ℝ, (x i - m i) * (x j - m j) * Spec.shape D (Spec.dist2 M (x - c))
      = Real.sqrt M.det * D.norm d * ((c i - m i) * (c j - m j) + Spec.kernelVar D d * M i j) := by
  obtain ⟨i1, h1, i2, h2⟩ := kernel_moments hd D hM i j
  obtain ⟨j1, g1, -, -⟩ := kernel_moments hd D hM j j
  have i0 := integrable_shape_dist2 hd D hM 0
  have h0 := integral_shape_dist2 hd D hM 0
  simp only [sub_zero] at i0 h0
  have e1 : (fun v : Fin d → ℝ => v i * Spec.shape D (Spec.dist2 M v) + c i * Spec.shape D (Spec.dist2 M v))
      = fun v => (v + c) i * Spec.shape D (Spec.dist2 M v) := by
    funext v; simp only [Pi.add_apply]; ring
  have e2 : (fun v : Fin d → ℝ => v i * v j * Spec.shape D (Spec.dist2 M v)
        + (c j - m j) * (v i * Spec.shape D (Spec.dist2 M v)) + (c i - m i) * (v j * Spec.shape D (Spec.dist2 M v))
        + (c i - m i) * (c j - m j) * Spec.shape D (Spec.dist2 M v))
      = fun v => ((v + c) i - m i) * ((v + c) j - m j) * Spec.shape D (Spec.dist2 M v) := by
    funext v; simp only [Pi.add_apply]; ring
  have I1 := i1.add (i0.const_mul (c i))
  have I2 := ((i2.add (i1.const_mul (c j - m j))).add (j1.const_mul (c i - m i))).add
    (i0.const_mul ((c i - m i) * (c j - m j)))
  have J1 := integral_add i1 (i0.const_mul (c i))
  have J2 := integral_add ((i2.add (i1.const_mul (c j - m j))).add (j1.const_mul (c i - m i)))
    (i0.const_mul ((c i - m i) * (c j - m j)))
  have J3 := integral_add (i2.add (i1.const_mul (c j - m j))) (j1.const_mul (c i - m i))
  have J4 := integral_add i2 (i1.const_mul (c j - m j))
  simp only [Pi.add_apply] at J1 J2 J3 J4
  rw [J4] at J3
  rw [J3, e2] at J2
  rw [e1] at J1
  simp only [integral_const_mul, h1, h2, g1, h0] at J1 J2
  have I1' : Integrable fun v : Fin d → ℝ => (v + c) i * Spec.shape D (Spec.dist2 M v) := by rw [← e1]; exact I1
  have I2' : Integrable fun v : Fin d → ℝ => ((v + c) i - m i) * ((v + c) j - m j) * Spec.shape D (Spec.dist2 M v) := by
    rw [← e2]; exact I2
  have K1 := I1'.comp_sub_right c
  have K2 := I2'.comp_sub_right c
  have L1 := integral_sub_right_eq_self (μ := volume)
    (fun v : Fin d → ℝ => (v + c) i * Spec.shape D (Spec.dist2 M v)) c
  have L2 := integral_sub_right_eq_self (μ := volume)
    (fun v : Fin d → ℝ => ((v + c) i - m i) * ((v + c) j - m j) * Spec.shape D (Spec.dist2 M v)) c
  simp only [sub_add_cancel] at K1 K2 L1 L2
  refine ⟨K1, ?_, K2, ?_⟩
  · rw [L1, J1]; ring
  · rw [L2, J2]; ring

end Kalepy
