import Mathlib.LinearAlgebra.Matrix.SchurComplement
import Verif.Proofs.Integrals

/-!
# Marginals of Gaussians (helper lemmas)
-/

namespace Kalepy

open MeasureTheory Matrix

/-- Gaussian integral with precision matrix `P`. -/
lemma integral_gauss_fin {n : ℕ} {P : Matrix (Fin n) (Fin n) ℝ} (hP : P.PosDef) (c : Fin n → ℝ) :
    ∫ z : Fin n → ℝ, Real.exp (-((z + c) ⬝ᵥ P *ᵥ (z + c)) / 2)
      = (Real.sqrt P.det)⁻¹ * (2 * Real.pi) ^ ((n : ℝ) / 2) := by
  rcases Nat.eq_zero_or_pos n with rfl | hn
  · have hv : (volume : Measure (Fin 0 → ℝ)).real Set.univ = 1 := by
      rw [Measure.real, volume_pi, Measure.pi_of_empty]
      simp
    rw [integral_unique, hv]
    simp
  · have h := integral_shape_dist2 hn .gaussian hP.inv (-c)
    simp only [Spec.shape, Spec.dist2, sub_neg_eq_add, Dist.norm, det_nonsing_inv,
      Ring.inverse_eq_inv', Real.sqrt_inv] at h
    rw [nonsing_inv_nonsing_inv _ hP.det_pos.ne'.isUnit] at h
    exact h

lemma integral_gauss {ι : Type*} [Fintype ι] [DecidableEq ι] {P : Matrix ι ι ℝ} (hP : P.PosDef) (c : ι → ℝ) :
    ∫ z : ι → ℝ, Real.exp (-((z + c) ⬝ᵥ P *ᵥ (z + c)) / 2)
      = (Real.sqrt P.det)⁻¹ * (2 * Real.pi) ^ ((Fintype.card ι : ℝ) / 2) := by
  let e := Fintype.equivFin ι
  have h := integral_gauss_fin (hP.submatrix e.symm.injective) (c ∘ e.symm)
  rw [det_submatrix_equiv_self] at h
  rw [← h, ← (volume_measurePreserving_piCongrLeft (fun _ : Fin (Fintype.card ι) => ℝ) e).integral_comp']
  refine integral_congr_ae (Filter.Eventually.of_forall fun z => ?_)
  have hz : (MeasurableEquiv.piCongrLeft (fun _ : Fin (Fintype.card ι) => ℝ) e) z + c ∘ e.symm = (z + c) ∘ e.symm := by
    funext j
    simp only [Pi.add_apply, Function.comp_apply]
    congr 1
    have := MeasurableEquiv.piCongrLeft_apply_apply (β := fun _ : Fin (Fintype.card ι) => ℝ) e z (e.symm j)
    rw [Equiv.apply_symm_apply] at this
    exact this
  simp only
  rw [hz, submatrix_mulVec_equiv, dotProduct_comp_equiv_symm]
  simp only [Function.comp_assoc, Equiv.symm_symm, Equiv.symm_comp_self, Function.comp_id]

/-- Integrating a joint Gaussian over the second group of variables gives the Gaussian with the first diagonal block of
the covariance matrix. -/
lemma gauss_marginal {m n : Type*} [Fintype m] [Fintype n] [DecidableEq m] [DecidableEq n]
    {M : Matrix (m ⊕ n) (m ⊕ n) ℝ} (hM : M.PosDef) (y : m → ℝ) (c : n → ℝ) :
    ∫ z : n → ℝ, Real.exp (-((Sum.elim y (z - c)) ⬝ᵥ M⁻¹ *ᵥ (Sum.elim y (z - c))) / 2)
      = Real.exp (-(y ⬝ᵥ (M.toBlocks₁₁)⁻¹ *ᵥ y) / 2) * (Real.sqrt M.det / Real.sqrt M.toBlocks₁₁.det) *
        (2 * Real.pi) ^ ((Fintype.card n : ℝ) / 2) := by
  set P := M⁻¹ with hPdef
  have hP : P.PosDef := hM.inv
  have hD : P.toBlocks₂₂.PosDef := hP.submatrix Sum.inr_injective
  have hA : M.toBlocks₁₁.PosDef := hM.submatrix Sum.inl_injective
  have hPsym : P.IsHermitian := hP.isHermitian
  have hC : P.toBlocks₂₁ = P.toBlocks₁₂ᴴ := by
    ext i j
    have := congrFun (congrFun hPsym (Sum.inr i)) (Sum.inl j)
    simpa [toBlocks₂₁, toBlocks₁₂, conjTranspose] using this.symm
  have hPb : P = fromBlocks P.toBlocks₁₁ P.toBlocks₁₂ P.toBlocks₁₂ᴴ P.toBlocks₂₂ := by
    rw [← hC]; exact (fromBlocks_toBlocks P).symm
  have iD : Invertible P.toBlocks₂₂ := P.toBlocks₂₂.invertibleOfIsUnitDet hD.det_pos.ne'.isUnit
  have iP : Invertible P := P.invertibleOfIsUnitDet hP.det_pos.ne'.isUnit
  have hMP : M = P⁻¹ := by rw [hPdef, nonsing_inv_nonsing_inv _ hM.det_pos.ne'.isUnit]
  generalize hBe : P.toBlocks₁₂ = B at *
  generalize hDe : P.toBlocks₂₂ = D at *
  generalize hAe : P.toBlocks₁₁ = A at *
  have iF : Invertible (fromBlocks A B Bᴴ D) := by rw [← hPb]; exact iP
  have iS : Invertible (A - B * ⅟D * Bᴴ) := invertibleOfFromBlocks₂₂Invertible A B Bᴴ D
  have hS : M.toBlocks₁₁ = (A - B * D⁻¹ * Bᴴ)⁻¹ := by
    have h1 : P⁻¹ = ⅟(fromBlocks A B Bᴴ D) := by rw [hPb, invOf_eq_nonsing_inv]
    rw [hMP, h1, invOf_fromBlocks₂₂_eq, toBlocks_fromBlocks₁₁]
    simp only [invOf_eq_nonsing_inv]
  have hSi : (M.toBlocks₁₁)⁻¹ = A - B * D⁻¹ * Bᴴ := by
    rw [hS, nonsing_inv_nonsing_inv]
    have := isUnit_of_invertible (A - B * ⅟D * Bᴴ)
    rw [invOf_eq_nonsing_inv] at this
    exact (Matrix.isUnit_iff_isUnit_det _).mp this
  have hdet : M.det⁻¹ = D.det * (M.toBlocks₁₁.det)⁻¹ := by
    have h1 : P.det = M.det⁻¹ := by rw [hPdef, det_nonsing_inv, Ring.inverse_eq_inv']
    rw [← h1, hPb, det_fromBlocks₂₂, invOf_eq_nonsing_inv, ← hSi, det_nonsing_inv, Ring.inverse_eq_inv']
  have hq : ∀ z : n → ℝ, (Sum.elim y z) ⬝ᵥ P *ᵥ (Sum.elim y z)
      = (z + (D⁻¹ * Bᴴ) *ᵥ y) ⬝ᵥ D *ᵥ (z + (D⁻¹ * Bᴴ) *ᵥ y) + y ⬝ᵥ (M.toBlocks₁₁)⁻¹ *ᵥ y := by
    intro z
    have := schur_complement_eq₂₂ A B y z hD.isHermitian
    rw [hSi, hPb, dotProduct_mulVec, dotProduct_mulVec, dotProduct_mulVec]
    simpa [add_comm] using this
  rw [integral_sub_right_eq_self (fun z => Real.exp (-((Sum.elim y z) ⬝ᵥ P *ᵥ (Sum.elim y z)) / 2)) c]
  simp only [hq, neg_add, add_div, Real.exp_add]
  rw [integral_mul_const, integral_gauss hD]
  have hs : (Real.sqrt D.det)⁻¹ = Real.sqrt M.det / Real.sqrt M.toBlocks₁₁.det := by
    have hD0 := hD.det_pos
    have hA0 := hA.det_pos
    have hM0 := hM.det_pos
    rw [← Real.sqrt_div hM0.le, ← Real.sqrt_inv]
    congr 1
    field_simp at hdet ⊢
    linarith
  rw [hs]
  ring

end Kalepy
