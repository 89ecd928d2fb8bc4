import Verif.Proofs.Chol
import Verif.Props.Examples

/-!
# C62: `add_cov` and `rem_cov`
-/

namespace Kalepy

open Matrix

variable {n : ℕ}

lemma cholesky_det_ne_zero {A U : Matrix (Fin n) (Fin n) ℝ} (h : cholesky A = some U) :
    IsUnit U.det := (cholesky_det_pos h).ne'.isUnit

/-- **C62.** For every positive definite covariance both functions succeed, and removing the
covariance that was added gives the data back. -/
theorem C62_rem_add_cov (C : Matrix (Fin n) (Fin n) ℝ) (hC : C.PosDef) (data : List (Fin n → ℝ)) :
    ∃ coloured, addCov data C = .ok coloured ∧ remCov coloured C = .ok data := by
  obtain ⟨U, hU⟩ := cholesky_of_posDef hC
  refine ⟨data.map fun x => Uᵀ *ᵥ x, by simp [addCov, hU], ?_⟩
  have hu := cholesky_det_ne_zero hU
  have : ∀ x : Fin n → ℝ, (U⁻¹)ᵀ *ᵥ Uᵀ *ᵥ x = x := by
    intro x
    rw [mulVec_mulVec, ← transpose_mul, mul_nonsing_inv _ hu, transpose_one, one_mulVec]
  simp [remCov, hU, Function.comp_def, this]

/-- **C62.** Adding the covariance that was removed gives the data back. -/
theorem C62_add_rem_cov (C : Matrix (Fin n) (Fin n) ℝ) (hC : C.PosDef) (data : List (Fin n → ℝ)) :
    ∃ whitened, remCov data C = .ok whitened ∧ addCov whitened C = .ok data := by
  obtain ⟨U, hU⟩ := cholesky_of_posDef hC
  refine ⟨data.map fun x => (U⁻¹)ᵀ *ᵥ x, by simp [remCov, hU], ?_⟩
  have hu := cholesky_det_ne_zero hU
  have : ∀ x : Fin n → ℝ, Uᵀ *ᵥ (U⁻¹)ᵀ *ᵥ x = x := by
    intro x
    rw [mulVec_mulVec, ← transpose_mul, nonsing_inv_mul _ hu, transpose_one, one_mulVec]
  simp [addCov, hU, Function.comp_def, this]

/-- **C62.** What `add_cov` adds is the covariance `C`: it applies one linear map `L` with
`L Lᵀ = C` to every column. -/
theorem C62_add_cov_is_root (C : Matrix (Fin n) (Fin n) ℝ) (hC : C.PosDef) :
    ∃ L : Matrix (Fin n) (Fin n) ℝ, L * Lᵀ = C ∧
      ∀ data, addCov data C = .ok (data.map fun x => L *ᵥ x) := by
  obtain ⟨U, hU⟩ := cholesky_of_posDef hC
  have hs : C.IsSymm := by
    have := hC.isHermitian
    rwa [Matrix.IsHermitian, Matrix.conjTranspose_eq_transpose_of_trivial] at this
  exact ⟨Uᵀ, by rw [transpose_transpose]; exact cholesky_mul hs hU, fun data => by simp [addCov, hU]⟩

/-- A covariance that is not positive definite (here: singular) is refused with `LinAlgError`. -/
theorem C62_add_cov_not_posDef (C : Matrix (Fin n) (Fin n) ℝ) (hs : C.IsSymm) (hC : ¬ C.PosDef)
    (data : List (Fin n → ℝ)) : addCov data C = .error .linAlgError ∧
      remCov data C = .error .linAlgError := by
  have : cholesky C = none := by
    cases h : cholesky C with
    | none => rfl
    | some U => exact absurd ((cholesky_isSome_iff hs).mp (by simp [h])) hC
  simp [addCov, remCov, this]

/-- The hypotheses are met by a correlated covariance, and by a singular one. -/
example : exCov.PosDef := exCov_posDef

example : (0 : Matrix (Fin 1) (Fin 1) ℝ).IsSymm ∧ ¬ (0 : Matrix (Fin 1) (Fin 1) ℝ).PosDef :=
  ⟨by simp, fun h => by simpa using h.det_pos⟩

end Kalepy
