import Verif.Proofs.DensitySpec

/-!
# Shared concrete instances used to show that hypotheses are satisfiable
-/

namespace Kalepy

open Matrix

/-- A correlated 2-dimensional covariance. -/
def exCov : Matrix (Fin 2) (Fin 2) ℝ := !![2, 1; 1, 2]

/-- Full bandwidth matrix with all entries 1/2. -/
noncomputable def exBw : Matrix (Fin 2) (Fin 2) ℝ := Matrix.of fun _ _ => 1 / 2

lemma exCov_posDef : exCov.PosDef := by
  apply PosDef.of_dotProduct_mulVec_pos
  · ext i j; fin_cases i <;> fin_cases j <;> simp [exCov]
  · intro x hx
    have : x 0 ≠ 0 ∨ x 1 ≠ 0 := by
      by_contra h
      push Not at h
      apply hx; ext i; fin_cases i
      · exact h.1
      · exact h.2
    simp [exCov, dotProduct, mulVec, Fin.sum_univ_two]
    rcases this with h | h
    · nlinarith [sq_nonneg (x 0 + 2 * x 1), sq_pos_of_ne_zero h, sq_nonneg (x 1), sq_nonneg (x 0 + x 1)]
    · nlinarith [sq_nonneg (2 * x 0 + x 1), sq_pos_of_ne_zero h, sq_nonneg (x 0), sq_nonneg (x 0 + x 1)]

lemma exKernelMatrix_posDef : (Spec.kernelMatrix exCov exBw).PosDef := by
  have : Spec.kernelMatrix exCov exBw = (1 / 4 : ℝ) • exCov := by
    ext i j; simp [Spec.kernelMatrix, exBw]; ring
  rw [this]
  exact exCov_posDef.smul (by norm_num)

end Kalepy
