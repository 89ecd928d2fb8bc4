import Mathlib.Analysis.SpecialFunctions.Pow.NNReal
import Mathlib.LinearAlgebra.Matrix.NonsingularInverse
import Mathlib.LinearAlgebra.Matrix.PosDef
import Verif.Model.Basic

/-!
# Exact-arithmetic model of the numpy / scipy linear algebra used by kalepy
-/

namespace Kalepy

open Matrix

/-- `scipy.linalg.cholesky(A)` (default `lower=False`), as called in
`kalepy/utils.py:18`, `kalepy/utils.py:646` and `kalepy/kernels.py:99`.
It returns the upper-triangular factor `U` with `UᵀU = A`, reading only the upper triangle of `A`,
and raises `LinAlgError` (here `none`) when a pivot is not positive.  This is the (unblocked) row
algorithm of LAPACK `potrf` in exact arithmetic. -/
noncomputable def cholesky : {n : ℕ} → Matrix (Fin n) (Fin n) ℝ → Option (Matrix (Fin n) (Fin n) ℝ)
  | 0, _ => some 0
  | n + 1, A =>
    if A 0 0 ≤ 0 then none
    else
      let u : ℝ := Real.sqrt (A 0 0)
      let r : Fin n → ℝ := fun j => A 0 j.succ / u
      let S : Matrix (Fin n) (Fin n) ℝ := Matrix.of fun i j => A i.succ j.succ - r i * r j
      (cholesky S).map fun V =>
        Matrix.of (Fin.cons (Fin.cons u r) (fun i => Fin.cons 0 (V i)))

/-- External functions that are left uninterpreted; every theorem holds for all of them.
* `pinv` is `np.linalg.pinv` (`kalepy/utils.py:318`), only used when the matrix is singular.
* `ppf` is `scipy.stats.norm.ppf` (`kalepy/kde.py:247`), only used for the automatic extrema of the
  Gaussian kernel. -/
structure Ext where
  pinv : {n : ℕ} → Matrix (Fin n) (Fin n) ℝ → Matrix (Fin n) (Fin n) ℝ
  ppf : ℝ → ℝ

/-- `kalepy/utils.py:312-320` `matrix_invert`.  `np.linalg.inv` raises `LinAlgError` exactly for
singular matrices (in exact arithmetic); then the pseudo-inverse is used. -/
noncomputable def matrixInvert (E : Ext) {n : ℕ} (A : Matrix (Fin n) (Fin n) ℝ) :
    Matrix (Fin n) (Fin n) ℝ :=
  if A.det = 0 then E.pinv A else A⁻¹

/-- `kalepy/utils.py:16-25` `add_cov`: colour the data, `Uᵀ · data`, one column at a time.
Raises `LinAlgError` if the Cholesky factorisation fails. -/
noncomputable def addCov {n : ℕ} (data : List (Fin n → ℝ)) (cov : Matrix (Fin n) (Fin n) ℝ) :
    Res (List (Fin n → ℝ)) :=
  match cholesky cov with
  | none => .error .linAlgError
  | some U => .ok (data.map fun x => Uᵀ *ᵥ x)

/-- `kalepy/utils.py:643-649` `rem_cov` with `cov` given: `inv(U)ᵀ · data`.
(`cov=None` is `remCovAuto`, Model/RemCov.)  `np.linalg.inv` of the
triangular factor cannot fail when the factorisation succeeded. -/
noncomputable def remCov {n : ℕ} (data : List (Fin n → ℝ)) (cov : Matrix (Fin n) (Fin n) ℝ) :
    Res (List (Fin n → ℝ)) :=
  match cholesky cov with
  | none => .error .linAlgError
  | some U => .ok (data.map fun x => (U⁻¹)ᵀ *ᵥ x)

end Kalepy
