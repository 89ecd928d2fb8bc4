import Verif.Model.KDE
import Verif.Model.Utils

/-!
# The warnings at the end of the construction of a KDE
-/

namespace Kalepy

/-- The messages of `KDE._finalize` (`kde.py:604,605,615,618,622`). -/
inductive KDEWarning where
  /-- `"Covariance matrix:\n" + str(mat)` -/
  | matrix
  /-- `"All matrix elements are less than 1e-10!"` -/
  | allTiny
  /-- `"(log) Ratio of covariance elements (...) exceeds tolerance (...)!"` -/
  | ratio
  /-- `"Recommend rescaling input data, or using a diagonal covariance matrix"` -/
  | rescale
  deriving DecidableEq

/-- `mat[np.triu_indices(ndim, 1)]` followed by `mat[np.tril_indices(ndim, -1)]` (`kde.py:587-589`). -/
def offDiagonal {d : ℕ} (M : Matrix (Fin d) (Fin d) ℝ) : List ℝ :=
  ((List.finRange d).flatMap fun i => ((List.finRange d).filter fun j => i < j).map fun j => M i j) ++
    ((List.finRange d).flatMap fun i => ((List.finRange d).filter fun j => j < i).map fun j => M i j)

/-- `np.log10(np.fabs(vals[vals != 0.0]))` (`kde.py:601-602`). -/
noncomputable def logAbs (vals : List ℝ) : List ℝ := (vals.filter (· ≠ 0)).map fun x => Real.logb 10 |x|

open Classical in
/-- `kde.py:577-624` `KDE._finalize(log_ratio_tol)`: the messages it logs, in order.  `np.isclose(x, 0.0)` is
`|x| <= 1e-8`. -/
noncomputable def finalizeLog {d : ℕ} (mat : Matrix (Fin d) (Fin d) ℝ) (tol : ℝ := 5) : Res (List KDEWarning) :=
  let diag := List.ofFn fun i => mat i i
  let offd := offDiagonal mat
  if ∀ x ∈ offd, |x| ≤ 1 / 10 ^ 8 then .ok []
  else
    let dVals := logAbs diag
    let oVals := logAbs offd
    let first : List KDEWarning :=
      if (∀ x ∈ dVals, x ≤ -10) ∧ ∀ x ∈ oVals, x ≤ -10 then [.matrix, .allTiny] else []
    let dVals := dVals.filter (-20 < ·)
    let oVals := oVals.filter (-20 < ·)
    let second : Res (List KDEWarning) :=
      if 0 < dVals.length ∧ 0 < oVals.length then
        match minmax .float dVals, minmax .float oVals with
        | .ok (some (some d0, some d1)), .ok (some (some o0, some o1)) =>
          if tol ≤ |d0 - o0| ∨ tol ≤ |d0 - o1| ∨ tol ≤ |d1 - o0| ∨ tol ≤ |d1 - o1| then .ok [.matrix, .ratio]
          else .ok []
        | .error e, _ => .error e
        | _, .error e => .error e
        | _, _ => .error .typeError
      else .ok []
    match second with
    | .error e => .error e
    | .ok s => .ok (if first ++ s = [] then [] else first ++ s ++ [.rescale])

/-- `kde.py:134-273` `KDE.__init__` together with what its last call, `_finalize()` (line 270), logs. -/
noncomputable def KDE.initLog {d : ℕ} (E : Ext) (a : KDEArgs d) : Res (KDE d × List KDEWarning) :=
  match KDE.init E a with
  | .error e => .error e
  | .ok k =>
    match finalizeLog k.kernel.matrix with
    | .error e => .error e
    | .ok w => .ok (k, w)

end Kalepy
