import Verif.Model.KDE

/-!
# Model of `rem_cov` without a covariance
-/

namespace Kalepy

/-- `utils.py:643-649` `rem_cov(data)` with `cov=None`: the covariance is `np.cov(*data)`, one row of the data for each
argument of `np.cov(m, y, rowvar, bias, ddof, fweights, aweights)`.  One or two rows are data.  The third one is used as
`rowvar`, whose truth value is ambiguous if it has several values (`ValueError`); the fifth one as `ddof`, which is converted
to a number before (`TypeError`, as for more than seven rows).  Without rows the argument `m` is missing (`TypeError`).  Less
than two points give a covariance with NaN, which `scipy.linalg.cholesky` refuses (`ValueError`); for three and more rows this
is not modelled. -/
noncomputable def remCovAuto {d : ℕ} (data : List (Fin d → ℝ)) : Res (List (Fin d → ℝ)) :=
  if d = 0 then .error .typeError
  else if d ≤ 2 then
    if data.length < 2 then .error .valueError
    else
      match npCov data none with
      | .error e => .error e
      | .ok cov => remCov data cov
  else if data.length < 2 then .error .unmodelled
  else if d ≤ 4 then .error .valueError
  else .error .typeError

end Kalepy
