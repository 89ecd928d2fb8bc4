import Mathlib.Analysis.SpecialFunctions.Log.Base
import Verif.Model.Grid

/-!
# Model of `midpoints` for arrays of any dimension
-/

namespace Kalepy

/-- `utils.py:327-371` `midpoints(arr, log, axis)` of an array of any dimension; `axis=None` means all axes, and every axis is
given by its non-negative number (`numpy` counts negative ones from the end).  `squeeze=True` is in
`Verif.Model.Squeeze`.  Logarithms of values which are not positive are NaN or infinite: not modelled. -/
noncomputable def midpointsNd {d : ℕ} (a : NDArr d ℝ) (log : Bool := false) (axis : Option (List (Fin d)) := none) :
    Res (NDArr d ℝ) :=
  let axes := axis.getD (List.finRange d)
  if log then
    open Classical in
    if ∀ idx, ValidIdx a.shape idx → 0 < a.get idx then
      (midAxes axes (a.map (Real.logb 10))).map fun m => m.map ((10 : ℝ) ^ ·)
    else .error .unmodelled
  else midAxes axes a

end Kalepy
