import Mathlib.Data.Finset.Sort
import Verif.Model.MidpointsNd

/-!
# Model of `midpoints` with `squeeze`
-/

namespace Kalepy

/-- The axes that `ndarray.squeeze` (`utils.py:369`) keeps: those whose length is not one. -/
def NDArr.keptAxes {d : ℕ} {K : Type*} (a : NDArr d K) : Finset (Fin d) := Finset.univ.filter fun i => a.shape i ≠ 1

/-- `utils.py:369` `mids.squeeze()`: the axes of length one are dropped, the others keep their order. -/
def NDArr.squeeze {d : ℕ} {K : Type*} (a : NDArr d K) : Σ n, NDArr n K :=
  ⟨a.keptAxes.card,
    { shape := fun k => a.shape (a.keptAxes.orderEmbOfFin rfl k)
      get := fun idx => a.get fun i => if h : i ∈ a.keptAxes then idx ((a.keptAxes.orderIsoOfFin rfl).symm ⟨i, h⟩) else 0 }⟩

/-- `utils.py:327-371` `midpoints(arr, log, axis, squeeze)`: the number of axes of the result and the result (for `log` and `axis` see
`midpointsNd`). -/
noncomputable def midpointsSq {d : ℕ} (a : NDArr d ℝ) (log : Bool) (axis : Option (List (Fin d))) (squeeze : Bool) : Res (Σ n, NDArr n ℝ) :=
  match midpointsNd a log axis with
  | .error e => .error e
  | .ok m => .ok (if squeeze then m.squeeze else ⟨d, m⟩)

end Kalepy
