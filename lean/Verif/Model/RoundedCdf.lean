import Verif.Model.KDE
import Verif.Model.Rounded

/-!
# The cumulative distribution on the grid, in rounded arithmetic

As in `Model/Rounded.lean`, every single operation is followed by a rounding `fl : ℝ → ℝ`, in the order of the code.
The values of the density on the grid are given; the interpolation between the points of the grid (scipy) is not part
of this model.
-/

namespace Kalepy

variable {d : ℕ}

/-- `utils.py:911-929`: `np.diff` of the edges of each axis, multiplied from the first axis to the last.  The value 1
without axes is never used (`functools.reduce` raises). -/
noncomputable def volumeFl (fl : ℝ → ℝ) (edges : List (List ℝ)) (idx : Fin d → ℕ) : ℝ :=
  match (List.finRange d).map fun i : Fin d => fl (edgeAt edges i (idx i + 1) - edgeAt edges i (idx i)) with
  | [] => 1
  | w :: ws => ws.foldl (fun a b => fl (a * b)) w

/-- `np.ndindex(*([2]*ndim))` in its order (`utils.py:958`). -/
def cornerList (d : ℕ) : List (Fin d → ℕ) := (List.range (2 ^ d)).map fun k => unravelIdx (fun _ => 2) k

/-- `utils.py:955-977` `trapz_dens_to_mass` over all axes, one cell: `mass += (temp * volumes)` for each corner, then
`mass /= (2**axis_ndim)`. -/
noncomputable def massFl (fl : ℝ → ℝ) (pdf : NDArr d ℝ) (edges : List (List ℝ)) : NDArr d ℝ where
  shape := fun i => pdf.shape i - 1
  get := fun idx =>
    fl ((cornerList d).foldl (fun acc c => fl (acc + fl (pdf.get (fun i => idx i + c i) * volumeFl fl edges idx))) 0
      / 2 ^ d)

/-- Element `k` of `np.cumsum` of the sequence `f`: the first element is copied, each further one is added. -/
def runSumFl (fl : ℝ → ℝ) (f : ℕ → ℝ) : ℕ → ℝ
  | 0 => f 0
  | k + 1 => fl (runSumFl fl f k + f (k + 1))

/-- `np.cumsum(arr, axis=i)`. -/
def cumsumAxisFl (fl : ℝ → ℝ) (i : Fin d) (a : NDArr d ℝ) : NDArr d ℝ where
  shape := a.shape
  get := fun idx => runSumFl fl (fun k => a.get (Function.update idx i k)) (idx i)

/-- `utils.py:245-254` `cumsum(vals)`: along the axes -1, -2, ..., -ndim. -/
def cumsumNdFl (fl : ℝ → ℝ) (a : NDArr d ℝ) : NDArr d ℝ :=
  (List.finRange d).reverse.foldl (fun r i => cumsumAxisFl fl i r) a

open Classical in
/-- `kde.py:508-514` with `utils.py:257-297` `cumtrapz(pdf, points)`: the cumulative sums of the masses, zeros in front,
divided by the largest value.  As in `cdfOf`, a vanishing maximum (NaN) and grids that are not strictly increasing are
not modelled. -/
noncomputable def cdfFl (fl : ℝ → ℝ) (rows : List (List ℝ)) (pdf : Arr) : Res (CdfGrid d) :=
  let f : NDArr d ℝ := pdf.toND rows
  if EdgesMatch f.shape rows then
    if ∃ i, f.shape i = 0 then .error .assertionError
    else
      let c := padFront (fun _ => 1) (cumsumNdFl fl (massFl fl f rows))
      if c.max = 0 then .error .unmodelled
      else if Ascending rows then .ok ⟨rows, c.map fun x => fl (x / c.max)⟩
      else .error .unmodelled
  else .error .valueError

end Kalepy
