import Verif.Model.Parse
import Verif.Model.Plot

/-!
# Model of the 2D histograms and contours of `kalepy/plot.py`
-/

namespace Kalepy

/-! ### histogram -/

/-- Total weight of the points in bin `(i, j)`. -/
noncomputable def binWeight (pts : List (Fin 2 → ℝ)) (ws ex ey : List ℝ) (i j : ℕ) : ℝ :=
  (List.zipWith (fun p w => if inHistBin ex i (p 0) && inHistBin ey j (p 1) then w else 0) pts ws).sum

/-- `np.histogram2d(*data, bins=[ex, ey], weights=weights, density=True)` for arrays of edges
(`plot.py:1199, 1513, 1762`): total weight of each bin, divided by its area and by the sum over all bins.
Decreasing edges and weights of another length are refused.  Fewer than two edges, bins of zero width, and
a vanishing sum (NaN) are not modelled. -/
noncomputable def histogram2d (pts : List (Fin 2 → ℝ)) (ex ey : List ℝ) (weights : Option (List ℝ)) :
    Res (NDArr 2 ℝ) :=
  let ws := weights.getD (pts.map fun _ => 1)
  if ws.length ≠ pts.length then .error .valueError
  else if ¬ (ex.Pairwise (· ≤ ·) ∧ ey.Pairwise (· ≤ ·)) then .error .valueError
  else if ex.length < 2 ∨ ey.length < 2 ∨ 0 ∈ npDiff ex ∨ 0 ∈ npDiff ey then .error .unmodelled
  else
    let n : Fin 2 → ℕ := ![ex.length - 1, ey.length - 1]
    let tot := (NDArr.mk n fun idx => binWeight pts ws ex ey (idx 0) (idx 1)).sum
    if tot = 0 then .error .unmodelled
    else .ok ⟨n, fun idx => binWeight pts ws ex ey (idx 0) (idx 1) /
      ((npDiff ex).getD (idx 0) 0 * (npDiff ey).getD (idx 1) 0) / tot⟩

/-! ### coloured cells -/

/-- The call `ax.pcolormesh(x, y, c)`: `c[j, i]` is the value of the cell between `x[i], x[i+1]` and
`y[j], y[j+1]`; `none` is a masked value, whose cell is not drawn. -/
structure Pcolor where
  x : List ℝ
  y : List ℝ
  c : NDArr 2 (Option ℝ)

/-- `plot.py:1820-1830` `draw_hist2d` for a histogram with one cell less than edges; `maskBelow = none`
stands for `None` and `False`.  Zero equals `False`. -/
noncomputable def drawHist2d (ex ey : List ℝ) (hist : NDArr 2 ℝ) (maskBelow : Option ℝ) : Pcolor where
  x := ex
  y := ey
  c :=
    { shape := ![hist.shape 1, hist.shape 0]
      get := fun idx =>
        let h := hist.get ![idx 1, idx 0]
        match maskBelow with
        | none => some h
        | some m => if m ≠ 0 ∧ h ≤ m then none else some h }

/-- The `mask_below` argument. -/
inductive MaskArg where
  | off
  | auto
  | num (x : ℝ)

/-- `plot.py:1714-1765` `hist2d`: the coloured cells.  Data of one or more than two rows make
`np.histogram2d` fail: not represented. -/
noncomputable def hist2d (srt : List ℝ → List ℕ) (data : List (Fin 2 → ℝ)) (edges : EdgeArg)
    (weights : Option (List ℝ)) (maskBelow : MaskArg) : Res Pcolor :=
  match parseEdges srt data edges none none 5 1000 none 1 none with
  | .error e => .error e
  | .ok rows =>
    match histogram2d data (rows.getD 0 []) (rows.getD 1 []) weights with
    | .error e => .error e
    | .ok hist => .ok (drawHist2d (rows.getD 0 []) (rows.getD 1 []) hist (match maskBelow with
        | .off => none
        | .auto => some (9 / 10 / (data.length : ℝ))
        | .num x => some x))

/-! ### contours -/

/-- The call `ax.contour(x, y, z, levels)`: `z[i, j]` belongs to the position `(x[i], y[j])` (the program
passes the mesh of `x` and `y` with `indexing='ij'`). -/
structure ContourCmd where
  x : List ℝ
  y : List ℝ
  z : NDArr 2 ℝ
  levels : List ℝ

/-- `plot.py:1833-1882` `draw_contour2d` without `levels`, smoothing and upsampling. -/
noncomputable def drawContour2d (srt : List ℝ → List ℕ) (edges : List (List ℝ)) (hist : NDArr 2 ℝ)
    (quantiles : Option (List ℝ)) (pad : PadArg) : Res ContourCmd :=
  match prepHist edges hist pad with
  | .error e => .error e
  | .ok (ee, hist) =>
    match dfmLevels srt .float hist quantiles none with
    | .error e => .error e
    | .ok (_, levels, _) => .ok ⟨ee.getD 0 [], ee.getD 1 [], hist, levels⟩

/-- `plot.py:1128-1205` `contour` without smoothing and upsampling. -/
noncomputable def contour (srt : List ℝ → List ℕ) (data : List (Fin 2 → ℝ)) (edges : EdgeArg)
    (weights : Option (List ℝ)) (quantiles : Option (List ℝ)) (pad : PadArg) : Res ContourCmd :=
  match parseEdges srt data edges none none 5 1000 none 1 none with
  | .error e => .error e
  | .ok rows =>
    match histogram2d data (rows.getD 0 []) (rows.getD 1 []) weights with
    | .error e => .error e
    | .ok hist => drawContour2d srt rows hist quantiles pad

end Kalepy
