import Verif.Model.Dist

/-!
# What matplotlib does with the contours of `kalepy/plot.py`

`ax.contour` and `ax.contourf` check their arguments.  The checks below are those of matplotlib's `ContourSet._process_contour_level_args` and
`QuadContourSet._contour_args`, which are not part of the repository: for numbers (no NaN) they depend on the shape of the array, its
smallest and largest value, and the levels only.
-/

namespace Kalepy

/-- The level is strictly between the smallest and the largest value of the array. -/
def InsideRange (z : NDArr 2 ℝ) (l : ℝ) : Prop := (∃ v ∈ z.flat, v < l) ∧ ∃ v ∈ z.flat, l < v

open Classical in
/-- matplotlib's `ax.contour` as called in `plot.py:1855` (`draw_contour2d`): the levels for which lines are drawn.  An array smaller than
(2, 2) gives `TypeError`; without a level inside the range of the array the only level is the smallest value (and a warning is logged);
otherwise levels that do not increase strictly give `ValueError`. -/
noncomputable def axContour (C : ContourCmd) : Res (List ℝ) :=
  if C.z.shape 0 < 2 ∨ C.z.shape 1 < 2 then .error .typeError
  else if ∀ l ∈ C.levels, ¬ InsideRange C.z l then
    match npMinR C.z.flat with
    | .error e => .error e
    | .ok m => .ok [m]
  else if C.levels.Pairwise (· < ·) then .ok C.levels
  else .error .valueError

/-! ### `mask_dense` -/

/-- The call `ax.contourf(x, y, z, [lo, hi])`: the region where the interpolated `z` is between the two levels is covered;
masked cells are `none`. -/
structure MaskCmd where
  x : List ℝ
  y : List ℝ
  z : NDArr 2 (Option ℝ)
  lo : ℝ
  hi : ℝ

/-- `plot.py:1507-1508`: the default of `mask_dense`. -/
def maskDenseArg (maskDense : Option Bool) (scatter : Bool) (a : Dist2dArgs) : Bool :=
  maskDense.getD (scatter && (a.hist || a.contour))

/-- `plot.py:1546-1581`: the array used for the mask, with its coordinates, and its data without the mask: the array of the contours if they are
drawn, else the (masked) histogram at the centres of its bins if it is drawn, else the padded histogram. -/
noncomputable def maskSource (rows : List (List ℝ)) (hh : NDArr 2 ℝ) (a : Dist2dArgs) (out : Dist2dOut) :
    Res (List ℝ × List ℝ × NDArr 2 (Option ℝ) × NDArr 2 ℝ) :=
  match out.contour, out.hist with
  | some C, _ => .ok (C.x, C.y, C.z.map some, C.z)
  | none, some P =>
    match listSeq midpoints1 rows with
    | .error e => .error e
    | .ok ee => .ok (ee.getD 0 [], ee.getD 1 [], { shape := hh.shape, get := fun idx => P.c.get ![idx 1, idx 0] }, hh)
  | none, none =>
    match prepHist rows hh a.pad with
    | .error e => .error e
    | .ok (ee, z) => .ok (ee.getD 0 [], ee.getD 1 [], z.map some, z)

open Classical in
/-- `plot.py:1594-1605`: the region covered.  `np.asarray` in `_dfm_levels` drops the mask, `hh.max()` respects it.  An array smaller than (2, 2)
is only reported; `ax.contourf` raises `ValueError` unless the levels increase.  An array with all cells masked is not
modelled. -/
noncomputable def maskRegion (srt : List ℝ → List ℕ) (quantiles : List ℝ) (x y : List ℝ) (z : NDArr 2 (Option ℝ)) (raw : NDArr 2 ℝ) :
    Res (Option MaskCmd) :=
  if raw.shape 0 < 2 ∨ raw.shape 1 < 2 then .ok none
  else
    match dfmLevels srt .float raw (some quantiles) none with
    | .error e => .error e
    | .ok (_, levels, _) =>
      match npMinR levels with
      | .error e => .error e
      | .ok lo =>
        match z.flat.filterMap id with
        | [] => .error .unmodelled
        | v :: vs =>
          let hi := npMax v vs
          if hi ≤ lo then .error .valueError else .ok (some ⟨x, y, z, lo, hi⟩)

/-- `plot.py:1570-1573`: the lines of the contours, if there are any. -/
noncomputable def drawnLines (out : Dist2dOut) : Res (Option (List ℝ)) :=
  match out.contour with
  | none => .ok none
  | some C => (axContour C).map some

/-- `plot.py:1503-1607` the end of `dist2d`, after the components `out` have been computed for the data: the contours are drawn, then the
mask.  The order of the drawing calls does not matter for what is drawn, only for which error is raised. -/
noncomputable def dist2dFinish {d : ℕ} (srt : List ℝ → List ℕ) (k : KDE d) (data : List (Fin 2 → ℝ)) (weights : Option (List ℝ))
    (a : Dist2dArgs) (maskDense : Option Bool) (out : Dist2dOut) : Res (Option (List ℝ) × Option MaskCmd) :=
  match drawnLines out with
  | .error e => .error e
  | .ok lines =>
    if maskDenseArg maskDense out.scatter.isSome a then
      match parseEdgesParams srt data a.edges k.reflect a.params with
      | .error e => .error e
      | .ok rows =>
        match histogram2d data (rows.getD 0 []) (rows.getD 1 []) weights with
        | .error e => .error e
        | .ok hh =>
          match maskSource rows hh a out with
          | .error e => .error e
          | .ok (x, y, z, raw) =>
            match maskRegion srt (defaultQuantiles a.quantiles a.sigmas).1 x y z raw with
            | .error e => .error e
            | .ok m => .ok (lines, m)
    else .ok (lines, none)

end Kalepy
