import Verif.Model.KDE
import Verif.Model.Carpet
import Verif.Model.Hist2d

/-!
# Model of `dist2d` of `kalepy/plot.py`, and of `parse_edges` with `params`
-/

namespace Kalepy

/-! ### `parse_edges` with `params` -/

/-- `utils.py:1033-1075` `_get_edges_1d` for two-dimensional data and unchecked extrema, with the arguments of `dist2d`.  `None` is subscripted
after the guess of the number of bins; a `None` value in a pair fails in `np.diff`. -/
noncomputable def rawEdges1d (srt : List ℝ → List ℕ) (spec : EdgeSpec) (data : List ℝ) (row : ReflRow) : Res (List ℝ) :=
  match spec, row with
  | .arr l, _ => .ok l
  | .bad, _ => .error .valueError
  | _, none =>
    match data with
    | [] => .error .unmodelled
    | x :: l =>
      match guessEdges srt data (npMin x l, npMax x l) none 2 5 1000 1 none with
      | .error e => .error e
      | .ok _ => .error .typeError
  | spec, some (some a, some b) => getEdges1d srt spec data (a, b) none 2 5 1000 0 1 none
  | _, some _ => .error .typeError

/-- `utils.py:429-466` `parse_edges(data, edges, extrema=reflect, params=params)` for two-dimensional data.  If there are not two rows of
boundaries, the ones of the parameters are selected, and are not completed from the data (`utils.py:1234-1235`). -/
noncomputable def parseEdgesParams (srt : List ℝ → List ℕ) (data : List (Fin 2 → ℝ)) (edges : EdgeArg)
    (reflect : Option (List ReflRow)) (params : List ℤ) : Res (List (List ℝ)) :=
  match reflect with
  | none => parseEdges srt data edges none none 5 1000 none 1 none
  | some rows =>
    if rows.length = 2 then parseEdges srt data edges (some (rows.map ReflRow.toExt)) none 5 1000 none 1 none
    else
      match listSeq (pyIndex rows) params with
      | .error e => .error e
      | .ok ext =>
        match edgeSpecs 2 edges with
        | .error e => .error e
        | .ok specs =>
          match finSeq fun i : Fin 2 => rawEdges1d srt (specs.getD i .auto) (dataRow data i) (ext.getD i none) with
          | .error e => .error e
          | .ok f => .ok (List.ofFn f)

/-! ### `dist2d` -/

/-- Arguments of `dist2d`; no smoothing and upsampling, colours and line styles are left out; `mask_dense`
(a white filled contour below the other components) is added in `Model/Contours.lean`. -/
structure Dist2dArgs where
  edges : EdgeArg := .none
  params : List ℤ := [0, 1]
  quantiles : Option (List ℝ) := none
  sigmas : Option (List ℝ) := none
  pad : PadArg := .auto
  median : Bool := true
  scatter : ScatterArg := .yes
  contour : Bool := true
  hist : Bool := true
  maskBelow : MaskArg := .auto

/-- What is drawn: the positions passed to `ax.scatter`, the vertical and the horizontal line, the cells of the histogram, and the
contours; `none` if the component is not drawn. -/
structure Dist2dOut where
  scatter : Option (List (Fin 2 → ℝ))
  lines : Option (ℝ × ℝ)
  hist : Option Pcolor
  contour : Option ContourCmd

/-- `plot.py:1479-1487`: the data to be plotted; `params` only matters for more than two parameters.  One parameter fails in
`np.histogram2d`: not modelled. -/
def plotRows {d : ℕ} (data : List (Fin d → ℝ)) (params : List ℤ) : Res (List (Fin 2 → ℝ)) :=
  if h : d = 2 then .ok (data.map fun x i => x (Fin.cast h.symm i))
  else if d < 2 then .error .unmodelled
  else if params.length ≠ 2 then .error .valueError
  else
    match listSeq (dimIndex d) params with
    | .error e => .error e
    | .ok (i :: j :: _) => .ok (data.map fun x => ![x i, x j])
    | .ok _ => .error .valueError

/-- `plot.py:1531-1534`: the median of one coordinate. -/
noncomputable def dataMedian (srt : List ℝ → List ℕ) (row : List ℝ) (weights : Option (List ℝ)) : Res ℝ :=
  match weights with
  | none => npMedian row
  | some w => (quantiles srt row [1 / 2] (some w)).map fun l => l.getD 0 0

/-- A two-dimensional array of values. -/
def Arr.mat (a : Arr) : NDArr 2 ℝ where
  shape := ![a.shape.getD 0 0, a.shape.getD 1 0]
  get := fun idx => a.vals.getD (ravelIdx ![a.shape.getD 0 0, a.shape.getD 1 0] idx) 0

/-- `plot.py:1515-1517`: the value below which bins are hidden; the minimum of no levels is a `ValueError`. -/
noncomputable def maskLevel (levels : List ℝ) : MaskArg → Res (Option ℝ)
  | .off => .ok none
  | .num x => .ok (some x)
  | .auto =>
    match levels with
    | [] => .error .valueError
    | a :: l => .ok (some (npMin a l))

/-- `plot.py:1528-1540`: the lines at the medians. -/
noncomputable def medianLines (srt : List ℝ → List ℕ) (data : List (Fin 2 → ℝ)) (weights : Option (List ℝ)) : Res (ℝ × ℝ) :=
  match dataMedian srt (dataRow data 0) weights with
  | .error e => .error e
  | .ok v =>
    match dataMedian srt (dataRow data 1) weights with
    | .error e => .error e
    | .ok h => .ok (v, h)

/-- `plot.py:1555-1569`: the contours of the KDE.  A density that is not two-dimensional is not modelled. -/
noncomputable def kdeContour {d : ℕ} (E : Ext) (srt : List ℝ → List ℕ) (k : KDE d) (params : List ℤ) (quantiles : List ℝ)
    (pad : PadArg) : Res ContourCmd :=
  match (k.density E srt none .none (.list params)).1 with
  | .error e => .error e
  | .ok (.rows [x, y], arr) => drawContour2d srt [x, y] arr.mat (some quantiles) pad
  | .ok _ => .error .unmodelled

/-- A component that is drawn on demand. -/
def optional {α : Type*} (b : Bool) (r : Res α) : Res (Option α) :=
  if b then r.map some else .ok none

/-- `plot.py:1503-1569`: the components drawn for data, weights and the KDE. -/
noncomputable def dist2dDraw {d : ℕ} (E : Ext) (srt : List ℝ → List ℕ) (sel : ℕ → ℕ → List ℕ) (k : KDE d)
    (data : List (Fin 2 → ℝ)) (weights : Option (List ℝ)) (a : Dist2dArgs) : Res Dist2dOut :=
  match scatterPoints data a.scatter sel with
  | .error e => .error e
  | .ok scatter =>
    match parseEdgesParams srt data a.edges k.reflect a.params with
    | .error e => .error e
    | .ok rows =>
      match histogram2d data (rows.getD 0 []) (rows.getD 1 []) weights with
      | .error e => .error e
      | .ok hh =>
        match dfmLevels srt .float hh a.quantiles a.sigmas with
        | .error e => .error e
        | .ok (_, levels, quantiles) =>
          match maskLevel levels a.maskBelow with
          | .error e => .error e
          | .ok mask =>
            match optional a.median (medianLines srt data weights) with
            | .error e => .error e
            | .ok lines =>
              match optional a.contour (kdeContour E srt k a.params quantiles a.pad) with
              | .error e => .error e
              | .ok contour =>
                .ok ⟨scatter, lines, if a.hist then some (drawHist2d (rows.getD 0 []) (rows.getD 1 []) hh mask) else none, contour⟩

/-- `plot.py:1371-1607` `dist2d` of a KDE (without `weights`). -/
noncomputable def dist2d {d : ℕ} (E : Ext) (srt : List ℝ → List ℕ) (sel : ℕ → ℕ → List ℕ) (k : KDE d) (a : Dist2dArgs) :
    Res Dist2dOut :=
  match plotRows k.dataset a.params with
  | .error e => .error e
  | .ok data => dist2dDraw E srt sel k data k.weights a

/-- `plot.py:1371-1607` `dist2d` of an array of two rows: a KDE is made from the data and weights, any error of which becomes a
`RuntimeError`. `weights` as seen by `np.histogram2d` are the given numbers. -/
noncomputable def dist2dData (E : Ext) (srt : List ℝ → List ℕ) (sel : ℕ → ℕ → List ℕ) (data : List (Fin 2 → ℝ))
    (weights : Option (List ℝ)) (a : Dist2dArgs) : Res Dist2dOut :=
  match KDE.init E { dataset := data, weights := weights.elim .none fun w => .arr (w.map .fin) } with
  | .error .unmodelled => .error .unmodelled
  | .error _ => .error .runtimeError
  | .ok k => dist2dDraw E srt sel k data weights a

end Kalepy
