import Mathlib.Analysis.SpecialFunctions.Log.Basic
import Mathlib.Data.Real.Sqrt
import Verif.Model.Utils
import Verif.Model.NDArr

/-!
# Model of the computations of `kalepy/plot.py`

What matplotlib draws is represented by the arguments of the drawing calls; colours, line styles,
transparency (except `_scatter_alpha`) and layout are not modelled.
-/

namespace Kalepy

variable {K : Type*}

/-! ### quantiles and contour levels -/

/-- `plot.py:59` `_DEF_SIGMAS`. -/
noncomputable def defSigmas : List ℝ := [1 / 2, 1, 3 / 2, 2]

/-- `plot.py:2103-2115` `_default_quantiles`: the quantiles and the sigmas.  A sigma is `none` where the
program gets `inf` or NaN (a quantile that is negative or at least one). -/
noncomputable def defaultQuantiles (quantiles sigmas : Option (List ℝ)) : List ℝ × List (Option ℝ) :=
  match quantiles, sigmas with
  | none, s =>
    let s := s.getD defSigmas
    (s.map fun x => 1 - Real.exp (-(1 / 2) * x ^ 2), s.map some)
  | some q, none =>
    (q, q.map fun x => if 0 ≤ x ∧ x < 1 then some (Real.sqrt (-2 * Real.log (1 - x))) else none)
  | some q, some s => (q, s.map some)

/-- `plot.py:2083-2087`: the level of one quantile, `data[sm <= v0][-1]`, and `data[0]` if no entry is
selected (the `IndexError` is caught). -/
def dfmLevel [Zero K] [LE K] [DecidableLE K] (data sm : List K) (q : K) : K :=
  match ((data.zip sm).filter fun p => p.2 ≤ q).getLast? with
  | some p => p.1
  | none => data.getD 0 0

/-- `plot.py:2076-2089` the levels computed by `_dfm_levels` from a flattened histogram with elements of
type `dt`; `srt` is `np.argsort`.  The in-place division raises `TypeError` for integers.  If the total
vanishes and all cells are zero the cumulative sum is NaN and no entry is selected; a vanishing total of
other cells gives infinities: not modelled. -/
def dfmLevelsOf [Field K] [LinearOrder K] (srt : List K → List ℕ) (dt : DType) (hist quantiles : List K) :
    Res (List K) :=
  let data := (srt hist).reverse.map fun i => hist.getD i 0
  let sm := npCumsum data
  match sm.getLast? with
  | none => .error .indexError
  | some tot =>
    if dt = .int then .error .typeError
    else if tot = 0 then
      if ∀ x ∈ data, x = 0 then .ok (npSort (quantiles.map fun _ => data.getD 0 0)) else .error .unmodelled
    else .ok (npSort (quantiles.map (dfmLevel data (sm.map (· / tot)))))

/-- `plot.py:2073-2100` `_dfm_levels(data, quantiles, sigmas)`: sigmas, levels and quantiles. -/
noncomputable def dfmLevels {d : ℕ} (srt : List ℝ → List ℕ) (dt : DType) (hist : NDArr d ℝ)
    (quantiles sigmas : Option (List ℝ)) : Res (List (Option ℝ) × List ℝ × List ℝ) :=
  let qs := defaultQuantiles quantiles sigmas
  match dfmLevelsOf srt dt hist.flat qs.1 with
  | .error e => .error e
  | .ok levels => .ok (qs.2, levels, qs.1)

/-! ### drawing commands -/

/-- Whether a line or band is vertical (`axvline`, `axvspan`: constant x) or horizontal. -/
inductive Orient where
  | vert
  | horiz
  deriving DecidableEq

/-- The drawing calls that mark a position or shade a range of one axis. -/
inductive PlotCmd (K : Type*) where
  | line (o : Orient) (x : K)
  | span (o : Orient) (lo hi : K)

/-! ### confidence bands -/

/-- `plot.py:1098-1106`: the cumulative distribution and the sorted data.  Weighted data must be arrays
(a list raises `TypeError`: not represented); weights shorter than the data raise `IndexError`; one
unweighted datum (0/0) or a vanishing sum of weights gives NaN: not modelled. -/
def confidenceGrid [Field K] [LinearOrder K] (srt : List K → List ℕ) (data : List K)
    (weights : Option (List K)) : Res (List K × List K) :=
  match weights with
  | none =>
    if data.length = 1 then .error .unmodelled
    else .ok ((List.range data.length).map fun k : ℕ => (k : K) / ((data.length : K) - 1), npSort data)
  | some w =>
    let idx := srt data
    if ∀ i ∈ idx, i < w.length then
      let ws := idx.map fun i => w.getD i 0
      if ws.sum = 0 ∧ ws ≠ [] then .error .unmodelled
      else .ok ((npCumsum ws).map (· / ws.sum), idx.map fun i => data.getD i 0)
    else .error .indexError

/-- `plot.py:1108-1114`: the bands, from the quantiles (already parsed) and the grid.  The two halves of the
interpolated positions are paired by the reshape. -/
def confidenceLocs [Field K] [LinearOrder K] (quantiles : List K) (cdf data : List K) : List (K × K) :=
  let half := quantiles.map (· / 2)
  let qnts := (half.map fun q => 1 / 2 - q) ++ (half.map fun q => 1 / 2 + q)
  let locs := qnts.map fun q => npInterp q cdf data
  (locs.take quantiles.length).zip (locs.drop quantiles.length)

/-- `plot.py:1061-1126` `confidence`: the drawing calls.  `quantiles` are those returned by
`_default_quantiles`.  `np.interp` raises `ValueError` for empty data. -/
def confidence [Field K] [LinearOrder K] (srt : List K → List ℕ) (data : List K)
    (weights : Option (List K)) (quantiles : List K) (median rotate : Bool) : Res (List (PlotCmd K)) :=
  match confidenceGrid srt data weights with
  | .error e => .error e
  | .ok (cdf, sorted) =>
    if sorted = [] then .error .valueError
    else
      let o := if rotate then Orient.horiz else Orient.vert
      .ok ((if median then [PlotCmd.line o (npInterp (1 / 2) cdf sorted)] else []) ++
        (confidenceLocs quantiles cdf sorted).map fun p => PlotCmd.span o p.1 p.2)

/-- `plot.py:1358-1361` in `dist1d`: the call of `confidence` with the data of the chosen parameter.  The
weights (of the KDE or given) are not passed on. -/
def dist1dConfidence [Field K] [LinearOrder K] (srt : List K → List ℕ) (data : List K)
    (_weights : Option (List K)) (quantiles : List K) (rotate : Bool) : Res (List (PlotCmd K)) :=
  confidence srt data none quantiles true rotate

/-! ### padding and bin centres -/

/-- `np.pad(a, pad, mode='constant', constant_values=v)`. -/
def padNd {d : ℕ} (pad : ℕ) (v : K) (a : NDArr d K) : NDArr d K where
  shape i := a.shape i + 2 * pad
  get idx := if ∀ i, pad ≤ idx i ∧ idx i < pad + a.shape i then a.get fun i => idx i - pad else v

/-- `plot.py:2122-2128`: the padded edges of one dimension.  With a single edge the difference is an empty
array, which broadcasts only against at most one element. -/
def padEdges [Field K] (pad : ℕ) (ee : List K) : Res (List K) :=
  match ee with
  | [] => .error .indexError
  | [a] => if pad ≤ 1 then .ok [a] else .error .valueError
  | a :: b :: l =>
    let tf := (List.range pad).map fun k : ℕ => (k : K) + 1
    let tr := (tf.reverse).map fun t => -t
    let last := (b :: l).getLast?.getD 0
    let prev := (a :: b :: l).dropLast.getLast?.getD 0
    .ok (tr.map (fun t => a + t * (b - a)) ++ (a :: b :: l) ++ tf.map fun t => last + t * (last - prev))

/-- `plot.py:2118-2129` `_pad_hist`.  The minimum of an empty histogram raises `ValueError`. -/
def padHist [Field K] [LinearOrder K] {d : ℕ} (edges : List (List K)) (hist : NDArr d K) (pad : ℕ) :
    Res (List (List K) × NDArr d K) :=
  match hist.flat.min? with
  | none => .error .valueError
  | some v =>
    match listSeq (padEdges pad) edges with
    | .error e => .error e
    | .ok ee => .ok (ee, padNd pad v hist)

/-- `plot.py:2005-2023` `_match_edges_to_hist`. -/
def matchEdges [Field K] {d : ℕ} (edges : List (List K)) (hist : NDArr d K) : Res (List (List K)) :=
  if edges.map List.length = List.ofFn hist.shape then .ok edges
  else if edges.map List.length = List.ofFn (fun i => hist.shape i + 1) then listSeq midpoints1 edges
  else .error .valueError

/-- The `pad` argument: `None`/`False`, `True`, or a number. -/
inductive PadArg where
  | off
  | auto
  | num (n : ℕ)

/-- `plot.py:1614-1618`: the optional padding.  A pad of zero equals `False`, so it is skipped. -/
def padStep [Field K] [LinearOrder K] {d : ℕ} (edges : List (List K)) (hist : NDArr d K) :
    PadArg → Res (List (List K) × NDArr d K)
  | .off => .ok (edges, hist)
  | .auto => padHist edges hist 1
  | .num 0 => .ok (edges, hist)
  | .num (n + 1) => padHist edges hist (n + 1)

/-- `plot.py:1613-1624`: `_prep_hist` without upsampling and smoothing (which are done by
`scipy.ndimage`): bin centres of both dimensions and histogram.  The centres are then expanded to a mesh. -/
def prepHist [Field K] [LinearOrder K] (edges : List (List K)) (hist : NDArr 2 K) (pad : PadArg) :
    Res (List (List K) × NDArr 2 K) :=
  match padStep edges hist pad with
  | .error e => .error e
  | .ok (edges, hist) =>
    match matchEdges edges hist with
    | .error e => .error e
    | .ok ee => .ok (ee, hist)

/-- The `upsample` argument. -/
inductive UpArg where
  | none
  | no
  | yes
  | num (n : ℕ)

/-- `plot.py:1627-1638`: the factor passed to `scipy.ndimage.zoom` (`none`: not called). Zero equals
`False`. -/
def zoomFactor : UpArg → Option ℕ
  | .none => Option.none
  | .no => Option.none
  | .yes => some 2
  | .num 0 => Option.none
  | .num (n + 1) => some (n + 1)

/-- `plot.py:1635-1639`: the width (in cells of the upsampled histogram) passed to
`scipy.ndimage.gaussian_filter` when `smooth` is a positive number. -/
def filterWidth [Field K] (smooth : K) : UpArg → K
  | .none => smooth
  | .no => smooth * 0
  | .yes => smooth * 2
  | .num n => smooth * n

/-! ### step curves -/

/-- One point of the plotted curve: coordinates (`none` is NaN) and whether it is masked. -/
structure StepPt (K : Type*) where
  x : Option K
  y : Option K
  masked : Bool

/-- `plot.py:1779-1791`: a NaN after every two entries. -/
def gapPairs : List (Option K) → List (Option K)
  | a :: b :: l => a :: b :: none :: gapPairs l
  | l => l

/-- `plot.py:1776-1793`: coordinates of the curve. -/
def stepArrays [Zero K] (edges hist : List K) (joints : Bool) : List (Option K) × List (Option K) :=
  let xval := (List.range (edges.length - 1)).flatMap fun j => [some (edges.getD j 0), some (edges.getD (j + 1) 0)]
  let yval := hist.flatMap fun h => [some h, some h]
  if joints then (xval, yval) else (gapPairs xval, gapPairs yval)

/-- `np.ma.masked_where(cond(yval), ·)` of both coordinates. -/
def maskWhere (p : K → Bool) (l : List (StepPt K)) : List (StepPt K) :=
  l.map fun q => { q with masked := q.masked || (q.y.map p).getD false }

/-- `plot.py:1798-1802`: division by the largest finite unmasked value (if there is none everything is
masked); a vanishing maximum gives NaN or infinities: not modelled. -/
def renormPts [Field K] [LinearOrder K] (r : K) (l : List (StepPt K)) : Res (List (StepPt K)) :=
  match ((l.filter fun q => !q.masked).filterMap StepPt.y).max? with
  | none => .ok (l.map fun q => { q with masked := true })
  | some m =>
    if m = 0 then .error .unmodelled
    else .ok (l.map fun q => { q with y := q.y.map fun y => y / m * r })

/-- `plot.py:1798-1802`: the optional renormalisation. `True` is 1; zero equals `False`. -/
def renormStep [Field K] [LinearOrder K] (renormalize : Option K) (l : List (StepPt K)) :
    Res (List (StepPt K)) :=
  match renormalize with
  | none => .ok l
  | some r => if r = 0 then .ok l else renormPts r l

/-- `plot.py:1772-1817` `draw_hist1d`: the points passed to `ax.plot`, for a histogram of
floats (with integers and `joints=False` the NaN cannot be stored).  A histogram that does not fit the edges raises
`IndexError` when masking and `ValueError` otherwise.  (With `rotate` the mask of the positions is lost,
the mask of the values remains, so the same points are drawn.) -/
def drawHist1d [Field K] [LinearOrder K] (edges hist : List K) (renormalize : Option K)
    (nonzero positive joints rotate : Bool) : Res (List (StepPt K)) :=
  if edges.length ≤ 1 ∨ hist = [] then .error .valueError
  else
    let a := stepArrays edges hist joints
    if hist.length + 1 ≠ edges.length then
      if joints ∧ (nonzero ∨ positive) then .error .indexError else .error .valueError
    else
      let pts := (a.1.zip a.2).map fun p => StepPt.mk p.1 p.2 false
      let pts := if nonzero then maskWhere (fun y => decide (y = 0)) pts else pts
      match renormStep renormalize pts with
      | .error e => .error e
      | .ok pts =>
        let pts := if positive then maskWhere (fun y => decide (y < 0)) pts else pts
        .ok (if rotate then pts.map fun q => StepPt.mk q.y q.x q.masked else pts)

/-! ### scatter points -/

/-- `plot.py:2132-2145` `_scatter_alpha` of `n` points with the default `norm`; no points give `inf`,
clipped to one. -/
noncomputable def scatterAlpha (n : ℕ) : ℝ := if n = 0 then 1 else min (max (10 / Real.sqrt n) 0) 1

/-- The `scatter`/`carpet` argument. -/
inductive ScatterArg where
  | yes
  | no
  | none
  | num (x : ℝ)

/-- Result of `_scatter_limit`. -/
inductive ScatterLimit where
  | inf
  | none
  | num (n : ℕ)

/-- `plot.py:2221-2236` `_scatter_limit`. -/
noncomputable def scatterLimit : ScatterArg → Res ScatterLimit
  | .yes => .ok .inf
  | .no => .ok .none
  | .none => .ok .none
  | .num x => if pyInt x < 1 then .error .valueError else .ok (.num (pyInt x).toNat)

/-- `plot.py:1885-1902` `draw_scatter`: the positions drawn; `sel` is the result of
`np.random.choice(size, limit, replace=False)`. -/
def drawScatter {α : Type*} (pts : List α) (limit : ScatterLimit) (sel : ℕ → ℕ → List ℕ) : List α :=
  match limit with
  | .num n => if n < pts.length then (sel pts.length n).filterMap fun i => pts[i]? else pts
  | _ => pts

/-- `plot.py:1295, 1363-1364` in `dist1d` (with `plot.py:977-983` of `carpet`) and `plot.py:1505, 1524-1525` in `dist2d`: the points drawn
for a `scatter` or `carpet` argument (`none`: nothing is drawn). -/
noncomputable def scatterPoints {α : Type*} (pts : List α) (arg : ScatterArg) (sel : ℕ → ℕ → List ℕ) :
    Res (Option (List α)) :=
  match scatterLimit arg with
  | .error e => .error e
  | .ok .none => .ok none
  | .ok l => .ok (some (drawScatter pts l sel))

end Kalepy
