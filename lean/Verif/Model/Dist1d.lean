import Verif.Model.KDE
import Verif.Model.Carpet

/-!
# Model of `hist1d` and `dist1d` of `kalepy/plot.py`
-/

namespace Kalepy

/-! ### `hist1d` -/

/-- The `edges` argument of `hist1d` and `dist1d` (`plot.py:1229-1232`): `None`, a number of bins, or the edges. -/
inductive BinArg where
  | none
  | int (n : ℤ)
  | arr (l : List ℝ)

/-- The range which `np.histogram` divides into bins: that of the data, widened if they are all equal. -/
noncomputable def outerEdges : List ℝ → ℝ × ℝ
  | [] => (0, 1)
  | x :: l => if npMin x l = npMax x l then (npMin x l - 1 / 2, npMax x l + 1 / 2) else (npMin x l, npMax x l)

/-- The edges used by `np.histogram(data, bins=bins, weights=weights)` (`utils.py:301-303`, where `None` becomes `'auto'`).
`auto` is the number of bins chosen by numpy's rule `'auto'`, which refuses weighted data. -/
noncomputable def histEdges (auto : List ℝ → ℕ) (data : List ℝ) (weights : Option (List ℝ)) : BinArg → Res (List ℝ)
  | .none =>
    if weights.isSome then .error .typeError
    else .ok (npLinspace (outerEdges data).1 (outerEdges data).2 (auto data))
  | .int n =>
    if n < 1 then .error .valueError
    else .ok (npLinspace (outerEdges data).1 (outerEdges data).2 n.toNat)
  | .arr l => .ok l

/-- `utils.py:300-309` `histogram` for any `bins`.  `isList`: the data are a list, not an array, which has no `size`. -/
noncomputable def histogramBins (auto : List ℝ → ℕ) (isList : Bool) (data : List ℝ) (bins : BinArg) (weights : Option (List ℝ))
    (density probability : Bool) : Res (List ℝ × List ℝ) :=
  if (weights.getD (data.map fun _ => 1)).length ≠ data.length then .error .valueError
  else
    match histEdges auto data weights bins with
    | .error e => .error e
    | .ok edges =>
      match npHistogram data edges weights with
      | .error e => .error e
      | .ok _ =>
        if isList = true ∧ probability = true ∧ weights = none then .error .attributeError
        else histogram data edges weights density probability

/-- Arguments of `hist1d` besides the data; `renormalize = none` stands for `False`. -/
structure Hist1dArgs where
  edges : BinArg := .none
  weights : Option (List ℝ) := none
  density : Bool := false
  probability : Bool := false
  renormalize : Option ℝ := none
  nonzero : Bool := false
  positive : Bool := true
  joints : Bool := true
  rotate : Bool := false

/-- `plot.py:1647-1711` `hist1d`: the histogram, its edges, and the points of the curve. -/
noncomputable def hist1d (auto : List ℝ → ℕ) (isList : Bool) (data : List ℝ) (a : Hist1dArgs) :
    Res (List ℝ × List ℝ × List (StepPt ℝ)) :=
  match histogramBins auto isList data a.edges a.weights a.density a.probability with
  | .error e => .error e
  | .ok (hist, edges) =>
    match drawHist1d edges hist a.renormalize a.nonzero a.positive a.joints a.rotate with
    | .error e => .error e
    | .ok pts => .ok (hist, edges, pts)

/-! ### `dist1d` -/

/-- Arguments of `dist1d` besides data and weights; colours and line styles are left out.  `density`: `none` for `None`, `some none` for
`False`, and `some (some s)` for the number `s` (1 for `True`). -/
structure Dist1dArgs where
  edges : BinArg := .none
  probability : Bool := true
  param : ℤ := 0
  rotate : Bool := false
  density : Option (Option ℝ) := none
  confidence : Bool := false
  hist : Option Bool := none
  carpet : ScatterArg := .yes
  quantiles : Option (List ℝ) := none

/-- What is drawn: the curve of the density, the curve of the histogram, the median and the bands, the points; `none` if the component is
not drawn. -/
structure Dist1dOut where
  curve : Option (List (ℝ × ℝ))
  hist : Option (List (StepPt ℝ))
  bands : Option (List (PlotCmd ℝ))
  carpet : Option (List Marker)

/-- The points drawn by `ax.plot(xx, yy)` for the result of `density`: `xx` must be as long as `yy`.  A list with one array has
length one. -/
def plotPairs : Pts × Arr → Res (List (ℝ × ℝ))
  | (.flat l, a) => if l.length = a.vals.length then .ok (l.zip a.vals) else .error .valueError
  | (.rows l, a) =>
    match l with
    | [[x]] => if a.vals.length = 1 then .ok ([x].zip a.vals) else .error .valueError
    | [_] => .error .valueError
    | _ => .error .unmodelled

/-- `plot.py:1329`: the call of `density`.  An integer is taken for the coordinate of a single point; if there are several parameters, the
result is `points[0]`, which fails (`kde.py:395-396`). -/
noncomputable def dist1dDensity {d : ℕ} (E : Ext) (srt : List ℝ → List ℕ) (k : KDE d) (edges : BinArg) (param : ℤ)
    (probability : Bool) : Res (Pts × Arr) :=
  match edges with
  | .none => (k.density E srt none .none (.scalar param) false probability).1
  | .arr l => (k.density E srt (some (.flat l)) .none (.scalar param) false probability).1
  | .int n =>
    match (k.density E srt (some (.rows [[(n : ℝ)]])) .none (.scalar param) false probability).1 with
    | .error e => .error e
    | .ok r => if d = 1 then .ok r else .error .typeError

/-- `plot.py:1328-1339`: the curve of the density, multiplied by `scale`. -/
noncomputable def dist1dCurve {d : ℕ} (E : Ext) (srt : List ℝ → List ℕ) (k : KDE d) (edges : BinArg) (param : ℤ)
    (probability rotate : Bool) (scale : ℝ) : Res (List (ℝ × ℝ)) :=
  match dist1dDensity E srt k edges param probability with
  | .error e => .error e
  | .ok r =>
    match plotPairs r with
    | .error e => .error e
    | .ok l => .ok (l.map fun p => if rotate then (p.2 * scale, p.1) else (p.1, p.2 * scale))

/-- A component that is drawn if the argument is given. -/
def withArg {α β : Type*} (o : Option β) (f : β → Res α) : Res (Option α) :=
  match o with
  | none => .ok none
  | some b => (f b).map some

/-- `plot.py:1310-1366`: the components.  `dens` is the scale of the density curve if it is drawn and `mkCurve` its computation, `top` the upper limit of the axis
as seen by `carpet`. -/
noncomputable def dist1dDraw (srt : List ℝ → List ℕ) (auto : List ℝ → ℕ) (sel : ℕ → ℕ → List ℕ) (fuzz : ℕ → ℝ) (top : ℝ)
    (isList : Bool) (data : List ℝ) (weights : Option (List ℝ)) (mkCurve : ℝ → Res (List (ℝ × ℝ))) (dens : Option ℝ) (hist : Bool)
    (a : Dist1dArgs) : Res Dist1dOut :=
  match scatterLimit a.carpet with
  | .error e => .error e
  | .ok limit =>
    match withArg dens mkCurve with
    | .error e => .error e
    | .ok curve =>
      match withArg (if hist then some () else none) fun _ => hist1d auto isList data
          { edges := a.edges, weights := weights, density := true, probability := a.probability, rotate := a.rotate } with
      | .error e => .error e
      | .ok h =>
        match withArg (if a.confidence then some () else none) fun _ =>
            dist1dConfidence srt data weights (defaultQuantiles a.quantiles none).1 a.rotate with
        | .error e => .error e
        | .ok bands =>
          match withArg (match limit with | .none => none | l => some l) fun l =>
              carpet srt sel fuzz data weights top { limit := l, rotate := a.rotate } with
          | .error e => .error e
          | .ok points => .ok ⟨curve, h.map fun r => r.2.2, bands, points.map Prod.fst⟩

/-- `plot.py:1208-1368` `dist1d` of a KDE, with `weights=None`: the curve is drawn by default, the histogram is not. -/
noncomputable def dist1d {d : ℕ} (E : Ext) (srt : List ℝ → List ℕ) (auto : List ℝ → ℕ) (sel : ℕ → ℕ → List ℕ) (fuzz : ℕ → ℝ) (top : ℝ)
    (k : KDE d) (a : Dist1dArgs) : Res Dist1dOut :=
  match dimIndex d a.param with
  | .error e => .error e
  | .ok i =>
    dist1dDraw srt auto sel fuzz top false (dataRow k.dataset i) k.weights
      (dist1dCurve E srt k a.edges a.param a.probability a.rotate) (a.density.getD (some 1)) (a.hist.getD false) a

/-- `plot.py:1208-1368` `dist1d` of a list or array of numbers: the histogram is drawn by default, the curve is not; it is that of a KDE
made from the data and weights. -/
noncomputable def dist1dData (E : Ext) (srt : List ℝ → List ℕ) (auto : List ℝ → ℕ) (sel : ℕ → ℕ → List ℕ) (fuzz : ℕ → ℝ) (top : ℝ)
    (isList : Bool) (data : List ℝ) (weights : Option (List ℝ)) (a : Dist1dArgs) : Res Dist1dOut :=
  dist1dDraw srt auto sel fuzz top isList data weights
    (fun scale =>
      match KDE.init E { dataset := data.map fun x _ => x, squeeze := true, weights := weights.elim .none fun w => .arr (w.map .fin) } with
      | .error e => .error e
      | .ok (k : KDE 1) => dist1dCurve E srt k a.edges a.param a.probability a.rotate scale)
    (a.density.getD none) (a.hist.getD true) a

end Kalepy
