import Verif.Model.Plot

/-!
# Corner plots: limits, targets, legend position, arguments passed on

The figure is represented by what the code sets and draws in each panel; matplotlib itself is not modelled.
`axes[ii, jj]` is the panel of row `ii` and column `jj` of the triangle.
-/

namespace Kalepy

/-! ### limits -/

/-- What `Corner` sets in one panel: the limits of the two axes and whether it is visible. -/
structure Panel where
  xlim : Option (ℝ × ℝ)
  ylim : Option (ℝ × ℝ)
  visible : Bool

/-- The attributes of a `Corner` instance (`plot.py:257-264`) that concern the limits, and its panels. -/
structure Corner (n : ℕ) where
  limits : Fin n → Option (ℝ × ℝ)
  auto : Bool
  rotate : Bool
  axes : Fin n → Fin n → Panel

/-- `plot.py:1929-1966` `_set_corner_axes_extrema` for square axes and one pair of limits per parameter. -/
def setExtrema {n : ℕ} (rotate : Bool) (extrema : Fin n → ℝ × ℝ) (axes : Fin n → Fin n → Panel) :
    Fin n → Fin n → Panel := fun ii jj =>
  let ax := axes ii jj
  if ii < jj then { ax with visible := false }
  else if ii = jj then
    if rotate && decide ((jj : ℕ) = n - 1) then { ax with ylim := some (extrema jj) }
    else { ax with xlim := some (extrema jj) }
  else
    { ax with
      xlim := some (extrema jj)
      ylim := some (extrema ii) }

/-- `plot.py:108-265` `Corner.__init__` of `n` parameters, as far as limits and visibility are concerned; `limits`
is `None` or a (n,2) array. -/
def Corner.new {n : ℕ} (limits : Option (Fin n → ℝ × ℝ)) (rotate : Bool) : Corner n :=
  let axes : Fin n → Fin n → Panel := fun ii jj => ⟨none, none, !decide (ii < jj)⟩
  match limits with
  | some l =>
    { limits := fun i => some (l i)
      auto := false
      rotate := rotate
      axes := setExtrema rotate l axes }
  | none =>
    { limits := fun _ => none
      auto := true
      rotate := rotate
      axes := axes }

/-- A call of `plot_data` (with the element type of the data and its rows) or of `plot_kde` and its wrappers
`plot` and `clean` (with the edges and their element types, as returned by `parse_edges`).  `limit` is the
argument of that name. -/
inductive CornerCall (n : ℕ) where
  | plotData (dt : DType) (data : Fin n → List ℝ) (limit : Option Bool)
  | plotKde (dt : Fin n → DType) (edges : Fin n → List ℝ) (limit : Option Bool)

variable {n : ℕ}

/-- The element type of the values from which the limits of parameter `i` are taken. -/
def CornerCall.dt : CornerCall n → Fin n → DType
  | .plotData dt _ _, _ => dt
  | .plotKde dt _ _, i => dt i

/-- The values from which the limits of parameter `i` are taken. -/
def CornerCall.vals : CornerCall n → Fin n → List ℝ
  | .plotData _ data _, i => data i
  | .plotKde _ edges _, i => edges i

/-- The argument `limit`. -/
def CornerCall.limit : CornerCall n → Option Bool
  | .plotData _ _ l => l
  | .plotKde _ _ l => l

/-- `plot.py:552` with `567` (`plot_kde`), `plot.py:679` with `694` (`plot_data`): the new limits of one parameter.  Empty data do not get
this far (no KDE can be built): not modelled. -/
noncomputable def cornerLimit (dt : DType) (vals : List ℝ) (prev : Option (ℝ × ℝ)) : Res (ℝ × ℝ) :=
  match minmax dt vals (stretch := some (1 / 10, 1 / 10)) with
  | .ok (some (some lo, some hi)) =>
    match minmax dt [lo, hi] (prev := prev.map fun p => (some p.1, some p.2)) with
    | .ok (some (some lo, some hi)) => .ok (lo, hi)
    | .ok _ => .error .unmodelled
    | .error e => .error e
  | .ok _ => .error .unmodelled
  | .error e => .error e

/-- `plot.py:527-572` `plot_kde`, `plot.py:658-699` `plot_data`: the effect of a call (that draws without an error) on
the limits. -/
noncomputable def Corner.call (c : Corner n) (p : CornerCall n) : Res (Corner n) :=
  if p.limit.getD c.auto then
    match finSeq fun i => cornerLimit (p.dt i) (p.vals i) (c.limits i) with
    | .error e => .error e
    | .ok l => .ok { c with
        limits := fun i => some (l i)
        axes := setExtrema c.rotate l c.axes }
  else .ok c

/-- A sequence of calls on one `Corner`. -/
noncomputable def Corner.calls (c : Corner n) : List (CornerCall n) → Res (Corner n)
  | [] => .ok c
  | p :: ps =>
    match c.call p with
    | .error e => .error e
    | .ok c' => c'.calls ps

/-! ### targets -/

/-- A drawing call that needs the limits `extr` of a parameter: `extr[k][0]` of `None` raises `TypeError`. -/
def withLimits (extr : Option (ℝ × ℝ)) (f : ℝ × ℝ → PlotCmd ℝ) : Res (List (PlotCmd ℝ)) :=
  match extr with
  | none => .error .typeError
  | some p => .ok [f p]

/-- The three optional drawing calls of one parameter in one panel: target, upper limit, lower limit. -/
def targetCmds (t u l : Option ℝ) (extr : Option (ℝ × ℝ)) (line : ℝ → PlotCmd ℝ)
    (up lo : ℝ → ℝ × ℝ → PlotCmd ℝ) : Res (List (PlotCmd ℝ)) :=
  match (match u with | none => Except.ok [] | some u => withLimits extr (up u)),
    (match l with | none => Except.ok [] | some l => withLimits extr (lo l)) with
  | .ok b, .ok c => .ok ((match t with | none => [] | some t => [line t]) ++ b ++ c)
  | .error e, _ => .error e
  | _, .error e => .error e

/-- `plot.py:823-839`: one panel on the diagonal. -/
def target1d (c : Corner n) (t u l : Fin n → Option ℝ) (jj : Fin n) : Res (List (PlotCmd ℝ)) :=
  let o := if c.rotate && decide ((jj : ℕ) = n - 1) then Orient.horiz else Orient.vert
  targetCmds (t jj) (u jj) (l jj) (c.limits jj) (fun x => .line o x)
    (fun x e => .span o e.1 x) (fun x e => .span o x e.2)

/-- `plot.py:841-851`: one panel below the diagonal, first the row parameter, then the column parameter.  Line 851
gives the lower end of the axis for the band of a lower limit. -/
def target2d (c : Corner n) (t u l : Fin n → Option ℝ) (ii jj : Fin n) : Res (List (PlotCmd ℝ)) :=
  let one (o : Orient) (k : Fin n) : Res (List (PlotCmd ℝ)) :=
    targetCmds (t k) (u k) (l k) (c.limits k) (fun x => .line o x)
      (fun x e => .span o e.1 x) (fun x e => .span o x e.1)
  match one .horiz ii, one .vert jj with
  | .ok a, .ok b => .ok (a ++ b)
  | .error e, _ => .error e
  | _, .error e => .error e

/-- `plot.py:788-853` `Corner.target`: the drawing calls in every panel.  `None` for the limits stands for
`[None] * size`. -/
def Corner.target (c : Corner n) (targets : List (Option ℝ)) (upper lower : Option (List (Option ℝ))) :
    Res (Fin n → Fin n → List (PlotCmd ℝ)) :=
  let lower := lower.getD (List.replicate n none)
  let upper := upper.getD (List.replicate n none)
  if targets.length ≠ n then .error .valueError
  else if lower.length ≠ n then .error .valueError
  else if upper.length ≠ n then .error .valueError
  else
    let t : Fin n → Option ℝ := fun k => targets.getD k none
    let u : Fin n → Option ℝ := fun k => upper.getD k none
    let l : Fin n → Option ℝ := fun k => lower.getD k none
    finSeq fun ii => finSeq fun jj =>
      if ii = jj then target1d c t u l jj
      else if jj < ii then target2d c t u l ii jj
      else .ok []

/-! ### position of panels and legend -/

/-- `plot.py:2051-2070` `_parse_origin`. -/
def parseOrigin (s : List Char) : Res (Bool × Bool) :=
  match s.map Char.toLower with
  | [v, h] =>
    match (if v = 't' then some true else if v = 'b' then some false else none),
      (if h = 'r' then some true else if h = 'l' then some false else none) with
    | some v, some h => .ok (v, h)
    | _, _ => .error .valueError
  | _ => .error .valueError

/-- `plot.py:154-160`: the row (from the top) and column (from the left) of the figure in which `axes[ii, jj]` is. -/
def cellOf (origin : Bool × Bool) (ii jj : Fin n) : Fin n × Fin n :=
  (if origin.1 then ii.rev else ii, if origin.2 then jj.rev else jj)

/-- `plot.py:761-776` in `Corner.legend`: the panel at which the legend is placed by default; a negative index counts
from the end. -/
def legendIndex (size : ℕ) : ℤ × ℤ :=
  if size = 2 ∨ size = 3 ∨ size = 4 then (0, -1)
  else if size = 1 then (0, 0)
  else if size % 2 = 0 then (1, (size / 2 : ℕ))
  else ((size : ℤ) - ((size / 2 + 1 : ℕ) : ℤ) - 1, (size / 2 + 1 : ℕ))

/-- `axes[index]` of an axis of length `size`: negative indices count from the end, indices out of range raise
`IndexError`. -/
def npIndex (size : ℕ) (i : ℤ) : Res ℕ :=
  if 0 ≤ i ∧ i < size then .ok i.toNat
  else if -size ≤ i ∧ i < 0 then .ok (i + size).toNat
  else .error .indexError

/-! ### weights passed on -/

/-- The `kde_data` argument: data or a KDE (with its weights, `None` if uniform). -/
inductive KdeData (D W : Type*) where
  | data (d : D)
  | kde (d : D) (w : Option W)

variable {D W : Type*}

/-- `plot.py:2026-2048` `_parse_kde_data`: data and weights.  The KDE built from data (which may fail) is not
represented. -/
def parseKdeData (kd : KdeData D W) (weights : Option W) : Res (D × Option W) :=
  match kd with
  | .kde d w =>
    match weights with
    | some _ => .error .valueError
    | none => .ok (d, w)
  | .data d => .ok (d, weights)

/-- The data stored by `plot.py:148, 258-260` in `Corner.__init__`: `_kde` (with its weights) and `_data`. -/
structure CornerData (D W : Type*) where
  kde : Option (D × Option W)
  data : Option D

/-- `plot.py:137-149`: `Corner(kde_data, weights)`; `none` is a number of parameters. -/
def cornerInit (kd : Option (KdeData D W)) (weights : Option W) : Res (CornerData D W) :=
  match kd with
  | none => .ok ⟨none, none⟩
  | some kd =>
    match parseKdeData kd weights with
    | .error e => .error e
    | .ok (d, w) => .ok ⟨some (d, w), some d⟩

/-- `plot.py:632-640, 674-689` `plot_data`: the data and weights passed to the drawing functions. -/
def plotDataInput (c : CornerData D W) (data : Option (KdeData D W)) (weights : Option W) :
    Res (D × Option W) :=
  match (match data with | some d => some d | none => c.data.map KdeData.data) with
  | none => .error .valueError
  | some d => parseKdeData d weights

/-- `plot.py:337-362` `Corner.hist`: the data and weights that are drawn; the weights are not passed on to
`plot_data`. -/
def histInput (c : CornerData D W) (kd : Option (KdeData D W)) (weights : Option W) : Res (D × Option W) :=
  match (match kd with | some d => some d | none => c.kde.map fun p => KdeData.kde p.1 p.2) with
  | none => .error .valueError
  | some d =>
    match parseKdeData d weights with
    | .error e => .error e
    | .ok (d, _) => plotDataInput c (some (.data d)) none

/-- `plot.py:505-513` `plot_kde`: the data and weights that are drawn (those of the KDE). -/
def plotKdeInput (c : CornerData D W) (kd : Option (KdeData D W)) (weights : Option W) : Res (D × Option W) :=
  match (match kd with | some d => some d | none => c.kde.map fun p => KdeData.kde p.1 p.2) with
  | none => .error .valueError
  | some d => parseKdeData d weights

/-- `plot.py:289-313` `clean` and `plot.py:420-446` `plot`: the KDE is built with the weights and passed on. -/
def plotInput (c : CornerData D W) (kd : Option (KdeData D W)) (weights : Option W) : Res (D × Option W) :=
  match (match kd with | some d => some d | none => c.kde.map fun p => KdeData.kde p.1 p.2) with
  | none => .error .valueError
  | some d =>
    match parseKdeData d weights with
    | .error e => .error e
    | .ok (d, w) => plotKdeInput c (some (.kde d w)) none

/-! ### dictionaries as default arguments -/

/-- A dictionary of keyword arguments. -/
abbrev KwDict (V : Type*) := String → Option V

variable {V : Type*}

/-- `d.setdefault(k, v)`. -/
def KwDict.setdefault (d : KwDict V) (k : String) (v : V) : KwDict V :=
  fun k' => if k' = k then some ((d k).getD v) else d k'

/-- The methods with `dist1d={}, dist2d={}` that end in `plot_kde`. -/
inductive CornerMethod where
  | clean
  | plot
  | plotKde
  deriving DecidableEq

/-- The default dictionaries `(dist1d, dist2d)` of the methods: they are created once, when the class is defined, and shared by
all instances. -/
abbrev KwStore (V : Type*) := CornerMethod → KwDict V × KwDict V

/-- One call: the method, the `quantiles` and `ls` arguments, and the dictionaries if given. -/
structure KwCall (V : Type*) where
  method : CornerMethod
  quantiles : V
  ls : V
  dist1d : Option (KwDict V)
  dist2d : Option (KwDict V)

/-- `plot.py:300-310` (`clean`) and `plot.py:431-440` (`plot`): defaults for 1D; `yes`, `no` are `True`, `False`. -/
def CornerMethod.set1d (yes no : V) : CornerMethod → KwDict V → KwDict V
  | .clean, d => (((d.setdefault "density" yes).setdefault "confidence" no).setdefault "carpet" no).setdefault "hist" no
  | .plot, d => (((d.setdefault "density" yes).setdefault "confidence" yes).setdefault "carpet" yes).setdefault "hist" no
  | .plotKde, d => d

/-- The same lines: defaults for 2D. -/
def CornerMethod.set2d (yes no : V) : CornerMethod → KwDict V → KwDict V
  | .clean, d => ((((d.setdefault "hist" no).setdefault "contour" yes).setdefault "scatter" no).setdefault
      "mask_dense" no).setdefault "mask_below" no
  | .plot, d => (((d.setdefault "hist" yes).setdefault "scatter" yes).setdefault "contour" yes).setdefault
      "mask_below" yes
  | .plotKde, d => d

/-- `plot.py:532-535` in `plot_kde`, after the defaults of the calling method: the dictionaries passed to the drawing functions
and the new default dictionaries: `setdefault` changes the dictionary it is called on. -/
def kwStep (yes no : V) (st : KwStore V) (c : KwCall V) : (KwDict V × KwDict V) × KwStore V :=
  let d1 := ((c.method.set1d yes no (c.dist1d.getD (st c.method).1)).setdefault "quantiles" c.quantiles).setdefault
    "ls" c.ls
  let d2 := ((c.method.set2d yes no (c.dist2d.getD (st c.method).2)).setdefault "quantiles" c.quantiles).setdefault
    "ls" c.ls
  ((d1, d2), fun m =>
    if m = c.method then
      (if c.dist1d.isNone then d1 else (st m).1, if c.dist2d.isNone then d2 else (st m).2)
    else st m)

/-- The dictionaries used by the calls of a program, in order, from the store after the import (all empty). -/
def kwRun (yes no : V) : KwStore V → List (KwCall V) → List (KwDict V × KwDict V)
  | _, [] => []
  | st, c :: cs => (kwStep yes no st c).1 :: kwRun yes no (kwStep yes no st c).2 cs

end Kalepy
