import Verif.Model.Utils
import Verif.Model.Parse

/-!
# Tests for integers, shapes of jagged lists, colours and colour maps, figures
-/

namespace Kalepy

/-! ### isinteger -/

/-- A Python scalar. -/
inductive PyNum where
  | int (n : ℤ)
  | float (x : ℝ)
  | bool (b : Bool)

/-- The element types that numpy chooses for Python scalars. -/
inductive NpKind where
  | bool
  | int64
  | uint64
  | float64
  | object
  deriving DecidableEq

/-- `np.asarray(x).dtype` of a scalar: integers need 64 bits with or without sign, otherwise they are objects. -/
def PyNum.kind : PyNum → NpKind
  | .int n => if -2 ^ 63 ≤ n ∧ n < 2 ^ 63 then .int64 else if 0 ≤ n ∧ n < 2 ^ 64 then .uint64 else .object
  | .float _ => .float64
  | .bool _ => .bool

/-- `np.promote_types`. -/
def NpKind.promote : NpKind → NpKind → NpKind
  | .object, _ => .object
  | _, .object => .object
  | .float64, _ => .float64
  | _, .float64 => .float64
  | .int64, .uint64 => .float64
  | .uint64, .int64 => .float64
  | .int64, _ => .int64
  | _, .int64 => .int64
  | .uint64, _ => .uint64
  | _, .uint64 => .uint64
  | .bool, .bool => .bool

/-- `np.asarray(l).dtype` of a list of scalars; an empty list gives floats. -/
def kindOf : List PyNum → NpKind
  | [] => .float64
  | x :: l => l.foldl (fun k y => k.promote y.kind) x.kind

/-- The argument of `isinteger`: a scalar or a list of scalars. -/
inductive IntArg where
  | scalar (x : PyNum)
  | list (l : List PyNum)

/-- `utils.py:597-622` `isinteger(val, iterable)`.  numpy's integer types are registered as `numbers.Integral`, its
booleans are not. -/
def isinteger (val : IntArg) (iterable : Bool := true) : Bool :=
  match val with
  | .scalar x => x.kind = .int64 ∨ x.kind = .uint64
  | .list l => iterable ∧ (kindOf l = .int64 ∨ kindOf l = .uint64)

/-! ### jshape -/

/-- What `jshape` returns: a shape, or a shape together with the results for the elements. -/
inductive JShape where
  | flat (shape : List ℕ)
  | nested (shape : List ℕ) (parts : List JShape)

mutual
/-- `utils.py:625-640` `jshape(arr)` for an array of objects with `k` axes whose elements are nested lists; the elements
of such an array along its first axis are arrays with `k - 1` axes, or the nested lists themselves if `k = 1`. -/
def Nest.jshapeAt {K : Type*} (k : ℕ) : Nest K → JShape
  | .leaf _ => .flat []
  | .node l =>
    let shape := (Nest.npShape (.node l)).take k
    if shape.prod = Nest.flatlen (.node l) then .flat shape
    else .nested shape (Nest.jshapeList (k - 1) l)

/-- `utils.py:635-637`: the loop over the elements. -/
def Nest.jshapeList {K : Type*} (k : ℕ) : List (Nest K) → List JShape
  | [] => []
  | t :: l => Nest.jshapeAt (if k = 0 then (Nest.npShape t).length else k) t :: Nest.jshapeList k l
end

/-- `utils.py:625-640` `jshape(arr)` of a nested list; line 628 makes it an array of objects, with as many axes as the
list is regular.  As for `isjagged`, numpy before 1.24 is meant: later versions raise `ValueError` in `really1d` for
lists that are ragged below the first level. -/
def Nest.jshape {K : Type*} (t : Nest K) : JShape := t.jshapeAt (Nest.npShape t).length

/-! ### colours and colour maps -/

/-- `plot.py:2156-2174` `_parse_color_cmap(ax, color, cmap)`.  `next` is the next colour of the axes' colour cycle,
`toCmap` is `_color_to_cmap`, `get` is `plt.get_cmap` (`none` if it raises `ValueError`), `listed` is
`mpl.colors.ListedColormap` and `mid m` is `m(0.5)`. -/
def parseColorCmap {Col Map Arg : Type*} (next : Col) (toCmap : Col → Map) (get : Arg → Option Map) (listed : Arg → Map)
    (mid : Map → Col) (color : Option Col := none) (cmap : Option Arg := none) : Col × Map :=
  match color, cmap with
  | none, none => (next, toCmap next)
  | none, some a =>
    let m := (get a).getD (listed a)
    (mid m, m)
  | some c, _ => (c, toCmap c)

/-- One component of `LinearSegmentedColormap.from_list(name, colors)` at `t`, for two or more colours: linear between the
colours, which are equally spaced in [0, 1].  The rounding of `t` to 256 steps is not modelled. -/
noncomputable def fromList (colors : List ℝ) (t : ℝ) : ℝ := npInterp t (npLinspace 0 1 (colors.length - 1)) colors

/-- `plot.py:2212-2218` `_cut_colormap(cmap, min, max, n)`, one component of the colours.  With less than two colours
`from_list` raises an exception. -/
noncomputable def cutColormap (cmap : ℝ → ℝ) (lo hi : ℝ) (n : ℕ := 10) : Res (ℝ → ℝ) :=
  if n < 2 then .error .valueError
  else .ok (fromList ((npLinspace lo hi (n - 1)).map cmap))

/-- `plot.py:1558-1562`: the part of the colour map that `dist2d` uses for contours of `nq` quantiles. -/
noncomputable def contourRange (nq : ℕ) : ℝ × ℝ :=
  let dd : ℝ := if nq < 4 then nq * (8 / 100) else 7 / 10 / 2
  (1 / 2 - dd, 1 / 2 + dd)

/-- A line drawn by `_draw_colorbar_contours`. -/
structure BarLine (Col : Type*) where
  horizontal : Bool
  level : ℝ
  color : Col
  outline : Col

/-- `plot.py:2242-2249`: the colours of the lines that `_draw_colorbar_contours` draws.  `grey` is `'0.5'`, `smap` gives
`to_rgba` with the colour map and with the reversed colour map. -/
def barLineColors {Col : Type*} (grey : Col) (levels : List ℝ) (invert : Bool) (colors : Option (List Col))
    (smap : Option ((ℝ → Col) × (ℝ → Col))) : List Col :=
  match colors with
  | some c => c
  | none =>
    match smap with
    | none => levels.map fun _ => grey
    | some (m, rev) => levels.map (if invert then rev else m)

/-- `plot.py:2239-2266` `_draw_colorbar_contours(cbar, levels, invert, colors, smap)`: the lines drawn. -/
def drawColorbarContours {Col : Type*} (grey : Col) (orientation : String) (levels : List ℝ) (invert : Bool := true)
    (colors : Option (List Col) := none) (smap : Option ((ℝ → Col) × (ℝ → Col)) := none) : Res (List (BarLine Col)) :=
  let colors := barLineColors grey levels invert colors smap
  let draw (h : Bool) : List (BarLine Col) :=
    ((levels.zip colors).zip colors.reverse).map fun x => ⟨h, x.1.1, x.1.2, x.2⟩
  if ['v'] <+: orientation.toList then .ok (draw true)
  else if ['h'] <+: orientation.toList then .ok (draw false)
  else .error .runtimeError

/-! ### figures -/

/-- What `_figax` asks matplotlib for. -/
structure FigCall where
  /-- `figsize`; `none` if the figure was given -/
  figsize : Option (ℝ × ℝ)
  rows : ℕ
  cols : ℕ
  hspace : ℝ
  wspace : ℝ
  /-- the settings of the grid lines, drawn in all panels (`none`: not drawn) -/
  grid : Option (List (String × String))

/-- The argument `grid`: `True`, `False` or `None`, or settings. -/
inductive GridArg where
  | true
  | off
  | settings (s : List (String × String))

/-- The argument `figsize`: a number or a pair. -/
inductive SizeArg where
  | num (x : ℝ)
  | pair (x y : ℝ)

/-- `plot.py:1969-2002` `_figax(size, fig, grid, hspace, wspace, figsize=...)`; the arguments that are passed on unchanged
(`left`, `bottom`, `right`, `top` and others) are left out. -/
noncomputable def figax (size : ℕ) (figGiven : Bool := false) (grid : GridArg := .true) (hspace wspace : Option ℝ := none)
    (figsize : Option SizeArg := none) : FigCall where
  figsize :=
    if figGiven then none
    else match figsize with
      | none => let s : ℝ := max 6 (min (4 * size) 20); some (s, s)
      | some (.num x) => some (x, x)
      | some (.pair x y) => some (x, y)
  rows := size
  cols := size
  hspace := hspace.getD (1 / 10)
  wspace := wspace.getD (1 / 10)
  grid :=
    match grid with
    | .true => some [("alpha", "0.2"), ("color", "0.5"), ("lw", "0.5")]
    | .off => none
    | .settings s => some s

end Kalepy
