import Verif.Model.Corner

/-!
# The dictionaries of plot options of corner plots

Dictionaries are objects: `setdefault` changes the one it is called on, and callers may pass the same one to several
calls.  Each dictionary has a name (`DictRef`), and `KwMem` holds the contents of all of them.
-/

namespace Kalepy

/-- `plot.py:268, 316, 364, 449, 574`: the methods of `Corner` with `dist1d={}, dist2d={}`. -/
inductive OptMethod where
  | clean
  | hist
  | plot
  | plotKde
  | plotData
  deriving DecidableEq

/-- A dictionary: the default value of an argument of a method (created once, `two` tells `dist2d` from `dist1d`), or one
of the caller's. -/
inductive DictRef where
  | default (m : OptMethod) (two : Bool)
  | user (a : ℕ)
  deriving DecidableEq

variable {V : Type*}

/-- The contents of all dictionaries. -/
abbrev KwMem (V : Type*) := DictRef → KwDict V

/-- A call: the method, the arguments `quantiles` and `ls` (`plot.py:364` `plot` has no `ls`: it uses the `'-'` of
`plot_kde`; `hist` and `plot_data` have none either), and the dictionaries, if given. -/
structure OptCall (V : Type*) where
  method : OptMethod
  quantiles : V
  ls : V
  dist1d : Option ℕ
  dist2d : Option ℕ

/-- The dictionary `dist1d` of the call. -/
def OptCall.ref1 (c : OptCall V) : DictRef :=
  match c.dist1d with
  | some a => .user a
  | none => .default c.method false

/-- The dictionary `dist2d` of the call. -/
def OptCall.ref2 (c : OptCall V) : DictRef :=
  match c.dist2d with
  | some a => .user a
  | none => .default c.method true

/-- `d.setdefault(k, v)` for the dictionary `op.1`. -/
def KwMem.setdefault (m : KwMem V) (op : DictRef × String × V) : KwMem V :=
  Function.update m op.1 ((m op.1).setdefault op.2.1 op.2.2)

/-- The `setdefault` calls of a method on its dictionaries, in order: `plot.py:300-310` (`clean`), `348-358` (`hist`),
`431-440` (`plot`), and `532-535` (`plot_kde`, to which `clean` and `plot` pass their dictionaries).  `plot_data` has
none. -/
def OptCall.ops (yes no : V) (c : OptCall V) : List (DictRef × String × V) :=
  let kde := [(c.ref1, "quantiles", c.quantiles), (c.ref2, "quantiles", c.quantiles), (c.ref1, "ls", c.ls),
    (c.ref2, "ls", c.ls)]
  match c.method with
  | .clean =>
    [(c.ref1, "density", yes), (c.ref1, "confidence", no), (c.ref1, "carpet", no), (c.ref1, "hist", no),
      (c.ref2, "hist", no), (c.ref2, "contour", yes), (c.ref2, "scatter", no), (c.ref2, "mask_dense", no),
      (c.ref2, "mask_below", no)] ++ kde
  | .hist =>
    [(c.ref1, "density", no), (c.ref1, "confidence", no), (c.ref1, "carpet", no), (c.ref1, "hist", yes),
      (c.ref2, "hist", yes), (c.ref2, "contour", no), (c.ref2, "scatter", no), (c.ref2, "mask_dense", no),
      (c.ref2, "mask_below", no)]
  | .plot =>
    [(c.ref1, "density", yes), (c.ref1, "confidence", yes), (c.ref1, "carpet", yes), (c.ref1, "hist", no),
      (c.ref2, "hist", yes), (c.ref2, "scatter", yes), (c.ref2, "contour", yes), (c.ref2, "mask_below", yes)] ++ kde
  | .plotKde => kde
  | .plotData => []

/-- Whether the panels are drawn by `plot_data` (`plot.py:361, 574`). -/
def OptMethod.ofData : OptMethod → Bool
  | .hist | .plotData => true
  | _ => false

/-- The keys that must not be in `dist1d`, since the method passes arguments of these names itself: `plot.py:548-551, 726-736`
for a KDE and `plot.py:675-678, 701-711` for data (`self` and the positional arguments included). -/
def reserved1 (ofData : Bool) : List String :=
  if ofData then ["self", "ax", "edge", "data", "weights", "quantiles", "rotate", "color", "edges", "kde_data"]
  else ["self", "ax", "edge", "kde", "param", "rotate", "color", "edges", "kde_data"]

/-- The keys that may be in `dist2d`: the parameters of `dist2d` (`plot.py:1371-1373`, which takes no others), except for those
that the method passes itself (`plot.py:558-561, 738-748` for a KDE, `plot.py:685-688, 713-724` for data). -/
def accepted2 (ofData : Bool) : List String :=
  (if ofData then ["params"] else ["weights", "quantiles"]) ++
    ["sigmas", "smooth", "upsample", "pad", "ls", "outline", "median", "scatter", "contour", "hist", "mask_dense",
      "mask_below", "mask_alpha"]

/-- The options with which the panels are drawn: `dist1d` for those on the diagonal, `dist2d` for those below. -/
abbrev Options (V : Type*) := KwDict V × KwDict V

/-- `plot.py:701-748`: the defaults set on copies of the dictionaries (`**dist1d`, `**dist2d`), and the `quantiles` that
`plot_data` passes on (`plot.py:665, 676, 687`; `dq` is `_default_quantiles`). -/
def OptCall.options (yes no : V) (dq : V → V) (c : OptCall V) (d1 d2 : KwDict V) : Options V :=
  if c.method.ofData then
    ((((((d1.setdefault "density" no).setdefault "confidence" no).setdefault "carpet" yes).setdefault "hist" yes)).setdefault
        "quantiles" (dq c.quantiles),
      ((((((d2.setdefault "hist" yes).setdefault "contour" no).setdefault "scatter" yes).setdefault "mask_dense"
        yes).setdefault "mask_below" yes)).setdefault "quantiles" (dq c.quantiles))
  else
    ((((d1.setdefault "density" yes).setdefault "confidence" yes).setdefault "carpet" no).setdefault "hist" no,
      (((d2.setdefault "hist" no).setdefault "contour" yes).setdefault "scatter" no).setdefault "mask_below" yes)

open Classical in
/-- The options with which a call draws on a figure with at least two parameters, from the contents of its dictionaries:
`TypeError` for keys that collide with other arguments or that `dist2d` does not know.  What `dist1d` does with further
keys is not modelled. -/
noncomputable def OptCall.outcome (yes no : V) (dq : V → V) (c : OptCall V) (d1 d2 : KwDict V) : Res (Options V) :=
  if ∃ k ∈ reserved1 c.method.ofData, d1 k ≠ none then .error .typeError
  else if ∃ k, k ∉ accepted2 c.method.ofData ∧ d2 k ≠ none then .error .typeError
  else .ok (c.options yes no dq d1 d2)

/-- A call: its outcome, and the dictionaries afterwards. -/
noncomputable def OptCall.run (yes no : V) (dq : V → V) (m : KwMem V) (c : OptCall V) : Res (Options V) × KwMem V :=
  let m' := (c.ops yes no).foldl KwMem.setdefault m
  (c.outcome yes no dq (m' c.ref1) (m' c.ref2), m')

/-- A program: the outcomes of its calls, in order. -/
noncomputable def optProgram (yes no : V) (dq : V → V) : KwMem V → List (OptCall V) → List (Res (Options V))
  | _, [] => []
  | m, c :: cs => (c.run yes no dq m).1 :: optProgram yes no dq (c.run yes no dq m).2 cs

end Kalepy
