import Verif.Model.Corner

/-!
# The legend of a corner plot; code run depending on the environment
-/

namespace Kalepy

/-! ### legend -/

/-- The position arguments with which `Corner.legend` calls `fig.legend` (`plot.py:784-785`); `none` means that the
argument is `None` or not passed. -/
structure LegendCall (A T : Type*) where
  loc : Option String
  anchor : Option A
  transform : Option T

/-- `plot.py:751-786` `Corner.legend(handles, labels, index, loc, bbox=..., bbox_to_anchor=..., bbox_transform=...)`
as far as the position is concerned.  `corner (i, j)` is the lower left corner of the position of panel `(i, j)`,
`fig` is `fig.transFigure`.  `none` are arguments that are not given. -/
def cornerLegend {A T : Type*} (size : ℕ) (corner : ℕ → ℕ → A) (fig : T) (index : Option (ℤ × ℤ) := none)
    (loc : Option String := none) (bbox bboxToAnchor : Option A := none) (transform : Option T := none) :
    Res (LegendCall A T) :=
  match bboxToAnchor.or bbox with
  | some _ => .ok ⟨loc, none, transform⟩
  | none =>
    let il : (ℤ × ℤ) × Option String :=
      match index with
      | some i => (i, loc)
      | none => (legendIndex size, some (if size = 1 then "upper right" else "lower left"))
    match npIndex size il.1.1, npIndex size il.1.2 with
    | .ok i, .ok j => .ok ⟨il.2, some (corner i j), some (transform.getD fig)⟩
    | .error e, _ => .error e
    | _, .error e => .error e

/-! ### environment -/

/-- Python `a in b` for strings. -/
def pyIn (a b : String) : Bool := decide (a.toList <:+: b.toList)

/-- Python `b.startswith(a)`. -/
def pyStartsWith (a b : String) : Bool := decide (a.toList <+: b.toList)

/-- `utils.py:1179-1190` `_python_environment()`: `ipy` is the lower-case name of the type of `get_ipython()`, `none` if
there is no such function (`NameError`).  The function falls off its end, returning `None`, for other shells. -/
def pythonEnvironment (ipy : Option String) : Option String :=
  match ipy with
  | none => some "script"
  | some s => if pyIn "zmqshell" s then some "notebook" else if pyIn "terminal" s then some "ipython" else none

/-- `utils.py:652-659` `run_if(func, target, otherwise=otherwise)`; the results are those of the calls, `none` is `None`.
`None` has no attribute `startswith`. -/
def runIf {R : Type*} (ipy : Option String) (func : Res (Option R)) (target : String)
    (otherwise : Option (Res (Option R)) := none) : Res (Option R) :=
  match pythonEnvironment ipy with
  | none => .error .attributeError
  | some env =>
    if pyStartsWith target env then func
    else match otherwise with
      | some g => g
      | none => .ok none

/-- `utils.py:662-664` `run_if_notebook`. -/
def runIfNotebook {R : Type*} (ipy : Option String) (func : Res (Option R)) (otherwise : Option (Res (Option R)) := none) :
    Res (Option R) := runIf ipy func "notebook" otherwise

/-- `utils.py:667-669` `run_if_script`. -/
def runIfScript {R : Type*} (ipy : Option String) (func : Res (Option R)) (otherwise : Option (Res (Option R)) := none) :
    Res (Option R) := runIf ipy func "script" otherwise

/-- `plot.py:2277-2278` `nbshow()`: `show` and `close` are `plt.show()` and `plt.close('all')`. -/
def nbshow {R : Type*} (ipy : Option String) (show' close : Res (Option R)) : Res (Option R) :=
  runIfNotebook ipy show' (some close)

end Kalepy
