import Verif.Model.Corner

/-!
# Corner plots: the object given as limits

`Corner` keeps the object that is passed as `limits` (`plot.py:248-261`) and writes new limits into it (`plot.py:566-567, 693-694`).
-/

namespace Kalepy

/-- An object holding one pair of limits per parameter: a list (of `None`s, if `Corner` has made it), an array of
floats or integers, or a tuple. -/
inductive LimitsObj (n : ℕ) where
  | list (l : Fin n → Option (ℝ × ℝ))
  | array (dt : DType) (l : Fin n → ℝ × ℝ)
  | tuple (l : Fin n → ℝ × ℝ)

variable {n : ℕ}

/-- The pairs in the object. -/
def LimitsObj.value : LimitsObj n → Fin n → Option (ℝ × ℝ)
  | .list l => l
  | .array _ l => fun i => some (l i)
  | .tuple l => fun i => some (l i)

/-- `self._limits[ii] = ...` for all `ii` (`plot.py:566-567, 693-694`): tuples cannot be changed (`TypeError`, unless there is no parameter),
arrays of integers round towards zero. -/
noncomputable def LimitsObj.assign : LimitsObj n → (Fin n → ℝ × ℝ) → Res (LimitsObj n)
  | .list _, l => .ok (.list fun i => some (l i))
  | .array dt _, l => .ok (.array dt fun i => (dt.store (l i).1, dt.store (l i).2))
  | .tuple v, _ => if n = 0 then .ok (.tuple v) else .error .typeError

/-- A `Corner` instance (`plot.py:257-264`): `limits` is the address of `_limits`. -/
structure CornerObj (n : ℕ) where
  limits : ℕ
  auto : Bool
  rotate : Bool
  axes : Fin n → Fin n → Panel

/-- The objects of a program: those that hold limits, by address, and the corner plots, by number.  The ones from the counters on do not exist
yet. -/
structure CornerWorld (n : ℕ) where
  objs : ℕ → LimitsObj n
  numObjs : ℕ
  corners : ℕ → CornerObj n
  numCorners : ℕ

/-- The beginning of a program. -/
def CornerWorld.start (n : ℕ) : CornerWorld n :=
  ⟨fun _ => .list fun _ => none, 0, fun _ => ⟨0, true, true, (Corner.new none true).axes⟩, 0⟩

/-- What a program does: make an object with limits; construct a `Corner`, without limits or with those at an address; call a plotting method of
a `Corner`. -/
inductive CornerOp (n : ℕ) where
  | limits (o : LimitsObj n)
  | corner (limits : Option ℕ) (rotate : Bool)
  | plot (c : ℕ) (p : CornerCall n)

/-- A new object. -/
def CornerWorld.newObj (w : CornerWorld n) (o : LimitsObj n) : CornerWorld n :=
  { w with
    objs := Function.update w.objs w.numObjs o
    numObjs := w.numObjs + 1 }

/-- A new corner plot, whose limits are at the address `a`; the values of the limits, if given, are those of `given`. -/
def CornerWorld.newCorner (w : CornerWorld n) (a : ℕ) (given : Option (Fin n → ℝ × ℝ)) (rotate : Bool) : CornerWorld n :=
  { w with
    corners := Function.update w.corners w.numCorners ⟨a, given.isNone, rotate, (Corner.new given rotate).axes⟩
    numCorners := w.numCorners + 1 }

open Classical in
/-- One step of a program: `plot.py:248-264` for a constructor (limits with `None` for a parameter are not modelled), `plot.py:564-570, 691-697`
for a plotting method.  Objects that do not exist are not modelled. -/
noncomputable def CornerWorld.step (w : CornerWorld n) : CornerOp n → Res (CornerWorld n)
  | .limits o => .ok (w.newObj o)
  | .corner none rotate => .ok ((w.newObj (.list fun _ => none)).newCorner w.numObjs none rotate)
  | .corner (some a) rotate =>
    if h : a < w.numObjs ∧ ∀ i, ((w.objs a).value i).isSome = true then
      .ok (w.newCorner a (some fun i => ((w.objs a).value i).get (h.2 i)) rotate)
    else .error .unmodelled
  | .plot c p =>
    if c < w.numCorners then
      let k := w.corners c
      if p.limit.getD k.auto then
        match finSeq fun i => cornerLimit (p.dt i) (p.vals i) ((w.objs k.limits).value i) with
        | .error e => .error e
        | .ok l =>
          match (w.objs k.limits).assign l with
          | .error e => .error e
          | .ok o =>
            .ok { w with
              objs := Function.update w.objs k.limits o
              corners := Function.update w.corners c
                { k with axes := setExtrema k.rotate (fun i => (o.value i).getD (0, 0)) k.axes } }
      else .ok w
    else .error .unmodelled

/-- A program. -/
noncomputable def CornerWorld.run (w : CornerWorld n) : List (CornerOp n) → Res (CornerWorld n)
  | [] => .ok w
  | o :: os =>
    match w.step o with
    | .error e => .error e
    | .ok w' => w'.run os

end Kalepy
