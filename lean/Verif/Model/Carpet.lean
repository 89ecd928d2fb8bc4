import Mathlib.Analysis.SpecialFunctions.Log.Base
import Verif.Model.Plot

/-!
# Model of `carpet` in `kalepy/plot.py`
-/

namespace Kalepy

/-- `np.median`: the middle value of the sorted list, or the mean of the two middle ones.  No values give
NaN: not modelled. -/
noncomputable def npMedian (l : List ℝ) : Res ℝ :=
  if l = [] then .error .unmodelled
  else .ok (((npSort l).getD ((l.length - 1) / 2) 0 + (npSort l).getD (l.length / 2) 0) / 2)

/-- The `random` argument. -/
inductive FuzzKind where
  | normal
  | uniform
  | other

/-- Arguments of `carpet`. `ystd = none` and `yave = none` stand for `None`; `shift = None` is 0. -/
structure CarpetArgs where
  ystd : Option ℝ := none
  yave : Option ℝ := none
  shift : ℝ := 0
  limit : ScatterLimit := .none
  random : FuzzKind := .normal
  rotate : Bool := false

/-- One point of `ax.scatter`: position and size. -/
structure Marker where
  x : ℝ
  y : ℝ
  size : ℝ

/-- `plot.py:988-998`: dispersion and baseline of the ordinates; `top` is the upper limit of the ordinate's
axis (`ax.get_ylim()[1]`, with `rotate` `ax.get_xlim()[1]`). -/
noncomputable def carpetScale (a : CarpetArgs) (top : ℝ) : ℝ × ℝ :=
  let ystd := a.ystd.getD (match a.yave with
    | none => top * (1 / 50)
    | some y => |y| / 5)
  (ystd, a.yave.getD (-5 * ystd))

/-- `plot.py:1000-1006`: the relative weights (`none`: the scalar 1).  `np.log10` of weights that are not
positive gives NaN or infinities, a vanishing median a division by zero: not modelled. -/
noncomputable def carpetWeights (srt : List ℝ → List ℕ) : Option (List ℝ) → Res (Option (List ℝ))
  | none => .ok none
  | some w =>
    if ∀ x ∈ w, 0 < x then
      match iqrange srt (w.map (Real.logb 10)) with
      | .error e => .error e
      | .ok iqr =>
        let v := if 1 < iqr then w.map (Real.logb 10) else w
        match npMedian v with
        | .error e => .error e
        | .ok m => if m = 0 then .error .unmodelled else .ok (some (v.map (· / m)))
    else .error .unmodelled

/-- `plot.py:1008-1014`: the ordinates; `fuzz` are the standard normal or the uniform (on [0, 1)) random numbers.
`np.random.normal` refuses a negative scale. -/
noncomputable def carpetOrdinates (kind : FuzzKind) (ystd yave : ℝ) (fuzz : ℕ → ℝ) (n : ℕ) : Res (List ℝ) :=
  match kind with
  | .normal =>
    if ystd < 0 then .error .valueError
    else .ok ((List.range n).map fun k => yave + ystd * fuzz k)
  | .uniform => .ok ((List.range n).map fun k => (yave - ystd) + ((yave + ystd) - (yave - ystd)) * fuzz k)
  | .other => .error .valueError

/-- `plot.py:1022-1024`: size of a point with relative weight `w` among `n` points. -/
noncomputable def carpetSize (n : ℕ) (w : ℝ) : ℝ := min (max (300 * w / Real.sqrt n) 5) 100

/-- `plot.py:977-983`: the data and weights that are kept; `sel` is the result of `np.random.choice(size,
limit, replace=False)`. Weights are an array; too few weights raise `IndexError`. -/
def carpetSelect (xs : List ℝ) (weights : Option (List ℝ)) (limit : ScatterLimit) (sel : ℕ → ℕ → List ℕ) :
    Res (List ℝ × Option (List ℝ)) :=
  match limit with
  | .num n =>
    if n < xs.length then
      match weights with
      | none => .ok ((sel xs.length n).filterMap fun i => xs[i]?, none)
      | some w =>
        if ∀ i ∈ sel xs.length n, i < w.length then
          .ok ((sel xs.length n).filterMap fun i => xs[i]?, some ((sel xs.length n).filterMap fun i => w[i]?))
        else .error .indexError
    else .ok (xs, weights)
  | _ => .ok (xs, weights)

/-- `plot.py:977-1058` `carpet` with `fancy=False`: the points passed to `ax.scatter` and the range of the
ordinates before the shift.  Sizes of another number than the positions are refused by `ax.scatter`.  No
data at all is not modelled. -/
noncomputable def carpet (srt : List ℝ → List ℕ) (sel : ℕ → ℕ → List ℕ) (fuzz : ℕ → ℝ) (xs : List ℝ)
    (weights : Option (List ℝ)) (top : ℝ) (a : CarpetArgs) : Res (List Marker × ℝ × ℝ) :=
  match carpetSelect xs weights a.limit sel with
  | .error e => .error e
  | .ok (xs, weights) =>
    match carpetWeights srt weights with
    | .error e => .error e
    | .ok ww =>
      match carpetOrdinates a.random (carpetScale a top).1 (carpetScale a top).2 fuzz xs.length with
      | .error e => .error e
      | .ok [] => .error .unmodelled
      | .ok (y :: ys) =>
        let sizes := (ww.getD (xs.map fun _ => 1)).map (carpetSize xs.length)
        if sizes.length ≠ xs.length then .error .valueError
        else
          .ok ((xs.zip ((y :: ys).zip sizes)).map (fun p =>
              if a.rotate then ⟨p.2.1 + a.shift, p.1, p.2.2⟩ else ⟨p.1, p.2.1 + a.shift, p.2.2⟩),
            npMin y ys, npMax y ys)

end Kalepy
