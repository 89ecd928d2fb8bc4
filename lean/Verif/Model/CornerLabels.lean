import Verif.Model.Corner

/-!
# Corner plots: labels and ticks of the panels
-/

namespace Kalepy

/-- A side of a panel. -/
inductive PanelSide where
  | top
  | bottom
  | left
  | right
  deriving DecidableEq

/-- What `Corner.__init__` sets in the axes of one panel: the labels, the sides at which labels and ticks are drawn, and the
positions of the ticks (`none`: chosen by matplotlib).  The values here are those of a new panel of matplotlib.  Whether
numbers are written at the ticks is not modelled. -/
structure PanelText where
  visible : Bool := true
  xlabel : String := ""
  ylabel : String := ""
  xside : PanelSide := .bottom
  yside : PanelSide := .left
  xticks : Option (List ℝ) := none
  yticks : Option (List ℝ) := none

/-- `l[k]` of a list: `IndexError` if there is no such element. -/
def pyItem {α : Type*} (l : List α) (k : ℕ) : Res α :=
  match l[k]? with
  | some x => .ok x
  | none => .error .indexError

/-- `plot.py:187-203`, the row of the panel: only the last row gets labels below (above) it. -/
def rowText {n : ℕ} (origin : Bool × Bool) (rotate : Bool) (labels : List String) (ii jj : Fin n) (p : PanelText) : Res PanelText :=
  if (ii : ℕ) = n - 1 then
    match pyItem labels jj with
    | .error e => .error e
    | .ok l =>
      let p := if rotate && decide ((jj : ℕ) = n - 1) then { p with ylabel := l } else { p with xlabel := l }
      .ok (if origin.1 then { p with xside := .top } else p)
  else .ok { p with xlabel := "" }

/-- `plot.py:205-221`, the column of the panel: only the first column gets labels beside it. -/
def columnText {n : ℕ} (origin : Bool × Bool) (labels : List String) (ii jj : Fin n) (p : PanelText) : Res PanelText :=
  if (jj : ℕ) = 0 then
    match (if (ii : ℕ) ≠ 0 then (pyItem labels ii).map fun l => { p with ylabel := l } else .ok p) with
    | .error e => .error e
    | .ok p => .ok (if origin.2 then { p with yside := .right } else p)
  else .ok { p with ylabel := "" }

/-- `plot.py:223-245`, the side of the ordinates on the diagonal, and the ticks. -/
def tickText {n : ℕ} (origin : Bool × Bool) (rotate : Bool) (ticks : List (Option (List ℝ))) (ii jj : Fin n) (p : PanelText) :
    Res PanelText :=
  if ii = jj then
    let p := if (ii : ℕ) ≠ 0 && !origin.2 then { p with yside := .right } else { p with yside := .left }
    match pyItem ticks jj with
    | .error e => .error e
    | .ok t =>
      .ok (match t with
        | none => p
        | some t => if (ii : ℕ) = n - 1 && rotate then { p with yticks := some t } else { p with xticks := some t })
  else
    match pyItem ticks jj, pyItem ticks ii with
    | .ok tx, .ok ty =>
      let p := match tx with | none => p | some t => { p with xticks := some t }
      .ok (match ty with | none => p | some t => { p with yticks := some t })
    | .error e, _ => .error e
    | _, .error e => .error e

/-- `plot.py:179-245` in `Corner.__init__`: one panel of the figure made by `_figax`. -/
def panelText {n : ℕ} (origin : Bool × Bool) (rotate : Bool) (labels : List String) (ticks : List (Option (List ℝ))) (ii jj : Fin n) :
    Res PanelText :=
  if ii < jj then .ok { visible := false }
  else
    match rowText origin rotate labels ii jj {} with
    | .error e => .error e
    | .ok p =>
      match columnText origin labels ii jj p with
      | .error e => .error e
      | .ok p => tickText origin rotate ticks ii jj p

/-- `plot.py:173-245` in `Corner.__init__(kde_data, origin, rotate, labels=labels, ticks=ticks)` with `n` parameters and without given axes: all
panels. -/
def cornerText (n : ℕ) (origin : Bool × Bool) (rotate : Bool) (labels : Option (List String)) (ticks : Option (List (Option (List ℝ)))) :
    Res (Fin n → Fin n → PanelText) :=
  let labels := labels.getD (List.replicate n "")
  let ticks := ticks.getD (List.replicate n none)
  finSeq fun ii => finSeq fun jj => panelText origin rotate labels ticks ii jj

end Kalepy
