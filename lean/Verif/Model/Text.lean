import Verif.Model.Utils

/-!
# Textual summaries of arrays
-/

namespace Kalepy

/-- Python slice `l[:n]`. -/
def pySliceTo {α : Type*} (l : List α) (n : ℤ) : List α :=
  if 0 ≤ n then l.take n.toNat else l.take (l.length - (-n).toNat)

/-- Python slice `l[n:]`. -/
def pySliceFrom {α : Type*} (l : List α) (n : ℤ) : List α :=
  if 0 ≤ n then l.drop n.toNat else l.drop (l.length - (-n).toNat)

/-- `utils.py:28-49` `array_str(data, num, format)`; `fmt` is the formatting of one element with `format`.  Elements
that cannot be formatted (`TypeError`) are not modelled. -/
def arrayStr {α : Type*} (fmt : α → String) (data : List α) (num : Option ℤ := some 3) : String :=
  let astr (vals : List α) : String := ", ".intercalate (vals.map fmt)
  let rv :=
    match num with
    | none => astr data
    | some n =>
      if (data.length : ℤ) ≤ 2 * n then astr data
      else astr (pySliceTo data n) ++ " ... " ++ astr (pySliceFrom data (-n))
  "[" ++ rv ++ "]"

/-- Number formats of `stats_str`: `":"`, `":d"`, `":.<prec>f"`, `":.<prec>e"`. -/
inductive NumFormat where
  | bare
  | int
  | fixed (prec : ℕ)
  | exp (prec : ℕ)
  deriving DecidableEq

open Classical in
/-- `utils.py:1143-1164` `_guess_str_format_from_range(arr, prec, log_limit, allow_int)` for numeric arrays.  Without
nonzero elements `minmax` gives `None` and `np.fabs` raises the `TypeError` that is caught. -/
noncomputable def guessFormat (dt : DType) (data : List ℝ) (prec : ℕ := 2) (logLimit : ℝ := 2)
    (allowInt : Bool := true) : NumFormat :=
  match minmax dt (data.filter (· ≠ 0)) with
  | .ok (some (some lo, some hi)) =>
    if (Real.logb 10 |lo| < -logLimit ∨ Real.logb 10 |hi| < -logLimit) ∨
        (Real.logb 10 |lo| > logLimit ∨ Real.logb 10 |hi| > logLimit) then .exp prec
    else if dt = .int ∧ allowInt then .int
    else .fixed prec
  | _ => .bare

/-- What `stats_str` shows: the format of the numbers, average, standard deviation, quantiles with their fractions,
and whether the label for logarithms is added. -/
structure StatsText where
  format : NumFormat
  ave : Option ℝ
  std : Option ℝ
  tiles : Option (List ℝ × List ℝ)
  label : Bool

/-- `np.average(data)` without weights. -/
noncomputable def npAverage (data : List ℝ) : ℝ := data.sum / data.length

/-- `np.std(data)`. -/
noncomputable def npStd (data : List ℝ) : ℝ :=
  Real.sqrt ((data.map fun x => (x - npAverage data) ^ 2).sum / data.length)

/-- `utils.py:720-790` `stats_str(data, percs, ave, std, weights, format, log, label_log)` up to the formatting;
`percs = none` is the argument `None`, which `np.atleast_1d` turns into an array of length one whose comparison with
`0.0` raises `TypeError`.  `log10` of nonpositive data, and averages of empty data (NaN), are not modelled. -/
noncomputable def statsText (srt : List ℝ → List ℕ) (dt : DType) (data : List ℝ)
    (percs : Option (List ℝ) := some [0, 16 / 100, 1 / 2, 84 / 100, 1]) (ave std : Bool := false)
    (weights : Option (List ℝ) := none) (format : Option NumFormat := none) (log : Bool := false) (labelLog : Bool := true) :
    Res StatsText :=
  open Classical in
  if log = true ∧ ¬ ∀ x ∈ data, 0 < x then .error .unmodelled
  else
    let data' := if log then data.map (Real.logb 10) else data
    let dt' := if log then DType.float else dt
    let format := format.getD (guessFormat dt' data' 2 2 (!(ave || std)))
    match percs with
    | none => .error .typeError
    | some percs =>
      if percs = [] then
        if data' = [] ∧ (ave || std) = true then .error .unmodelled
        else .ok ⟨format, if ave then some (npAverage data') else none, if std then some (npStd data') else none,
          none, log && labelLog⟩
      else
        match quantiles srt data' percs weights with
        | .error e => .error e
        | .ok tiles => .ok ⟨format, if ave then some (npAverage data') else none,
          if std then some (npStd data') else none, some (tiles.map dt'.store, percs), log && labelLog⟩

/-- `utils.py:756-790`: the text; `fmt` formats a number, `pct` is `"{:.0f}%".format(100*pp)`. -/
def StatsText.render (fmt : NumFormat → ℝ → String) (pct : ℝ → String) (t : StatsText) : String :=
  let out := ""
  let out := match t.ave with
    | none => out
    | some a => out ++ ("ave = " ++ fmt t.format a) ++ (if t.std.isSome || t.tiles.isSome then ", " else "")
  let out := match t.std with
    | none => out
    | some s => out ++ ("std = " ++ fmt t.format s) ++ (if t.tiles.isSome then ", " else "")
  let out := match t.tiles with
    | none => out
    | some (q, p) => out ++ ("(" ++ ", ".intercalate (q.map (fmt t.format)) ++ ")") ++
        (", for (" ++ ", ".intercalate (p.map pct) ++ ")")
  if t.label then out ++ " (log values)" else out

/-- `utils.py:702-717` `stats(data, shape, sample, stats)` of a 1D array; `sample = none` is `None` or `False`.  `shp` is
`str(np.shape(data))`, `summary` the result of `stats_str(data)`. -/
def statsAll {α : Type*} (fmt : α → String) (shp : String) (summary : Res String) (data : List α) (shape : Bool := true)
    (sample : Option ℤ := some 3) (stats : Bool := true) : Res String :=
  if shape = false ∧ sample = none ∧ stats = false then .error .valueError
  else
    let rv := if shape then shp else ""
    let rv := match sample with
      | none => rv
      | some n => rv ++ " - " ++ arrayStr fmt data (some n)
    if stats then
      match summary with
      | .error e => .error e
      | .ok s => .ok (rv ++ " - " ++ s)
    else .ok rv

end Kalepy
