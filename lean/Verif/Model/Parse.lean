import Mathlib.Analysis.SpecialFunctions.Pow.Real
import Mathlib.Analysis.SpecialFunctions.Log.Base
import Mathlib.Algebra.Order.Archimedean.Real.Basic
import Verif.Model.Kernels
import Verif.Model.Utils

/-!
# Model of argument parsing: `_check_reflect`, `_parse_extrema`, `parse_edges`
-/

namespace Kalepy

/-- Row `i` of the `(D, N)` data. -/
def dataRow {d : ℕ} (data : List (Fin d → ℝ)) (i : Fin d) : List ℝ := data.map fun x => x i

/-- `np.min` of a 1D array (raises `ValueError` if empty). -/
noncomputable def npMinR : List ℝ → Res ℝ
  | [] => .error .valueError
  | a :: l => .ok (npMin a l)

/-- `np.max` of a 1D array (raises `ValueError` if empty). -/
noncomputable def npMaxR : List ℝ → Res ℝ
  | [] => .error .valueError
  | a :: l => .ok (npMax a l)

/-! ### reflect -/

/-- One boundary as given by the user. -/
inductive RefVal where
  | none
  | true
  | num (x : ℝ)

/-- One row of a user-given `reflect`: `None`, `True`, a number (invalid), or a list of boundaries. -/
inductive RefDim where
  | none
  | true
  | num (x : ℝ)
  | seq (l : List RefVal)

/-- The `reflect` argument: `None`, `True`, `False` or a list of rows. -/
inductive Reflect where
  | none
  | true
  | false
  | rows (l : List RefDim)

/-- A row without `True`. -/
def RefVal.toOpt : RefVal → Option ℝ
  | .none => Option.none
  | .true => Option.none
  | .num x => some x

/-- `np.atleast_2d([v0, v1])` of two scalars: numpy converts to a common element type, so `True` next to
a number becomes `1.0`; next to `None` (object array) it stays; two `True` give a boolean array, whose
elements are not the singleton `True`. `none` marks that boolean array. -/
def coerce2 : RefVal → RefVal → Option (RefVal × RefVal)
  | .true, .true => Option.none
  | .true, .num x => some (.num 1, .num x)
  | .num x, .true => some (.num x, .num 1)
  | a, b => some (a, b)

/-- `kernels.py:713-714`: the row made of a length-2 `reflect` for one-dimensional data.  Two sequences
of the same length `k` give a `(2, k)` array and are rejected by the next check (`ValueError`);
sequences of different lengths or next to a scalar give a ragged array, not modelled.  A boolean array row is out of order (`True >= True`): `ValueError`. -/
def coerceRow (a b : RefDim) : Res RefDim :=
  let scal : RefDim → Option RefVal := fun r => match r with
    | .none => some .none
    | .true => some .true
    | .num x => some (.num x)
    | .seq _ => Option.none
  match scal a, scal b with
  | some u, some v =>
    match coerce2 u v with
    | some (u, v) => .ok (.seq [u, v])
    | Option.none => .error .valueError
  | _, _ =>
    match a, b with
    | .seq k, .seq l => if k.length = l.length then .error .valueError else .error .unmodelled
    | _, _ => .error .unmodelled

/-- `kernels.py:733-739`: a boundary given as `True` is replaced by the padded data extremum. -/
noncomputable def fillLo (row : List ℝ) : RefVal → Res (Option ℝ)
  | .none => .ok none
  | .num x => .ok (some x)
  | .true => (npMinR row).map fun m => some (m * (1 - numPad))

/-- See `fillLo`. -/
noncomputable def fillHi (row : List ℝ) : RefVal → Res (Option ℝ)
  | .none => .ok none
  | .num x => .ok (some x)
  | .true => (npMaxR row).map fun m => some (m * (1 + numPad))

/-- `kernels.py:741-743`: out-of-order boundaries. -/
noncomputable def orderedPair (p : Option ℝ × Option ℝ) : Res (Option ℝ × Option ℝ) :=
  match p with
  | (some a, some b) => if b ≤ a then .error .valueError else .ok p
  | _ => .ok p

/-- `kernels.py:732-743`: one dimension.  (The out-of-order test is only made if no value is `None`.) -/
noncomputable def checkDim (row : List ℝ) : RefDim → Res ReflRow
  | .none => .ok none
  | .num _ => .error .valueError
  | .true =>
    match fillLo row .true with
    | .error e => .error e
    | .ok lo =>
      match fillHi row .true with
      | .error e => .error e
      | .ok hi => (orderedPair (lo, hi)).map some
  | .seq [a, b] =>
    match fillLo row a with
    | .error e => .error e
    | .ok lo =>
      match fillHi row b with
      | .error e => .error e
      | .ok hi => (orderedPair (lo, hi)).map some
  | .seq _ => .error .valueError

/-- A row of valid form (`kernels.py:721-729`). -/
def RefDim.good : RefDim → Bool
  | .none => Bool.true
  | .true => Bool.true
  | .num _ => Bool.false
  | .seq l => l.length = 2

/-- `kernels.py:713-729`: the list of rows, one per dimension, all of valid form. -/
def reflectRows (d : ℕ) (l : List RefDim) : Res (List RefDim) :=
  let l? : Res (List RefDim) := match d, l with
    | 1, [a, b] => (coerceRow a b).map fun r => [r]
    | _, l => .ok l
  match l? with
  | .error e => .error e
  | .ok l =>
    if l.length ≠ d then .error .valueError
    else if ¬ l.all RefDim.good then .error .valueError
    else .ok l

/-- `kernels.py:732-743`, the loop over the dimensions, for the rows starting at dimension `k`. -/
noncomputable def checkDims {d : ℕ} (data : List (Fin d → ℝ)) : ℕ → List RefDim → Res (List ReflRow)
  | _, [] => .ok []
  | k, r :: l =>
    if h : k < d then
      match checkDim (dataRow data ⟨k, h⟩) r with
      | .error e => .error e
      | .ok r' =>
        match checkDims data (k + 1) l with
        | .error e => .error e
        | .ok l' => .ok (r' :: l')
    else .error .indexError

/-- `kernels.py:696-765` `_check_reflect` with `helper=False` (the default; no caller passes `True`). -/
noncomputable def checkReflect {d : ℕ} (data : List (Fin d → ℝ)) : Reflect → Res (Option (List ReflRow))
  | .none => .ok none
  | .false => .ok none
  | .true => (checkDims data 0 (List.replicate d .true)).map some
  | .rows l =>
    match reflectRows d l with
    | .error e => .error e
    | .ok l => (checkDims data 0 l).map some

/-- What the caller's own list looks like after a successful `_check_reflect` (`kernels.py:734,737,739`
assign into `reflect` and into its rows): the entries `True` have been replaced.  Not so if `reflect` is
not a list, or if it was converted into a new array (`kernels.py:713-714`). -/
noncomputable def reflectAfter {d : ℕ} (data : List (Fin d → ℝ)) (arg : Reflect) : Reflect :=
  match arg with
  | .rows l =>
    if d = 1 ∧ l.length = 2 then arg
    else
      match checkReflect data arg with
      | .ok (some r) => .rows (r.map fun o => match o with
          | Option.none => .none
          | some (lo, hi) => .seq [lo.elim RefVal.none RefVal.num, hi.elim RefVal.none RefVal.num])
      | _ => arg
  | _ => arg

/-- A checked row as an argument for a further check. -/
def ReflRow.toDim : ReflRow → RefDim
  | Option.none => .none
  | some (lo, hi) => .seq [lo.elim RefVal.none RefVal.num, hi.elim RefVal.none RefVal.num]

/-- A checked `reflect` as an argument. -/
def Reflect.ofChecked : Option (List ReflRow) → Reflect
  | Option.none => .none
  | some l => .rows (l.map ReflRow.toDim)

/-! ### extrema -/

/-- One element of the `extrema` argument. -/
inductive ExtElem where
  | none
  | num (x : ℝ)
  | seq (l : List (Option ℝ))

/-- Whether this element is a scalar for numpy. -/
def ExtElem.scalar : ExtElem → Bool
  | .seq _ => Bool.false
  | _ => Bool.true

/-- `utils.py:1255-1260`: fill in the `None` values of one dimension. -/
def fillExtrema (dat : ℝ × ℝ) (p : Option ℝ × Option ℝ) : ℝ × ℝ := (p.1.getD dat.1, p.2.getD dat.2)

/-- The scalar as a bound. -/
def ExtElem.bound : ExtElem → Option ℝ
  | .num x => some x
  | _ => Option.none

/-- A row of length 2, or `None`. -/
def ExtElem.pair : ExtElem → Option (Option ℝ × Option ℝ)
  | .none => some (Option.none, Option.none)
  | .seq [a, b] => some (a, b)
  | _ => Option.none

/-- `utils.py:1236-1272` for a given list and data extrema of the `d` dimensions (`warn` only logs).
* A flat list of two scalars is used for all dimensions.  The same list object is used for every
  dimension, so `None` values filled in for dimension 0 are kept for the others.
* A list with one entry per dimension, each a pair or `None`.  If all entries are `None` it is
  `really1d` and refused.
* A number among pairs fails in `len()`: `TypeError`. -/
def parseExtremaList {d : ℕ} (dat : Fin d → ℝ × ℝ) (l : List ExtElem) : Res (Fin d → ℝ × ℝ) :=
  if l.all ExtElem.scalar ∧ l.length = 2 then
    let p := (((l.getD 0 .none).bound), ((l.getD 1 .none).bound))
    if h : 0 < d then .ok fun _ => fillExtrema (dat ⟨0, h⟩) p
    else .ok fun i => dat i
  else if h : l.length = d then
    if l.all ExtElem.scalar then .error .valueError
    else if l.any (fun e => match e with | .num _ => Bool.true | _ => Bool.false) then .error .typeError
    else if l.all (fun e => e.pair.isSome) then
      .ok fun i => fillExtrema (dat i) (((l.get (Fin.cast h.symm i)).pair).getD (Option.none, Option.none))
    else .error .valueError
  else .error .valueError

/-- `utils.py:1203-1274` `_parse_extrema` without `params`: for data extrema `dat`. -/
def parseExtrema {d : ℕ} (dat : Fin d → ℝ × ℝ) : Option (List ExtElem) → Res (Fin d → ℝ × ℝ)
  | none => .ok dat
  | some l => parseExtremaList dat l

/-- `np.min`/`np.max` of every row (`utils.py:1228`; the data are finite).  Empty data are not modelled. -/
noncomputable def dataExtrema {d : ℕ} (data : List (Fin d → ℝ)) : Res (Fin d → ℝ × ℝ) :=
  match data with
  | [] => .error .unmodelled
  | x :: l => .ok fun i => (npMin (x i) (dataRow l i), npMax (x i) (dataRow l i))

/-- `utils.py:1203-1274` `_parse_extrema(data, extrema)` without `params`.  Given extrema are lists (a
tuple cannot be filled in). -/
noncomputable def parseExtremaOf {d : ℕ} (data : List (Fin d → ℝ)) (extrema : Option (List ExtElem)) :
    Res (Fin d → ℝ × ℝ) :=
  match dataExtrema data with
  | .error e => .error e
  | .ok dat => parseExtrema dat extrema

/-- A checked `reflect` as `extrema` argument (`kde.py:258-259`). -/
def ReflRow.toExt : ReflRow → ExtElem
  | Option.none => .none
  | some (lo, hi) => .seq [lo, hi]

/-! ### edges -/

/-- Specification of the edges of one dimension. -/
inductive EdgeSpec where
  | auto
  | int (n : ℤ)
  | flt (x : ℝ)
  | arr (l : List ℝ)
  | bad

/-- The `edges` argument: none, one number, one list of numbers, or a list of specifications. -/
inductive EdgeArg where
  | none
  | int (n : ℤ)
  | flt (x : ℝ)
  | list (l : List EdgeSpec)

/-- `np.linspace(a, b, n + 1)`. -/
noncomputable def npLinspace (a b : ℝ) (n : ℕ) : List ℝ :=
  if n = 0 then [a] else (List.range (n + 1)).map fun (k : ℕ) => a + k * ((b - a) / n)

/-- `np.allclose(data, data[0])`. -/
noncomputable def allClose (data : List ℝ) : Bool :=
  decide (∀ x ∈ data, |x - data.getD 0 0| ≤ 1 / 10 ^ 8 + 1 / 10 ^ 5 * |data.getD 0 0|)

/-- `utils.py:1079-1088`: number of effective points, without or with weights. A vanishing sum of
squares gives NaN: not modelled. -/
noncomputable def guessNeff (data : List ℝ) (weights : Option (List ℝ)) : Res ℝ :=
  match weights with
  | none => .ok data.length
  | some w =>
    if w.length ≠ data.length then .error .valueError
    else if (w.map (· ^ 2)).sum = 0 then .error .unmodelled
    else .ok (w.sum ^ 2 / (w.map (· ^ 2)).sum)

/-- `utils.py:1090-1093`. -/
noncomputable def reduceNeff (ndim : ℕ) (neff : ℝ) : ℝ :=
  if 100 < neff then max (neff / (ndim : ℝ) ^ 2) 100 else neff

/-- `utils.py:1105-1112`: the three candidate widths. -/
noncomputable def guessWidths (span iqr neff : ℝ) (bw : Option ℝ) : List ℝ :=
  [span / (Real.logb 2 neff + 1), 2 * iqr * neff ^ (-(1 : ℝ) / 3),
   match bw with | none => 0 | some b => b / Real.sqrt neff]

/-- `utils.py:1114-1126`: the smallest positive candidate, or a tiny width if all data are identical. -/
noncomputable def guessWidth (data widths : List ℝ) (refine : ℝ) : Res ℝ :=
  match widths.filter (0 < ·) with
  | a :: l => .ok (npMin a l / refine)
  | [] => if allClose data then .ok (1 / 10 ^ 16) else .error .valueError

/-- `utils.py:1128-1136`. -/
noncomputable def spanWidth (data : List ℝ) (span width : ℝ) : Res ℝ :=
  if 0 < span then .ok span
  else if allClose data then .ok (10 * width) else .error .valueError

/-- `utils.py:1078-1140` `_guess_edges` for finite extrema and finite data: number of bins and bin width.
`num_eff` not positive (empty data) is not modelled.  `refine = 0` and `num_eff = 1/2`, which needs negative weights, give
infinite widths in numpy: here division by zero gives zero, and the theorems assume `refine > 0` and weights that are not
negative. -/
noncomputable def guessEdges (srt : List ℝ → List ℕ) (data : List ℝ) (extrema : ℝ × ℝ)
    (weights : Option (List ℝ)) (ndim : ℕ) (nmin nmax : ℤ) (refine : ℝ) (bw : Option ℝ) : Res (ℤ × ℝ) :=
  match guessNeff data weights with
  | .error e => .error e
  | .ok neff =>
    if neff ≤ 0 then .error .unmodelled
    else
      match iqrange srt data weights with
      | .error e => .error e
      | .ok iqr =>
        match guessWidth data (guessWidths (extrema.2 - extrema.1) iqr (reduceNeff ndim neff) bw) refine with
        | .error e => .error e
        | .ok width =>
          match spanWidth data (extrema.2 - extrema.1) width with
          | .error e => .error e
          | .ok span => .ok (min (max ⌈span / width⌉ nmin) nmax, width)

/-- `utils.py:1033-1075` `_get_edges_1d`.  `np.linspace` refuses a non-integer number (`TypeError`) and a
negative one (`ValueError`); zero points (`num_bins = -1`) give an empty array. -/
noncomputable def getEdges1d (srt : List ℝ → List ℕ) (edges : EdgeSpec) (data : List ℝ) (extrema : ℝ × ℝ)
    (weights : Option (List ℝ)) (ndim : ℕ) (nmin nmax : ℤ) (pad refine : ℝ) (bw : Option ℝ) :
    Res (List ℝ) :=
  match edges with
  | .arr l => .ok l
  | .bad => .error .valueError
  | spec =>
    match guessEdges srt data extrema weights ndim nmin nmax refine bw with
    | .error e => .error e
    | .ok (n0, width) =>
      match (match spec with | .auto => some n0 | .int n => some n | _ => none) with
      | none => .error .typeError
      | some n =>
        if n + 1 < 0 then .error .valueError
        else if n + 1 = 0 then .ok []
        else .ok (npLinspace (extrema.1 - pad * width) (extrema.2 + pad * width) n.toNat)

/-- Whether this specification is a scalar for numpy. -/
def EdgeSpec.scalar : EdgeSpec → Bool
  | .auto => Bool.true
  | .int _ => Bool.true
  | .flt _ => Bool.true
  | _ => Bool.false

/-- The specification seen as one number of an explicit list of edges (`None` cannot be one: it stays in
the object array and breaks later, not modelled). -/
def EdgeSpec.asNum : EdgeSpec → Option ℝ
  | .int n => some (n : ℝ)
  | .flt x => some x
  | _ => none

/-- `utils.py:449-455`: one specification per dimension.  A flat list whose length is not the number of
dimensions is one explicit list of edges for all dimensions. -/
def edgeSpecs (d : ℕ) : EdgeArg → Res (List EdgeSpec)
  | .none => .ok (List.replicate d .auto)
  | .int n => .ok (List.replicate d (.int n))
  | .flt x => .ok (List.replicate d (.flt x))
  | .list l =>
    if l.all EdgeSpec.scalar ∧ l.length ≠ d then
      if l.all (fun e => e.asNum.isSome) then
        .ok (List.replicate d (.arr (l.map fun e => e.asNum.getD 0)))
      else .error .unmodelled
    else if l.length ≠ d then .error .valueError
    else .ok l

/-- `utils.py:429-466` `parse_edges` of `(D, N)` data without `params`.  Empty data are not modelled.
`pad = none` selects the default: 1 without given extrema, otherwise 0. -/
noncomputable def parseEdges {d : ℕ} (srt : List ℝ → List ℕ) (data : List (Fin d → ℝ)) (edges : EdgeArg)
    (extrema : Option (List ExtElem)) (weights : Option (List ℝ)) (nmin nmax : ℤ) (pad : Option ℝ)
    (refine : ℝ) (bw : Option (Matrix (Fin d) (Fin d) ℝ)) : Res (List (List ℝ)) :=
  match parseExtremaOf data extrema with
  | .error e => .error e
  | .ok ext =>
    match edgeSpecs d edges with
    | .error e => .error e
    | .ok specs =>
      match finSeq fun i : Fin d => getEdges1d srt (specs.getD i .auto) (dataRow data i) (ext i) weights d
          nmin nmax (pad.getD (if extrema.isNone then 1 else 0)) refine (bw.map fun b => b i i) with
      | .error e => .error e
      | .ok f => .ok (List.ofFn f)

end Kalepy
