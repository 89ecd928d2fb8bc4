import Verif.Model.Parse
import Verif.Model.Rounded

/-!
# Quantiles and automatic edges, in rounded arithmetic

As in `Verif.Model.Rounded`, every operation is followed by a rounding `fl : ℝ → ℝ`, in the order of the code.
-/

namespace Kalepy

/-- `np.sum`, from the left.  (numpy takes the terms of arrays of eight or more elements in another order.) -/
def sumFl (fl : ℝ → ℝ) (l : List ℝ) : ℝ := (cumsumFrom fl 0 l).getLastD 0

/-- `np.interp(x, xp, fp)` for nondecreasing `xp`: `slope * (x - xp[j]) + fp[j]` with
`slope = (fp[j+1] - fp[j]) / (xp[j+1] - xp[j])`. -/
noncomputable def npInterpFl (fl : ℝ → ℝ) (x : ℝ) (xp fp : List ℝ) : ℝ :=
  match searchRight xp x with
  | 0 => fp.getD 0 0
  | j + 1 =>
    if j + 1 = xp.length then fp.getD j 0
    else if xp.getD j 0 = x then fp.getD j 0
    else
      let slope := fl (fl (fp.getD (j + 1) 0 - fp.getD j 0) / fl (xp.getD (j + 1) 0 - xp.getD j 0))
      fl (fl (slope * fl (x - xp.getD j 0)) + fp.getD j 0)

/-- `utils.py:522-523`: `(np.cumsum(weights) - 0.5 * weights) / np.sum(weights)`. -/
noncomputable def quantileGridFl (fl : ℝ → ℝ) (weights : List ℝ) : List ℝ :=
  List.zipWith (fun c w => fl (fl (c - fl (1 / 2 * w)) / sumFl fl weights)) (cumsumFrom fl 0 weights) weights

/-- `utils.py:477-533` `quantiles(values, percs, weights)` with `axis=None` (`quantiles` with rounding). -/
noncomputable def quantilesFl (fl : ℝ → ℝ) (srt : List ℝ → List ℕ) (values : List ℝ) (percs : List ℝ)
    (weights : Option (List ℝ)) : Res (List ℝ) :=
  let weights := weights.getD (values.map fun _ => 1)
  if ¬ ∀ p ∈ percs, 0 ≤ p ∧ p ≤ 1 then .error .assertionError
  else
    let sorter := srt values
    if ¬ ∀ i ∈ sorter, i < weights.length then .error .indexError
    else
      let vs := sorter.map fun i => values.getD i 0
      let ws := sorter.map fun i => weights.getD i 0
      if sumFl fl ws = 0 then .error .unmodelled
      else if vs.length ≠ ws.length ∨ vs = [] then .error .valueError
      else .ok (percs.map fun p => npInterpFl fl p (quantileGridFl fl ws) vs)

/-- `utils.py:469-474` `iqrange`.  The percentiles 3/4 and 1/4 are exact. -/
noncomputable def iqrangeFl (fl : ℝ → ℝ) (srt : List ℝ → List ℕ) (data : List ℝ) (weights : Option (List ℝ)) : Res ℝ :=
  match quantilesFl fl srt data [3 / 4, 1 / 4] weights with
  | .error e => .error e
  | .ok l => .ok (fl (l.getD 0 0 - l.getD 1 0))

/-- `np.allclose(data, data[0])`: `abs(x - y) <= atol + rtol * abs(y)`. -/
noncomputable def allCloseFl (fl : ℝ → ℝ) (data : List ℝ) : Bool :=
  decide (∀ x ∈ data, |fl (x - data.getD 0 0)| ≤ fl (fl (1 / 10 ^ 8) + fl (fl (1 / 10 ^ 5) * |data.getD 0 0|)))

/-- `utils.py:1079-1088`. -/
noncomputable def guessNeffFl (fl : ℝ → ℝ) (data : List ℝ) (weights : Option (List ℝ)) : Res ℝ :=
  match weights with
  | none => .ok data.length
  | some w =>
    if w.length ≠ data.length then .error .valueError
    else if sumFl fl (w.map fun x => fl (x ^ 2)) = 0 then .error .unmodelled
    else .ok (fl (fl (sumFl fl w ^ 2) / sumFl fl (w.map fun x => fl (x ^ 2))))

/-- `utils.py:1090-1093`. -/
noncomputable def reduceNeffFl (fl : ℝ → ℝ) (ndim : ℕ) (neff : ℝ) : ℝ :=
  if 100 < neff then max (fl (neff / (ndim : ℝ) ^ 2)) 100 else neff

/-- `utils.py:1105-1112`.  The functions `log2`, `**` and `sqrt` are taken to be rounded once. -/
noncomputable def guessWidthsFl (fl : ℝ → ℝ) (span iqr neff : ℝ) (bw : Option ℝ) : List ℝ :=
  [fl (span / fl (fl (Real.logb 2 neff) + 1)), fl (fl (2 * iqr) * fl (neff ^ fl (-(1 : ℝ) / 3))),
   match bw with | none => 0 | some b => fl (b / fl (Real.sqrt neff))]

/-- `utils.py:1114-1126`. -/
noncomputable def guessWidthFl (fl : ℝ → ℝ) (data widths : List ℝ) (refine : ℝ) : Res ℝ :=
  match widths.filter (0 < ·) with
  | a :: l => .ok (fl (npMin a l / refine))
  | [] => if allCloseFl fl data then .ok (fl (1 / 10 ^ 16)) else .error .valueError

/-- `utils.py:1128-1136`. -/
noncomputable def spanWidthFl (fl : ℝ → ℝ) (data : List ℝ) (span width : ℝ) : Res ℝ :=
  if 0 < span then .ok span
  else if allCloseFl fl data then .ok (fl (10 * width)) else .error .valueError

/-- `utils.py:1078-1140` `_guess_edges` (`guessEdges` with rounding). -/
noncomputable def guessEdgesFl (fl : ℝ → ℝ) (srt : List ℝ → List ℕ) (data : List ℝ) (extrema : ℝ × ℝ)
    (weights : Option (List ℝ)) (ndim : ℕ) (nmin nmax : ℤ) (refine : ℝ) (bw : Option ℝ) : Res (ℤ × ℝ) :=
  match guessNeffFl fl data weights with
  | .error e => .error e
  | .ok neff =>
    if neff ≤ 0 then .error .unmodelled
    else
      match iqrangeFl fl srt data weights with
      | .error e => .error e
      | .ok iqr =>
        let span := fl (extrema.2 - extrema.1)
        match guessWidthFl fl data (guessWidthsFl fl span iqr (reduceNeffFl fl ndim neff) bw) refine with
        | .error e => .error e
        | .ok width =>
          match spanWidthFl fl data span width with
          | .error e => .error e
          | .ok span => .ok (min (max ⌈fl (span / width)⌉ nmin) nmax, width)

/-- `np.linspace(a, b, n + 1)`: `arange(n + 1) * ((b - a) / n) + a`, and the last element is `b` itself.  (If the step is
zero numpy multiplies in another order, with the same result zero.) -/
noncomputable def linspaceFl (fl : ℝ → ℝ) (a b : ℝ) (n : ℕ) : List ℝ :=
  if n = 0 then [a]
  else
    let step := fl (fl (b - a) / n)
    (List.range n).map (fun k : ℕ => fl (fl (k * step) + a)) ++ [b]

/-- `utils.py:1033-1075` `_get_edges_1d` (`getEdges1d` with rounding). -/
noncomputable def getEdges1dFl (fl : ℝ → ℝ) (srt : List ℝ → List ℕ) (edges : EdgeSpec) (data : List ℝ)
    (extrema : ℝ × ℝ) (weights : Option (List ℝ)) (ndim : ℕ) (nmin nmax : ℤ) (pad refine : ℝ) (bw : Option ℝ) :
    Res (List ℝ) :=
  match edges with
  | .arr l => .ok l
  | .bad => .error .valueError
  | spec =>
    match guessEdgesFl fl srt data extrema weights ndim nmin nmax refine bw with
    | .error e => .error e
    | .ok (n0, width) =>
      match (match spec with | .auto => some n0 | .int n => some n | _ => none) with
      | none => .error .typeError
      | some n =>
        if n + 1 < 0 then .error .valueError
        else if n + 1 = 0 then .ok []
        else .ok (linspaceFl fl (fl (extrema.1 - fl (pad * width))) (fl (extrema.2 + fl (pad * width))) n.toNat)

/-- `utils.py:429-466` `parse_edges` without `params` (`parseEdges` with rounding). -/
noncomputable def parseEdgesFl {d : ℕ} (fl : ℝ → ℝ) (srt : List ℝ → List ℕ) (data : List (Fin d → ℝ)) (edges : EdgeArg)
    (extrema : Option (List ExtElem)) (weights : Option (List ℝ)) (nmin nmax : ℤ) (pad : Option ℝ)
    (refine : ℝ) (bw : Option (Matrix (Fin d) (Fin d) ℝ)) : Res (List (List ℝ)) :=
  match parseExtremaOf data extrema with
  | .error e => .error e
  | .ok ext =>
    match edgeSpecs d edges with
    | .error e => .error e
    | .ok specs =>
      match finSeq fun i : Fin d => getEdges1dFl fl srt (specs.getD i .auto) (dataRow data i) (ext i) weights d
          nmin nmax (pad.getD (if extrema.isNone then 1 else 0)) refine (bw.map fun b => b i i) with
      | .error e => .error e
      | .ok f => .ok (List.ofFn f)

end Kalepy
