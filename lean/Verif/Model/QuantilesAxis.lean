import Verif.Model.Utils

/-!
# Quantiles along an axis
-/

namespace Kalepy

variable {K : Type*}

/-- `utils.py:515-522` for one line (row or column) of values and weights: both in the order of the values. -/
def sortLine [Field K] [LinearOrder K] (srt : List K → List ℕ) (sorted : Bool) (l : List K × List K) :
    List K × List K :=
  if sorted then l
  else ((srt l.1).map fun i => l.1.getD i 0, (srt l.1).map fun i => l.2.getD i 0)

/-- `utils.py:521-523, 529` for one sorted line; `div` are the numbers by which its cumulative weights are divided.
`np.interp` is modelled for nondecreasing cumulative weights. -/
def quantileLine [Field K] [LinearOrder K] (percs : List K) (l : List K × List K) (div : List K) : List K :=
  percs.map fun p => npInterp p
    (List.zipWith (fun x t => x / t) (List.zipWith (fun c w => c - 1 / 2 * w) (npCumsum l.2) l.2) div) l.1

/-- The lines of a 2D array along its first axis (the columns) or along its last axis (the rows). -/
def linesOf {m n : ℕ} {α : Type*} (first : Bool) (a : Fin m → Fin n → α) : List (List α) :=
  if first then List.ofFn fun j => List.ofFn fun i => a i j else List.ofFn fun i => List.ofFn fun j => a i j

/-- `utils.py:477-533` `quantiles(values, percs, weights, axis, values_sorted)` of a 2D array, with `axis=0`
(`first`) or `axis=1`; one list of quantiles per line.  The sums of the weights get a new last axis (line 522):
for `axis=1` they have shape `(m, 1)`, for `axis=0` shape `(n, 1)`, and dividing an `(m, n)` array in place by the
latter needs `m = n` or `n = 1`.  Vanishing sums give NaN: not modelled. -/
def quantilesAxis [Field K] [LinearOrder K] {m n : ℕ} (srt : List K → List ℕ) (values : Fin m → Fin n → K)
    (percs : List K) (weights : Option (Fin m → Fin n → K)) (first : Bool) (sorted : Bool := false) :
    Res (List (List K)) :=
  let weights := weights.getD fun _ _ => 1
  if ¬ ∀ p ∈ percs, 0 ≤ p ∧ p ≤ 1 then .error .assertionError
  else
    let lines := (List.zip (linesOf first values) (linesOf first weights)).map (sortLine srt sorted)
    let sums := lines.map fun l => l.2.sum
    if first ∧ m ≠ n ∧ n ≠ 1 then .error .valueError
    else if lines ≠ [] ∧ (if first then m else n) = 0 then .error .valueError
    else if ∃ s ∈ sums, s = 0 then .error .unmodelled
    else .ok (lines.map fun l => quantileLine percs l
      (if first then (if m = n then sums else List.replicate m (sums.getD 0 0)) else List.replicate n l.2.sum))

end Kalepy
