import Mathlib.Analysis.SpecialFunctions.Pow.Real
import Mathlib.Analysis.SpecialFunctions.Log.Base
import Mathlib.Algebra.Order.Archimedean.Real.Basic
import Verif.Model.Np

/-!
# Model of the one-dimensional helpers of `kalepy/utils.py`
-/

namespace Kalepy

variable {K : Type*}

/-! ### minmax -/

/-- Element type of a numeric numpy array. -/
inductive DType where
  | float
  | int
  deriving DecidableEq

/-- Assignment `arr[i] = x` into an array of this element type: integers truncate towards zero. -/
noncomputable def DType.store (dt : DType) (x : ℝ) : ℝ :=
  match dt with
  | .float => x
  | .int => (pyInt x : ℤ)

/-- Smallest element of `a :: l` (`np.min`). -/
noncomputable def npMin (a : ℝ) (l : List ℝ) : ℝ := l.foldl min a

/-- Largest element of `a :: l` (`np.max`). -/
noncomputable def npMax (a : ℝ) (l : List ℝ) : ℝ := l.foldl max a

/-- `utils.py:388-411`: the stretch relative to the centre; `dt` is the element type of the `minmax`
array, `fact` the pair of factors (a scalar factor has been duplicated, lines 397-398). -/
noncomputable def stretchBy (dt : DType) (mm : ℝ × ℝ) (fact : ℝ × ℝ) : ℝ × ℝ :=
  let cent := (mm.1 + mm.2) / 2
  (dt.store (cent - (1 + fact.1) * (cent - mm.1)), dt.store (cent + (1 + fact.2) * (mm.2 - cent)))

/-- `utils.py:413-418`: comparison with `prev`, whose entries may be `None`. -/
noncomputable def applyPrev (dt : DType) (mm : ℝ × ℝ) (prev : Option (Option ℝ × Option ℝ)) : ℝ × ℝ :=
  match prev with
  | none => mm
  | some (lo, hi) =>
    ((match lo with | none => mm.1 | some p => dt.store (min mm.1 p)),
     (match hi with | none => mm.2 | some p => dt.store (max mm.2 p)))

/-- `utils.py:420-425`: comparison with `limit`. -/
noncomputable def applyLimit (dt : DType) (mm : ℝ × ℝ) (limit : Option (Option ℝ × Option ℝ)) : ℝ × ℝ :=
  match limit with
  | none => mm
  | some (lo, hi) =>
    ((match lo with | none => mm.1 | some p => dt.store (max mm.1 p)),
     (match hi with | none => mm.2 | some p => dt.store (min mm.2 p)))

/-- `utils.py:374-427` `minmax`, for data of element type `dt` without NaN.  The result for empty data is
`prev` itself.  Stretching in log-space nonpositive values gives NaN: not modelled.  After a log-stretch
the array has float elements. -/
noncomputable def minmax (dt : DType) (data : List ℝ) (positive : Bool := false)
    (prev : Option (Option ℝ × Option ℝ) := none) (stretch logStretch : Option (ℝ × ℝ) := none)
    (limit : Option (Option ℝ × Option ℝ) := none) : Res (Option (Option ℝ × Option ℝ)) :=
  if data = [] then .ok prev
  else
    match (if positive then data.filter (0 < ·) else data) with
    | [] => .error .valueError
    | a :: l =>
      let mm := (npMin a l, npMax a l)
      let done (dt : DType) (mm : ℝ × ℝ) : Res (Option (Option ℝ × Option ℝ)) :=
        let r := applyLimit dt (applyPrev dt mm prev) limit
        .ok (some (some r.1, some r.2))
      match stretch, logStretch with
      | none, none => done dt mm
      | some _, some _ => .error .valueError
      | some f, none => done dt (stretchBy dt mm f)
      | none, some f =>
        if 0 < mm.1 then
          let s := stretchBy .float (Real.logb 10 mm.1, Real.logb 10 mm.2) f
          done .float ((10 : ℝ) ^ s.1, (10 : ℝ) ^ s.2)
        else .error .unmodelled

/-! ### interpolation and quantiles -/

/-- `np.interp(x, xp, fp)` for nondecreasing `xp` (numpy's C implementation): clamped outside; otherwise
linear between the last `xp[j] ≤ x` and the next point. -/
def npInterp [Field K] [LinearOrder K] (x : K) (xp fp : List K) : K :=
  match searchRight xp x with
  | 0 => fp.getD 0 0
  | j + 1 =>
    if j + 1 = xp.length then fp.getD j 0
    else if xp.getD j 0 = x then fp.getD j 0
    else (fp.getD (j + 1) 0 - fp.getD j 0) / (xp.getD (j + 1) 0 - xp.getD j 0) * (x - xp.getD j 0)
      + fp.getD j 0

/-- `utils.py:516-525` with `axis=None`: sorted values and cumulative weight fractions. -/
def quantileGrid [Field K] (weights : List K) : List K :=
  let tot := weights.sum
  List.zipWith (fun c w => (c - 1 / 2 * w) / tot) (npCumsum weights) weights

/-- `utils.py:477-533` `quantiles(values, percs, weights)` with `axis=None`; `srt` is `np.argsort`.
Empty `values` make `np.interp` raise `ValueError`; weights shorter than the values make
`np.take_along_axis` raise `IndexError`; percentiles outside `[0, 1]` fail the assertion; a vanishing
sum of weights gives NaN: not modelled.  (`sigmas` only selects `percs` through the normal cdf.)  For negative weights the
grid need not be sorted, and the result of `np.interp` may be another one than that of `npInterp`: the theorems on values
assume weights that are not negative. -/
def quantiles [Field K] [LinearOrder K] (srt : List K → List ℕ) (values : List K) (percs : List K)
    (weights : Option (List K) := none) (valuesSorted : Bool := false) : Res (List K) :=
  let weights := weights.getD (values.map fun _ => 1)
  if ¬ ∀ p ∈ percs, 0 ≤ p ∧ p ≤ 1 then .error .assertionError
  else
    let sorter := srt values
    if valuesSorted = false ∧ ¬ ∀ i ∈ sorter, i < weights.length then .error .indexError
    else
      let vs := if valuesSorted then values else sorter.map fun i => values.getD i 0
      let ws := if valuesSorted then weights else sorter.map fun i => weights.getD i 0
      if ws.sum = 0 then .error .unmodelled
      else if vs.length ≠ ws.length ∨ vs = [] then .error .valueError
      else .ok (percs.map fun p => npInterp p (quantileGrid ws) vs)

/-- `utils.py:469-474` `iqrange` (linear). -/
def iqrange [Field K] [LinearOrder K] (srt : List K → List ℕ) (data : List K)
    (weights : Option (List K) := none) : Res K :=
  match quantiles srt data [3 / 4, 1 / 4] weights with
  | .error e => .error e
  | .ok l => .ok (l.getD 0 0 - l.getD 1 0)

/-! ### midpoints and subdivide -/

/-- `utils.py:327-371`, `986-1028` `midpoints(arr)` of a 1D array. -/
def midpoints1 [Field K] (l : List K) : Res (List K) :=
  if l.length < 2 then .error .runtimeError
  else .ok (List.zipWith (fun a b => 1 / 2 * (a + b)) l l.tail)

/-- `midpoints(arr, log=True)` of a 1D array; nonpositive values give NaN or infinities: not modelled. -/
noncomputable def midpointsLog (l : List ℝ) : Res (List ℝ) :=
  if ∀ x ∈ l, 0 < x then
    match midpoints1 (l.map (Real.logb 10)) with
    | .error e => .error e
    | .ok m => .ok (m.map ((10 : ℝ) ^ ·))
  else .error .unmodelled

/-- Python slice `l[:-n]` for `n : ℕ`; for `n = 0` this is `l[:0]`, the empty list. -/
def dropLast' {α : Type*} (l : List α) (n : ℕ) : List α := if n = 0 then [] else l.take (l.length - n)

/-- `utils.py:793-824` `subdivide(xx, num)` (linear).  Row `k` of the intermediate array is
`xx[k] + (xx[k+1] - xx[k]) * j / (num+1)`, `j = 0..num`, with 0 appended to `xx`. -/
def subdivide [Field K] (xx : List K) (num : ℕ := 1) : List K :=
  let dd := npDiff (xx ++ [0])
  dropLast' ((List.zipWith (fun x D => (List.range (num + 1)).map fun (j : ℕ) =>
    x + D * ((j : K) / ((num : K) + 1))) xx dd).flatten) num

/-! ### bound_indices -/

/-- One row of the `bounds` array: a pair with possible `None`s, or a row `[None]`. -/
inductive BoundRow (K : Type*) where
  | nul
  | pair (lo hi : Option K)

/-- Value of the returned array: booleans, or integers (after `idx & ~outside` with a Python bool,
where `~False = -1` and `~True = -2`). -/
inductive Mask where
  | bools (l : List Bool)
  | ints (l : List ℤ)
  deriving DecidableEq

/-- numpy `idx & int`: the boolean array is converted to integers 0/1. -/
def Mask.andInt (m : Mask) (k : ℤ) : Mask :=
  let f : ℤ → ℤ := fun x => if k = -1 then x else x - x % 2
  match m with
  | .bools l => .ints (l.map fun b => f (if b then 1 else 0))
  | .ints l => .ints (l.map f)

/-- numpy `idx & bool array`. -/
def Mask.andBools (m : Mask) (b : List Bool) : Mask :=
  match m with
  | .bools l => .bools (List.zipWith (· && ·) l b)
  | .ints l => .ints (List.zipWith (fun x y => if y then x % 2 else 0) l b)

/-- The condition of one `(lo, hi)` row for one value (`utils.py:81-88`). -/
def inRow [LinearOrder K] (outside : Bool) (lo hi : Option K) (x : K) : Bool :=
  if outside then
    (match lo with | none => false | some l => decide (x < l)) ||
    (match hi with | none => false | some h => decide (h < x))
  else
    (match lo with | none => true | some l => decide (l < x)) &&
    (match hi with | none => true | some h => decide (x < h))

/-- `utils.py:67-90` `bound_indices(data, bounds, outside)`: `data` is the list of rows (dimensions) of
the `(D, N)` array, `bounds` a homogeneous array given by rows.  More rows of bounds than of data
raise `IndexError`. -/
def boundIndices [LinearOrder K] (nvals : ℕ) (data : List (List K)) (bounds : List (BoundRow K))
    (outside : Bool := false) : Res Mask :=
  let rec go : ℕ → List (BoundRow K) → Mask → Res Mask
    | _, [], m => .ok m
    | ii, .nul :: rest, m => go (ii + 1) rest (m.andInt (if outside then -2 else -1))
    | ii, .pair lo hi :: rest, m =>
      match data[ii]? with
      | none => .error .indexError
      | some row => go (ii + 1) rest (m.andBools (row.map (inRow outside lo hi)))
  go 0 bounds (.bools (List.replicate nvals true))

/-! ### jagged lists -/

/-- A nested Python list of scalars. -/
inductive Nest (K : Type*) where
  | leaf (x : K)
  | node (l : List (Nest K))

/-- `utils.py:536-564` `really1d`: a list all of whose elements are scalars. -/
def Nest.really1d : Nest K → Bool
  | .leaf _ => false
  | .node l => l.all fun t => match t with | .leaf _ => true | .node _ => false

/-- The scalars of a list known to contain only scalars. -/
def Nest.leaves : List (Nest K) → List K
  | [] => []
  | .leaf x :: l => x :: Nest.leaves l
  | .node _ :: l => Nest.leaves l

/-- Result of `flatten`: a scalar or a 1D array. -/
inductive Flat (K : Type*) where
  | scalar (x : K)
  | array (l : List K)
  deriving DecidableEq

mutual
/-- `utils.py:567-575` `flatten`. -/
def Nest.flatten : Nest K → Res (Flat K)
  | .leaf x => .ok (.scalar x)
  | .node l => if Nest.really1d (.node l) then .ok (.array (Nest.leaves l))
      else match Nest.flattenList l with
        | .error e => .error e
        | .ok r => .ok (.array r)

/-- `np.concatenate([flatten(aa) for aa in arr])`: zero-dimensional arrays cannot be concatenated. -/
def Nest.flattenList : List (Nest K) → Res (List K)
  | [] => .ok []
  | t :: l => match Nest.flatten t with
    | .error e => .error e
    | .ok (.scalar _) => .error .valueError
    | .ok (.array a) => match Nest.flattenList l with
      | .error e => .error e
      | .ok r => .ok (a ++ r)
end

mutual
/-- `utils.py:578-585` `flatlen`. -/
def Nest.flatlen : Nest K → ℕ
  | .leaf _ => 1
  | .node l => if Nest.really1d (.node l) then l.length else Nest.flatlenList l

/-- `np.sum([flatlen(aa) for aa in arr])`. -/
def Nest.flatlenList : List (Nest K) → ℕ
  | [] => 0
  | t :: l => Nest.flatlen t + Nest.flatlenList l
end

/-- Longest common prefix of two shapes. -/
def commonPrefix : List ℕ → List ℕ → List ℕ
  | a :: l, b :: r => if a = b then a :: commonPrefix l r else []
  | _, _ => []

mutual
/-- `np.shape` of nested lists: numpy before version 1.24 turns ragged lists into object arrays, whose
shape is the regular leading part (later versions raise `ValueError` for ragged lists). -/
def Nest.npShape : Nest K → List ℕ
  | .leaf _ => []
  | .node l => l.length :: Nest.npShapes l

/-- The shape common to all elements of a list. -/
def Nest.npShapes : List (Nest K) → List ℕ
  | [] => []
  | [t] => Nest.npShape t
  | t :: s :: l => commonPrefix (Nest.npShape t) (Nest.npShapes (s :: l))
end

/-- `utils.py:588-594` `isjagged`, where `np.size` is the product of the shape (numpy before 1.24). -/
def Nest.isjagged : Nest K → Bool
  | .leaf _ => false
  | .node l => !decide ((Nest.npShape (.node l)).prod = Nest.flatlen (.node l))

/-! ### histogram -/

/-- Whether `np.histogram` counts `x` in bin `j` of the given edges: bins are half-open, the last one
is closed. -/
def inHistBin [Zero K] [LinearOrder K] (edges : List K) (j : ℕ) (x : K) : Bool :=
  decide (edges.getD j 0 ≤ x) &&
    (if j + 2 = edges.length then decide (x ≤ edges.getD (j + 1) 0) else decide (x < edges.getD (j + 1) 0))

/-- `np.histogram(data, bins=edges, weights=weights)` for an array of edges: it refuses edges that
decrease somewhere, and weights of another length. -/
def npHistogram [Field K] [LinearOrder K] (data : List K) (edges : List K) (weights : Option (List K)) :
    Res (List K) :=
  let ws := weights.getD (data.map fun _ => 1)
  if ws.length ≠ data.length then .error .valueError
  else if ¬ edges.Pairwise (· ≤ ·) then .error .valueError
  else .ok ((List.range (edges.length - 1)).map fun j =>
    (List.zipWith (fun x w => if inHistBin edges j x then w else 0) data ws).sum)

/-- `utils.py:307`: the normalisation for `probability=True`, the number of data or the sum of the
weights. -/
def totalWeight [Field K] (data : List K) (weights : Option (List K)) : K :=
  match weights with
  | none => (data.length : K)
  | some w => w.sum

/-- `utils.py:300-309` `histogram` with explicit bin edges.  Division by a zero bin width or a zero
total gives inf/NaN: not modelled. -/
def histogram [Field K] [LinearOrder K] (data : List K) (edges : List K) (weights : Option (List K) := none)
    (density probability : Bool := false) : Res (List K × List K) :=
  match npHistogram data edges weights with
  | .error e => .error e
  | .ok hist =>
    if density = true ∧ 0 ∈ npDiff edges then .error .unmodelled
    else
      let hist := if density then List.zipWith (· / ·) hist (npDiff edges) else hist
      let tot : K := totalWeight data weights
      if probability = true ∧ tot = 0 then .error .unmodelled
      else .ok (if probability then hist.map (· / tot) else hist, edges)

end Kalepy
