import Mathlib.Algebra.Order.Field.Basic
import Mathlib.Algebra.Order.Floor.Defs
import Mathlib.Data.List.Sort
import Mathlib.Algebra.BigOperators.Group.List.Basic
import Verif.Model.Basic

/-!
# numpy primitives on one-dimensional arrays (lists), in exact arithmetic
-/

namespace Kalepy

variable {K : Type*}

/-- `np.cumsum` of a 1D array. -/
def npCumsum [AddMonoid K] (l : List K) : List K := (l.scanl (· + ·) 0).tail

/-- `np.diff` of a 1D array. -/
def npDiff [Sub K] (l : List K) : List K := List.zipWith (fun b a => b - a) l.tail l

/-- `idx` is a possible result of `np.argsort(l)`: a permutation of the positions that puts the values
in nondecreasing order.  The default quicksort is not stable, so nothing is assumed about ties. -/
def IsArgsort [LE K] [Zero K] (idx : List ℕ) (l : List K) : Prop :=
  idx.Perm (List.range l.length) ∧ (idx.map fun i => l.getD i 0).Pairwise (· ≤ ·)

/-- `np.sort` of a 1D array (the values, so the sorting algorithm does not matter). -/
def npSort [LinearOrder K] (l : List K) : List K := l.insertionSort (· ≤ ·)

/-- `np.searchsorted(a, v)` (side='left') for a sorted `a`: number of elements smaller than `v`. -/
def searchLeft [LinearOrder K] (a : List K) (v : K) : ℕ := a.countP (· < v)

/-- `np.searchsorted(a, v, side='right')` for a sorted `a`. -/
def searchRight [LinearOrder K] (a : List K) (v : K) : ℕ := a.countP (· ≤ v)

/-- Python/numpy indexing `l[i]` with a possibly negative index. -/
def pyIndex {α : Type*} (l : List α) (i : ℤ) : Res α :=
  if 0 ≤ i then
    match l[i.toNat]? with
    | some a => .ok a
    | none => .error .indexError
  else
    if 0 ≤ (l.length : ℤ) + i then
      match l[((l.length : ℤ) + i).toNat]? with
      | some a => .ok a
      | none => .error .indexError
    else .error .indexError

/-- Python `int(x)`: truncation towards zero. -/
def pyInt [Ring K] [LinearOrder K] [FloorRing K] (x : K) : ℤ := if 0 ≤ x then ⌊x⌋ else ⌈x⌉

/-- `np.around(x)` (no decimals): round half to even. -/
def npAround [Field K] [LinearOrder K] [FloorRing K] (x : K) : ℤ :=
  let n := ⌊x⌋
  let r := x - n
  if r < 1 / 2 then n
  else if 1 / 2 < r then n + 1
  else if n % 2 = 0 then n else n + 1

/-- Sequential evaluation for each axis, stopping at the first exception. -/
def finSeq {α : Type*} : {d : ℕ} → (Fin d → Res α) → Res (Fin d → α)
  | 0, _ => .ok Fin.elim0
  | _ + 1, f =>
    match f 0 with
    | .error e => .error e
    | .ok a =>
      match finSeq (fun i => f i.succ) with
      | .error e => .error e
      | .ok r => .ok (Fin.cons a r)

/-- Sequential evaluation for each list element, stopping at the first exception. -/
def listSeq {α β : Type*} (f : α → Res β) : List α → Res (List β)
  | [] => .ok []
  | a :: l =>
    match f a with
    | .error e => .error e
    | .ok b =>
      match listSeq f l with
      | .error e => .error e
      | .ok r => .ok (b :: r)

end Kalepy
