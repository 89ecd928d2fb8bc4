import Mathlib.Algebra.BigOperators.Fin
import Mathlib.Algebra.Order.BigOperators.Group.Finset
import Mathlib.Data.Fintype.Pi
import Mathlib.Algebra.BigOperators.Field
import Verif.Model.Basic

/-!
# D-dimensional numpy arrays (C order)

An array is a shape and an index function.  Only the values at valid indices are meaningful; all
theorems speak about valid indices.
-/

namespace Kalepy

/-- A D-dimensional `np.ndarray`: shape and value at each index tuple. -/
structure NDArr (d : ℕ) (K : Type*) where
  shape : Fin d → ℕ
  get : (Fin d → ℕ) → K

/-- `idx` is a valid (non-negative) index tuple for an array of this shape. -/
def ValidIdx {d : ℕ} (shape idx : Fin d → ℕ) : Prop := ∀ i, idx i < shape i

/-- The finite set of valid index tuples. -/
def validIdx {d : ℕ} (shape : Fin d → ℕ) : Finset (Fin d → ℕ) :=
  Fintype.piFinset fun i => Finset.range (shape i)

/-- C-order flat position of an index tuple (`np.ravel_multi_index`), by Horner's scheme from the
first to the last axis. -/
def ravelIdx : {d : ℕ} → (shape idx : Fin d → ℕ) → ℕ
  | 0, _, _ => 0
  | d + 1, shape, idx =>
    ravelIdx (d := d) (fun i => shape i.castSucc) (fun i => idx i.castSucc) * shape (Fin.last d)
      + idx (Fin.last d)

/-- `np.unravel_index(k, shape)` (used at `kalepy/sample.py:158, 380`): repeated division with
remainder, starting from the last axis. -/
def unravelIdx : {d : ℕ} → (shape : Fin d → ℕ) → ℕ → (Fin d → ℕ)
  | 0, _, _ => Fin.elim0
  | d + 1, shape, k =>
    Fin.snoc (α := fun _ => ℕ) (unravelIdx (d := d) (fun i => shape i.castSucc) (k / shape (Fin.last d)))
      (k % shape (Fin.last d))

namespace NDArr

variable {d : ℕ} {K : Type*}

/-- `arr.size`. -/
def size (a : NDArr d K) : ℕ := ∏ i, a.shape i

/-- `arr.flat` / `arr.flatten()`: values in C order. -/
def flat (a : NDArr d K) : List K := (List.range a.size).map fun k => a.get (unravelIdx a.shape k)

/-- `arr.sum()`. -/
def sum [AddCommMonoid K] (a : NDArr d K) : K := ∑ idx ∈ validIdx a.shape, a.get idx

/-- `np.diff(arr, axis=i)`. -/
def diffAxis [Sub K] (i : Fin d) (a : NDArr d K) : NDArr d K where
  shape := Function.update a.shape i (a.shape i - 1)
  get idx := a.get (Function.update idx i (idx i + 1)) - a.get idx

/-- `np.cumsum(arr, axis=i)`. -/
def cumsumAxis [AddCommMonoid K] (i : Fin d) (a : NDArr d K) : NDArr d K where
  shape := a.shape
  get idx := ∑ k ∈ Finset.range (idx i + 1), a.get (Function.update idx i k)

/-- Elementwise map. -/
def map {L : Type*} (f : K → L) (a : NDArr d K) : NDArr d L where
  shape := a.shape
  get idx := f (a.get idx)

end NDArr

end Kalepy
