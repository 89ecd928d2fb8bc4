import Mathlib.Data.Real.Basic
import Mathlib.Data.List.Basic
import Mathlib.Data.Fin.Tuple.Basic

/-!
# Basic vocabulary shared by all model files

Python exceptions are values of `PyErr`; a Python call is an element of `Except PyErr α`.
-/

namespace Kalepy

/-- The exception classes raised by /repo/kalepy (and by the numpy/scipy calls it makes).
`unmodelled` marks paths on which the Python program goes on with NaN/inf values, which the model
does not represent (see DESIGN.md); it is never used to make a theorem easier: every theorem about
successful results excludes it by construction. -/
inductive PyErr where
  | valueError
  | typeError
  | runtimeError
  | indexError
  | attributeError
  | linAlgError
  | notImplementedError
  | assertionError
  | keyError
  | zeroDivisionError
  | unmodelled
  deriving DecidableEq, Repr

/-- Result of a Python call. -/
abbrev Res (α : Type*) := Except PyErr α

/-- A rectangular `(D, N)` numpy array, as its number of rows and the list of its columns
(each column is one data point / evaluation point). -/
structure Cols (K : Type*) where
  dim : ℕ
  cols : List (Fin dim → K)

/-- `kalepy/__init__.py:44` `_NUM_PAD = 1e-8`. -/
def numPad {K : Type*} [Field K] : K := 1 / 10 ^ 8

end Kalepy
