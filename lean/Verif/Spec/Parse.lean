import Verif.Model.Parse

/-!
# Specification of the `reflect`, `extrema` and `edges` arguments
-/

namespace Kalepy.Spec

/-- The boundary `o` that a given value `v` stands for: absent for `None`, itself for a number, and
`auto` for `True`. -/
def Boundary (auto : ℝ) : RefVal → Option ℝ → Prop
  | .none, o => o = none
  | .num x, o => o = some x
  | .true, o => o = some auto

/-- The two boundaries are in strictly increasing order if both are present. -/
def Ordered (lo hi : Option ℝ) : Prop := ∀ a b, lo = some a → hi = some b → a < b

/-- The checked row `r` is what row `g` of the argument stands for, where `min`, `max` are the extrema of
the data: no reflection for `None`; otherwise an ordered pair of boundaries, where `True` stands for the
data extremum, moved by the relative amount `1e-8`. -/
def RowMeans (min max : ℝ) (g : RefDim) (r : ReflRow) : Prop :=
  (g = .none ∧ r = none) ∨
  (g = .true ∧ ∃ lo hi, r = some (some lo, some hi) ∧ lo = min * (1 - 1 / 10 ^ 8) ∧
    hi = max * (1 + 1 / 10 ^ 8) ∧ lo < hi) ∨
  (∃ a b lo hi, g = .seq [a, b] ∧ r = some (lo, hi) ∧ Boundary (min * (1 - 1 / 10 ^ 8)) a lo ∧
    Boundary (max * (1 + 1 / 10 ^ 8)) b hi ∧ Ordered lo hi)

/-- `x` is inside the boundaries of the row (which may coincide with a boundary). -/
def Inside (r : ReflRow) (x : ℝ) : Prop :=
  ∀ lo hi, r = some (lo, hi) → (∀ l, lo = some l → l ≤ x) ∧ (∀ h, hi = some h → x ≤ h)

end Kalepy.Spec

namespace Kalepy.Spec

/-- The bounds asked for in dimension `i` of `d` by the extrema argument `l`: a flat list of two values
holds for every dimension; otherwise there is one entry per dimension, a pair or `None`. -/
def BoundsAsked (d : ℕ) (l : List ExtElem) (i : ℕ) (lo hi : Option ℝ) : Prop :=
  (∃ a b : Option ℝ, l = [a.elim .none .num, b.elim .none .num] ∧ lo = a ∧ hi = b) ∨
  ((∃ e ∈ l, ∃ s, e = .seq s) ∧ l.length = d ∧
    (l[i]? = some (.seq [lo, hi]) ∨ (l[i]? = some .none ∧ lo = none ∧ hi = none)))

/-- `l` has `n + 1` equally spaced elements from `a` to `b`. -/
def EquallySpaced (l : List ℝ) (n : ℕ) (a b : ℝ) : Prop :=
  l.length = n + 1 ∧ ∀ k : ℕ, k ≤ n → l[k]? = some (a + k * ((b - a) / n))

/-- The specification of the edges in dimension `i` of `d` contained in the argument `edges`. -/
def EdgesAsked (d : ℕ) (i : ℕ) (spec : EdgeSpec) : EdgeArg → Prop
  | .none => spec = .auto
  | .int n => spec = .int n
  | .flt x => spec = .flt x
  | .list l => (l.length = d ∧ l[i]? = some spec) ∨
      (l.length ≠ d ∧ ∃ xs : List ℝ, spec = .arr xs ∧ l.map EdgeSpec.asNum = xs.map some)

end Kalepy.Spec
