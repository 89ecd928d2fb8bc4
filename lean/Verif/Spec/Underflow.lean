import Verif.Spec.Rounding

/-!
# Specification vocabulary for rounded arithmetic with gradual underflow

Binary floating point numbers with `p` bits whose exponents are bounded below by `q`; for the double precision of IEEE 754,
`p = 53` and `q = -1074`.  Overflow is not described.
-/

namespace Kalepy.Spec

/-- `x` is a floating point number with `p` binary digits and an exponent of at least `q`. -/
def IsFloatFrom (p : ℕ) (q : ℤ) (x : ℝ) : Prop := ∃ n e : ℤ, q ≤ e ∧ |n| ≤ 2 ^ p ∧ x = n * (2 : ℝ) ^ e

/-- `fl` rounds every real number to a nearest of these numbers (ties are broken in any way). -/
structure NearestFrom (p : ℕ) (q : ℤ) (fl : ℝ → ℝ) : Prop where
  float : ∀ x, IsFloatFrom p q (fl x)
  near : ∀ x z, IsFloatFrom p q z → |fl x - x| ≤ |z - x|

/-- `fl` keeps signs and changes every number by at most the fraction `u` of the sum of its absolute value and `t`: the errors
of numbers smaller than `t` are those of `t`. -/
structure AccurateFrom (u t : ℝ) (fl : ℝ → ℝ) : Prop where
  err : ∀ x, |fl x - x| ≤ u * (|x| + t)
  nonneg : ∀ x, 0 ≤ x → 0 ≤ fl x
  nonpos : ∀ x, x ≤ 0 → fl x ≤ 0

end Kalepy.Spec
