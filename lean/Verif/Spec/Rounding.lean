import Mathlib.Data.Real.Basic
import Mathlib.Algebra.Order.Field.Power

/-!
# Specification vocabulary for rounded arithmetic

Binary floating point numbers with `p` bits and an unbounded range of exponents.
-/

namespace Kalepy.Spec

/-- `x` is a floating point number with `p` binary digits. -/
def IsFloat (p : ℕ) (x : ℝ) : Prop := ∃ n e : ℤ, |n| ≤ 2 ^ p ∧ x = n * (2 : ℝ) ^ e

/-- `fl` rounds every real number to a nearest floating point number with `p` digits (ties are broken in any way). -/
structure Nearest (p : ℕ) (fl : ℝ → ℝ) : Prop where
  float : ∀ x, IsFloat p (fl x)
  near : ∀ x z, IsFloat p z → |fl x - x| ≤ |z - x|

/-- `fl` changes every number by at most the fraction `u` of it. -/
def Accurate (u : ℝ) (fl : ℝ → ℝ) : Prop := ∀ x, |fl x - x| ≤ u * |x|

/-- A number halfway between two neighbouring positive floating point numbers is rounded to the one with the even
significand (the default rounding of IEEE 754). -/
def TiesEven (p : ℕ) (fl : ℝ → ℝ) : Prop :=
  ∀ n e : ℤ, 2 ^ p ≤ 2 * n → n + 1 ≤ 2 ^ p →
    (Even n → fl ((n + 1 / 2) * (2 : ℝ) ^ e) = n * (2 : ℝ) ^ e) ∧
    (Odd n → fl ((n + 1 / 2) * (2 : ℝ) ^ e) = (n + 1) * (2 : ℝ) ^ e)

end Kalepy.Spec
