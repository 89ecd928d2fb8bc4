import Verif.Props.EdgesStrict
import Verif.Props.SpacingRounded

/-!
# C154: when linear grids and bins are strictly increasing
-/

namespace Kalepy

open Spec

variable {p : ℕ} {fl lg pw : ℝ → ℝ}

/-- **C154.** Linear spacing of floating point data is strictly increasing if the largest and the smallest element are more than `16 n` units of rounding of the larger
(in size) of them apart, where `n + 1` is the number of points (20 by default). -/
theorem C154_linear_strict (hp : 8 ≤ p) (h : Nearest p fl) (dt : DType) {data : List ℝ} (positive : Bool) {lo hi : ℝ}
    (he : IsExtrema (if positive then data.filter (0 < ·) else data) lo hi)
    (scale : String) (hscale : "lin".toList <+: scale.toList) (num : Option ℝ) (n : ℕ)
    (hn : num = none ∧ n = 19 ∨ ∃ x, num = some x ∧ 2 ≤ x ∧ ⌊x⌋ = n + 1 ∧ n ≤ 2 ^ (p - 3)) (dex : ℝ)
    (hrange : 16 * n * (1 / 2) ^ p * max |lo| |hi| < hi - lo) :
    ∃ grid, spacingFl fl lg pw dt data scale num dex positive = .ok grid ∧ grid.length = n + 1 ∧ grid.Pairwise (· < ·) := by
  have h32 : (19 : ℕ) ≤ 2 ^ (p - 3) := by
    calc 19 ≤ 2 ^ 5 := by norm_num
      _ ≤ 2 ^ (p - 3) := Nat.pow_le_pow_right (by norm_num) (by omega)
  have key : spacingFl fl lg pw dt data scale num dex positive = .ok (linspaceFl fl lo hi n) ∧ 0 < n ∧ n ≤ 2 ^ (p - 3) := by
    unfold spacingFl
    rw [scaleFlag_lin hscale, extrema_minmax dt positive he]
    obtain ⟨rfl, rfl⟩ | ⟨x, rfl, hx, hfl, hle'⟩ := hn
    · exact ⟨linspaceNumFl_nat lo hi 19, by norm_num, h32⟩
    · obtain ⟨h1, h2⟩ := pyInt_floor hx hfl
      simp only [Bool.false_eq_true, if_false, h1]
      exact ⟨linspaceNumFl_nat lo hi n, h2, hle'⟩
  obtain ⟨e, h0, hmax⟩ := key
  refine ⟨_, e, ?_, linspaceFl_strict (by omega) h hmax h0 hrange⟩
  unfold linspaceFl
  rw [if_neg (by omega)]
  simp

/-- **C154.** `bins(a, b, n + 1)`: if `b - a` is more than `16 n` units of rounding of the larger (in size) of `a` and `b`, then the edges are strictly increasing
and every width is positive. -/
theorem C154_bins_strict (hp : 3 ≤ p) (h : Nearest p fl) {a b : ℝ} (ha : IsFloat p a) (hb : IsFloat p b) (n : ℕ) (hn : 0 < n)
    (hn' : n ≤ 2 ^ (p - 3)) (hrange : 16 * n * (1 / 2) ^ p * max |a| |b| < b - a) :
    ∃ xe xc dx, binsFl fl a b (n + 1) = .ok (xe, xc, dx) ∧ xe.length = n + 1 ∧ xe.Pairwise (· < ·) ∧ dx.length = n ∧ ∀ w ∈ dx, 0 < w := by
  have hM : 0 ≤ max |a| |b| := (abs_nonneg a).trans (le_max_left _ _)
  have hab : a ≤ b := by
    have : 0 ≤ 16 * (n : ℝ) * (1 / 2) ^ p * max |a| |b| := by positivity
    linarith
  obtain ⟨xe, xc, dx, e, e1, -, -, -, e2, e3⟩ := C154_bins hp h ha hb hab n hn hn'
  have hxe : xe = linspaceFl fl a b n := by
    unfold binsFl at e
    rw [linspaceNumFl_nat] at e
    dsimp only at e
    split at e
    · cases e
    · simp only [Except.ok.injEq, Prod.mk.injEq] at e
      exact e.1.symm
  have hs : xe.Pairwise (· < ·) := hxe ▸ linspaceFl_strict hp h hn' hn hrange
  refine ⟨xe, xc, dx, e, e1, hs, e2, ?_⟩
  intro w hw
  obtain ⟨k, hk, rfl⟩ := List.getElem_of_mem hw
  obtain ⟨lo, hi, c, w, q1, q2, -, q4, -, -, -, q8⟩ := e3 k (by omega)
  obtain ⟨i1, rfl⟩ := List.getElem?_eq_some_iff.mp q1
  obtain ⟨i2, rfl⟩ := List.getElem?_eq_some_iff.mp q2
  obtain ⟨i4, rfl⟩ := List.getElem?_eq_some_iff.mp q4
  have hlt := List.pairwise_iff_getElem.mp hs k (k + 1) i1 i2 (by omega)
  have hu : ((1 : ℝ) / 2) ^ p ≤ 1 / 2 := by
    calc ((1 : ℝ) / 2) ^ p ≤ (1 / 2) ^ 1 := pow_le_pow_of_le_one (by norm_num) (by norm_num) (by omega)
      _ = 1 / 2 := pow_one _
  have := mul_le_mul_of_nonneg_right hu (sub_nonneg.mpr hlt.le)
  linarith [(abs_le.mp q8).1]

/-- Hypotheses of `C154_linear_strict` and `C154_bins_strict`: in double precision, the data 3, 1, 4, and a thousand bins from 1 to 4. -/
example : ∃ fl : ℝ → ℝ, Nearest 53 fl ∧ IsExtrema (if false then [(3 : ℝ), 1, 4].filter (0 < ·) else [3, 1, 4]) 1 4 ∧
    IsFloat 53 1 ∧ IsFloat 53 4 ∧ (1000 : ℕ) ≤ 2 ^ (53 - 3) ∧ 16 * ((1000 : ℕ) : ℝ) * (1 / 2) ^ 53 * max |1| |4| < 4 - 1 ∧
    16 * ((19 : ℕ) : ℝ) * (1 / 2) ^ 53 * max |1| |4| < 4 - 1 := by
  obtain ⟨fl, hfl⟩ := exists_nearest (p := 53) (by norm_num)
  have hmax : max |(1 : ℝ)| |4| = 4 := by norm_num
  refine ⟨fl, hfl, ⟨by simp, by simp, ?_⟩, isFloat_one, by simpa using isFloat_int (p := 53) (m := 4) (by norm_num), by norm_num, ?_, ?_⟩
  · intro x hx
    simp only [Bool.false_eq_true, if_false, List.mem_cons, List.not_mem_nil, or_false] at hx
    rcases hx with rfl | rfl | rfl <;> norm_num
  · rw [hmax]; norm_num
  · rw [hmax]; norm_num

end Kalepy
