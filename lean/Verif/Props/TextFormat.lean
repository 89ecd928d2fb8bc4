import Verif.Props.Text

/-! # C119: when exactly the guessed number format is exponential -/

namespace Kalepy

/-- **C119, what the code does**: the format is exponential exactly if some value is large, or if the least or the
greatest of the nonzero values is small; a small value between them is overlooked, and then shown with a fixed number of
decimals (or as an integer). -/
theorem C119_actual (dt : DType) (data : List ℝ) (prec : ℕ) (lim : ℝ) (allowInt : Bool) :
    guessFormat dt data prec lim allowInt = .exp prec ↔
      Spec.HasLarge data lim ∨ ∃ x ∈ data, x ≠ 0 ∧ |x| < (10 : ℝ) ^ (-lim) ∧
        ((∀ y ∈ data, y ≠ 0 → x ≤ y) ∨ ∀ y ∈ data, y ≠ 0 → y ≤ x) := by
  have hmem : ∀ x, x ∈ data.filter (fun x => decide (x ≠ 0)) ↔ x ∈ data ∧ x ≠ 0 := by simp
  by_cases hz : ∀ x ∈ data, x = 0
  · rw [(C119_partial dt data prec lim allowInt).1 hz]
    constructor
    · intro h
      cases h
    · rintro (⟨x, hx, h⟩ | ⟨x, hx, h, _⟩)
      · rw [hz x hx, abs_zero] at h
        exact absurd h (not_lt.mpr (by positivity))
      · exact absurd (hz x hx) h
  · push Not at hz
    obtain ⟨x0, hx0, hx0'⟩ := hz
    have hne : data.filter (fun x => decide (x ≠ 0)) ≠ [] := List.ne_nil_of_mem (a := x0) (by simp [hx0, hx0'])
    obtain ⟨lo, hi, h1, h2⟩ := (C34_extrema dt _).1 hne
    obtain ⟨hlo, hlo0⟩ := (hmem lo).mp h2.1
    obtain ⟨hhi, hhi0⟩ := (hmem hi).mp h2.2.1
    have hb : ∀ y ∈ data, y ≠ 0 → lo ≤ y ∧ y ≤ hi := fun y hy hy0 => h2.2.2 y ((hmem y).mpr ⟨hy, hy0⟩)
    have hsm : ∀ x : ℝ, x ≠ 0 → (Real.logb 10 |x| < -lim ↔ |x| < (10 : ℝ) ^ (-lim)) := fun x hx =>
      Real.logb_lt_iff_lt_rpow (by norm_num) (abs_pos.mpr hx)
    have hlg : ∀ x : ℝ, x ≠ 0 → (Real.logb 10 |x| > lim ↔ (10 : ℝ) ^ lim < |x|) := fun x hx =>
      Real.lt_logb_iff_rpow_lt (by norm_num) (abs_pos.mpr hx)
    have hg : guessFormat dt data prec lim allowInt = .exp prec ↔
        (|lo| < (10 : ℝ) ^ (-lim) ∨ |hi| < (10 : ℝ) ^ (-lim)) ∨ ((10 : ℝ) ^ lim < |lo| ∨ (10 : ℝ) ^ lim < |hi|) := by
      unfold guessFormat
      rw [h1]
      simp only [hsm lo hlo0, hsm hi hhi0, hlg lo hlo0, hlg hi hhi0]
      constructor
      · intro h
        by_contra hc
        rw [if_neg hc] at h
        split_ifs at h
      · intro h
        rw [if_pos h]
    rw [hg]
    constructor
    · rintro ((h | h) | (h | h))
      · exact .inr ⟨lo, hlo, hlo0, h, .inl fun y hy hy0 => (hb y hy hy0).1⟩
      · exact .inr ⟨hi, hhi, hhi0, h, .inr fun y hy hy0 => (hb y hy hy0).2⟩
      · exact .inl ⟨lo, hlo, h⟩
      · exact .inl ⟨hi, hhi, h⟩
    · rintro (h | ⟨x, hx, hx0, hs, h | h⟩)
      · exact hg.mp (((C119_partial dt data prec lim allowInt).2 ⟨x0, hx0, hx0'⟩).2.1 h)
      · rw [le_antisymm (h lo hlo hlo0) (hb x hx hx0).1] at hs
        exact .inl (.inl hs)
      · rw [le_antisymm (hb x hx hx0).2 (h hi hhi hhi0)] at hs
        exact .inl (.inr hs)

/-- `0.001, 1` is shown with exponents: the least value is small. -/
example : guessFormat .float [1 / 1000, 1] 2 2 = .exp 2 := by
  refine (C119_actual _ _ _ _ _).mpr (.inr ⟨1 / 1000, by simp, by norm_num, ?_, .inl ?_⟩)
  · rw [Real.rpow_neg (by norm_num), show (10 : ℝ) ^ (2 : ℝ) = (10 : ℝ) ^ ((2 : ℕ) : ℝ) by norm_num, Real.rpow_natCast,
      abs_of_pos (by norm_num)]
    norm_num
  · simp
    norm_num

end Kalepy
