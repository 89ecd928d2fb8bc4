import Verif.Proofs.Rounding

/-!
# Rounding to nearest, ties to even
-/

namespace Kalepy

open Spec

variable {p : ℕ} {fl : ℝ → ℝ}

lemma tie_unique {n e n' e' : ℤ} (h : ((n : ℝ) + 1 / 2) * 2 ^ e = (n' + 1 / 2) * 2 ^ e') : n = n' ∧ e = e' := by
  have aux : ∀ {n e n' e' : ℤ}, e ≤ e' → ((n : ℝ) + 1 / 2) * 2 ^ e = (n' + 1 / 2) * 2 ^ e' → n = n' ∧ e = e' := by
    intro n e n' e' hle h
    obtain ⟨k, rfl⟩ := Int.le.dest hle
    have he : (0 : ℝ) < 2 ^ e := by positivity
    rw [zpow_add₀ (by norm_num), zpow_natCast] at h
    have h1 : (2 * n + 1 : ℝ) = (2 * n' + 1) * 2 ^ k := by
      have : ((2 * n + 1 : ℝ)) * 2 ^ e = (2 * n' + 1) * 2 ^ k * 2 ^ e := by linarith
      exact mul_right_cancel₀ he.ne' this
    have h2 : (2 * n + 1 : ℤ) = (2 * n' + 1) * 2 ^ k := by exact_mod_cast h1
    cases k with
    | zero => simp at h2 ⊢; omega
    | succ k =>
      exfalso
      rw [pow_succ, ← mul_assoc] at h2
      omega
  rcases le_total e e' with hle | hle
  · exact aux hle h
  · obtain ⟨a, b⟩ := aux hle h.symm
    exact ⟨a.symm, b.symm⟩

/-- Rounding to nearest with ties to even exists. -/
theorem exists_nearest_even (hp : 1 ≤ p) : ∃ fl, Nearest p fl ∧ TiesEven p fl := by
  classical
  obtain ⟨fl, h⟩ := exists_nearest hp
  let T : ℝ → ℤ × ℤ → Prop := fun x q => 2 ^ p ≤ 2 * q.1 ∧ q.1 + 1 ≤ 2 ^ p ∧ x = (q.1 + 1 / 2) * (2 : ℝ) ^ q.2
  let g : ℝ → ℝ := fun x =>
    if hx : ∃ q, T x q then
      if Even hx.choose.1 then hx.choose.1 * (2 : ℝ) ^ hx.choose.2 else (hx.choose.1 + 1) * (2 : ℝ) ^ hx.choose.2
    else fl x
  have hg : ∀ (n e : ℤ), 2 ^ p ≤ 2 * n → n + 1 ≤ 2 ^ p → g ((n + 1 / 2) * (2 : ℝ) ^ e) =
      if Even n then n * (2 : ℝ) ^ e else (n + 1) * (2 : ℝ) ^ e := by
    intro n e h1 h2
    have hx : ∃ q, T ((n + 1 / 2) * (2 : ℝ) ^ e) q := ⟨(n, e), h1, h2, rfl⟩
    have hu := tie_unique hx.choose_spec.2.2
    simp only [g, dif_pos hx]
    rw [← hu.1, ← hu.2]
  refine ⟨g, ⟨?_, ?_⟩, ?_⟩
  · intro x
    by_cases hx : ∃ q, T x q
    · obtain ⟨⟨n, e⟩, h1, h2, rfl⟩ := hx
      simp only at h1 h2 ⊢
      rw [hg n e h1 h2]
      have hn0 : 0 ≤ n := by
        have : (0 : ℤ) < 2 ^ p := by positivity
        omega
      split_ifs
      · exact isFloat_of_le hn0 (by omega)
      · have := isFloat_of_le (p := p) (n := n + 1) (e := e) (by omega) h2
        push_cast at this; exact this
    · simp only [g, dif_neg hx]; exact h.float x
  · intro x z hz
    by_cases hx : ∃ q, T x q
    · obtain ⟨⟨n, e⟩, h1, h2, rfl⟩ := hx
      simp only at h1 h2 ⊢
      rw [hg n e h1 h2]
      have he : (0 : ℝ) < 2 ^ e := by positivity
      have hz' : (2 : ℝ) ^ e / 2 ≤ |z - (n + 1 / 2) * 2 ^ e| := by
        by_contra hc
        rw [not_le, abs_lt] at hc
        exact float_gap h1 hz (by linarith [hc.1]) (by linarith [hc.2])
      refine le_trans (le_of_eq ?_) hz'
      split_ifs
      · rw [show (n : ℝ) * 2 ^ e - (n + 1 / 2) * 2 ^ e = -(2 ^ e / 2) by ring, abs_neg, abs_of_pos (by positivity)]
      · rw [show ((n : ℝ) + 1) * 2 ^ e - (n + 1 / 2) * 2 ^ e = 2 ^ e / 2 by ring, abs_of_pos (by positivity)]
    · simp only [g, dif_neg hx]; exact h.near x z hz
  · intro n e h1 h2
    rw [hg n e h1 h2]
    refine ⟨fun hn => if_pos hn, fun hn => if_neg (by rwa [Int.not_even_iff_odd])⟩

lemma isFloat_bracket (hp : 1 ≤ p) {c : ℝ} (hc : IsFloat p c) (h0 : 0 < c) :
    ∃ n e : ℤ, 2 ^ p ≤ 2 * n ∧ n + 1 ≤ 2 ^ p ∧ c = n * (2 : ℝ) ^ e := by
  obtain ⟨n, e, h1, h2, h3, h4⟩ := float_bracket hp h0
  refine ⟨n, e, h1, h2, ?_⟩
  by_contra hne
  exact float_gap h1 hc (lt_of_le_of_ne h3 (Ne.symm hne)) h4

/-- The gap above a floating point number is at most twice the gap below. -/
lemma gap_below (hp : 1 ≤ p) {n e : ℤ} (h1 : 2 ^ p ≤ 2 * n) {c : ℝ} (hc : IsFloat p c)
    (hlt : c < n * (2 : ℝ) ^ e) : c ≤ n * (2 : ℝ) ^ e - 2 ^ e / 2 := by
  by_contra hgt
  rw [not_le] at hgt
  have h2p : (2 : ℤ) ≤ 2 ^ p := by simpa using pow_le_pow_right₀ (by norm_num : (1 : ℤ) ≤ 2) hp
  have he : (2 : ℝ) ^ e = 2 * 2 ^ (e - 1) := by
    rw [zpow_sub_one₀ (by norm_num)]; ring
  refine float_gap (p := p) (n := 2 * n - 1) (e := e - 1) (by omega) hc ?_ ?_
  · push_cast
    rw [he] at hgt
    linarith
  · push_cast
    rw [he] at hlt
    linarith

/-- Adding a weight and subtracting half of it again never leads below the start, although both operations are
rounded. -/
lemma add_sub_half (hp : 2 ≤ p) (h : Nearest p fl) (ht : TiesEven p fl) {c w : ℝ} (hc : IsFloat p c) (hc0 : 0 ≤ c)
    (hw : IsFloat p w) (hw0 : 0 ≤ w) : c ≤ fl (fl (c + w) - fl (1 / 2 * w)) := by
  have hhalf : fl (1 / 2 * w) = 1 / 2 * w := by
    refine h.fix ?_
    obtain ⟨n, e, hn, rfl⟩ := hw
    refine ⟨n, e - 1, hn, ?_⟩
    rw [zpow_sub_one₀ (by norm_num)]; ring
  rw [hhalf]
  have hcc : c ≤ fl (c + w) := by
    rw [← h.fix hc]; exact h.mono (by rw [h.fix hc]; linarith)
  by_cases hbig : c + w / 2 ≤ fl (c + w)
  · calc c = fl c := (h.fix hc).symm
      _ ≤ _ := h.mono (by linarith)
  rw [not_le] at hbig
  rcases hcc.eq_or_lt with heq | hlt
  · -- the weight is lost
    rw [← heq]
    rcases hc0.eq_or_lt with h0 | hcpos
    · rw [← h0, zero_add, h.fix hw] at heq
      rw [← heq, ← h0]
      simp [h.zero]
    obtain ⟨n, e, h1, h2, rfl⟩ := isFloat_bracket (by omega) hc hcpos
    have he : (0 : ℝ) < 2 ^ e := by positivity
    have hn0 : 0 ≤ n := by
      have : (0 : ℤ) < 2 ^ p := by positivity
      omega
    -- w is at most half the gap above
    have hw1 : w ≤ 2 ^ e / 2 := by
      have hf : IsFloat p ((n + 1) * (2 : ℝ) ^ e) := by
        have := isFloat_of_le (p := p) (n := n + 1) (e := e) (by omega) h2
        push_cast at this; exact this
      have a := h.near (n * 2 ^ e + w) _ hf
      rw [← heq, show (n : ℝ) * 2 ^ e - (n * 2 ^ e + w) = -w by ring, abs_neg, abs_of_nonneg hw0,
        show (n + 1) * (2 : ℝ) ^ e - (n * 2 ^ e + w) = 2 ^ e - w by ring] at a
      rcases abs_cases ((2 : ℝ) ^ e - w) with ⟨b, _⟩ | ⟨b, _⟩ <;> rw [b] at a <;> linarith
    obtain ⟨x, hx⟩ : ∃ x, x = (n : ℝ) * 2 ^ e - 1 / 2 * w := ⟨_, rfl⟩
    rw [← hx]
    by_contra hcon
    rw [not_le] at hcon
    have hfb := gap_below (by omega) h1 (h.float x) hcon
    have hnear := h.near x _ hc
    rw [show (n : ℝ) * 2 ^ e - x = 1 / 2 * w by rw [hx]; ring, abs_of_nonneg (by linarith : (0 : ℝ) ≤ 1 / 2 * w)] at hnear
    have hb := neg_abs_le (fl x - x)
    -- hence a tie
    have hw2 : w = 2 ^ e / 2 := by
      apply le_antisymm hw1
      linarith
    have hfx : fl x = n * 2 ^ e - 2 ^ e / 2 := by
      apply le_antisymm hfb
      linarith
    -- so the number below is a floating point number with half the gap: n is a power of two
    have he1 : (2 : ℝ) ^ e = 2 * 2 ^ (e - 1) := by rw [zpow_sub_one₀ (by norm_num)]; ring
    have hpw : (2 * n : ℤ) = 2 ^ p := by
      have hle : (2 * n : ℤ) ≤ 2 ^ p := by
        by_contra hbig'
        rw [not_le] at hbig'
        obtain ⟨q, rfl⟩ : ∃ q, p = q + 1 := ⟨p - 1, by omega⟩
        have hpq : (2 : ℤ) ^ (q + 1) = 2 * 2 ^ q := by ring
        rw [hpq] at hbig'
        refine float_gap (p := q + 1) (n := n - 1) (e := e) (by rw [hpq]; omega) (h.float x) ?_ ?_
        · push_cast; rw [hfx]; linarith
        · push_cast; rw [hfx]; linarith
      omega
    have hodd : Odd (2 * n - 1) := ⟨n - 1, by ring⟩
    have hpp : (2 : ℤ) ≤ 2 ^ p := by
      simpa using pow_le_pow_right₀ (by norm_num : (1 : ℤ) ≤ 2) (by omega : 1 ≤ p)
    have htie := (ht (2 * n - 1) (e - 1) (by omega) (by omega)).2 hodd
    have hxx : ((2 * n - 1 : ℤ) + 1 / 2 : ℝ) * 2 ^ (e - 1) = x := by
      rw [hx, hw2, he1]; push_cast; ring
    rw [hxx, hfx] at htie
    push_cast at htie
    rw [he1] at htie
    have : (0 : ℝ) < 2 ^ (e - 1) := by positivity
    linarith
  · -- impossible: there is a nearer floating point number above
    exfalso
    have hc'pos : 0 < fl (c + w) := lt_of_le_of_lt hc0 hlt
    obtain ⟨n, e, h1, h2, hce⟩ := isFloat_bracket (by omega) (h.float (c + w)) hc'pos
    have he : (0 : ℝ) < 2 ^ e := by positivity
    have hn0 : 0 ≤ n := by
      have : (0 : ℤ) < 2 ^ p := by positivity
      omega
    have hf : IsFloat p ((n + 1) * (2 : ℝ) ^ e) := by
      have := isFloat_of_le (p := p) (n := n + 1) (e := e) (by omega) h2
      push_cast at this; exact this
    have hg := gap_below (by omega) h1 hc (hce ▸ hlt)
    have a := h.near (c + w) _ hf
    rw [hce] at a hbig
    have hneg : (n : ℝ) * 2 ^ e - (c + w) < 0 := by linarith
    rw [abs_of_neg hneg] at a
    rcases abs_cases ((n + 1 : ℝ) * 2 ^ e - (c + w)) with ⟨b, _⟩ | ⟨b, _⟩ <;> rw [b] at a <;> linarith

end Kalepy
