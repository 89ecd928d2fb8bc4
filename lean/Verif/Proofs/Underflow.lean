import Verif.Spec.Underflow
import Verif.Proofs.Rounding

/-!
# Rounding to nearest with gradual underflow: exists, is monotone and accurate
-/

namespace Kalepy

open Spec

variable {p : ℕ} {q : ℤ} {fl : ℝ → ℝ}

lemma isFloatFrom_zero : IsFloatFrom p q 0 := ⟨0, q, le_rfl, by simp, by simp⟩

lemma Spec.IsFloatFrom.neg {x : ℝ} (h : IsFloatFrom p q x) : IsFloatFrom p q (-x) := by
  obtain ⟨n, e, h0, h1, h2⟩ := h
  exact ⟨-n, e, h0, by simpa using h1, by rw [h2]; push_cast; ring⟩

lemma Spec.IsFloatFrom.isFloat {x : ℝ} (h : IsFloatFrom p q x) : IsFloat p x := by
  obtain ⟨n, e, -, h1, h2⟩ := h
  exact ⟨n, e, h1, h2⟩

lemma Spec.NearestFrom.fix (h : NearestFrom p q fl) {x : ℝ} (hx : IsFloatFrom p q x) : fl x = x := by
  have := h.near x x hx
  rw [sub_self, abs_zero] at this
  exact sub_eq_zero.mp (abs_nonpos_iff.mp this)

lemma Spec.NearestFrom.mono (h : NearestFrom p q fl) : Monotone fl := by
  intro x y hxy
  rcases hxy.eq_or_lt with rfl | hlt
  · exact le_rfl
  by_contra hc
  push Not at hc
  have a := h.near x (fl y) (h.float y)
  have b := h.near y (fl x) (h.float x)
  rcases abs_cases (fl x - x) with c1 | c1 <;> rcases abs_cases (fl y - x) with c2 | c2 <;>
    rcases abs_cases (fl y - y) with c3 | c3 <;> rcases abs_cases (fl x - y) with c4 | c4 <;> linarith

/-- Every nonnegative number lies between two neighbouring numbers; the distance is either the smallest one or relatively
small. -/
lemma floatFrom_bracket (hp : 1 ≤ p) {x : ℝ} (hx : 0 ≤ x) :
    ∃ n e : ℤ, q ≤ e ∧ 0 ≤ n ∧ n + 1 ≤ 2 ^ p ∧ n * (2 : ℝ) ^ e ≤ x ∧ x < (n + 1) * (2 : ℝ) ^ e ∧
      (e = q ∨ 2 ^ p ≤ 2 * n) := by
  rcases lt_or_ge x ((2 : ℝ) ^ p * 2 ^ q) with hlt | hge
  · have hq : (0 : ℝ) < 2 ^ q := by positivity
    refine ⟨⌊x / 2 ^ q⌋, q, le_rfl, Int.floor_nonneg.mpr (by positivity), ?_, ?_, ?_, Or.inl rfl⟩
    · have : ⌊x / 2 ^ q⌋ < (2 : ℤ) ^ p := by
        rw [Int.floor_lt]
        push_cast
        rwa [div_lt_iff₀ hq]
      omega
    · rw [← le_div_iff₀ hq]; exact Int.floor_le _
    · rw [← div_lt_iff₀ hq]; exact Int.lt_floor_add_one _
  · have hx0 : 0 < x := lt_of_lt_of_le (by positivity) hge
    obtain ⟨n, e, h1, h2, h3, h4⟩ := float_bracket hp hx0
    refine ⟨n, e, ?_, ?_, h2, h3, h4, Or.inr h1⟩
    · by_contra hc
      push Not at hc
      have h5 : (2 : ℝ) ^ e ≤ 2 ^ q := zpow_le_zpow_right₀ (by norm_num) hc.le
      have h6 : ((n : ℝ) + 1) ≤ 2 ^ p := by exact_mod_cast h2
      have h7 : ((n : ℝ) + 1) * 2 ^ e ≤ 2 ^ p * 2 ^ q := mul_le_mul h6 h5 (by positivity) (by positivity)
      linarith
    · have : (0 : ℤ) < 2 ^ p := by positivity
      omega

/-- Rounding to nearest keeps signs, and its errors are relatively small from the smallest normal number on, which is
`2 ^ (p - 1) 2 ^ q`. -/
lemma Spec.NearestFrom.accurate (hp : 1 ≤ p) (h : NearestFrom p q fl) :
    AccurateFrom ((1 / 2) ^ p) (2 ^ (p - 1) * 2 ^ q) fl := by
  have h0 : fl 0 = 0 := h.fix isFloatFrom_zero
  have hpp : (1 / 2 : ℝ) ^ p * (2 ^ (p - 1) * 2 ^ q) = 2 ^ q / 2 := by
    obtain ⟨k, rfl⟩ : ∃ k, p = k + 1 := ⟨p - 1, by omega⟩
    rw [pow_succ, one_div, inv_pow]
    simp only [Nat.add_sub_cancel]
    field_simp
  have key : ∀ x : ℝ, 0 ≤ x → ∃ z, IsFloatFrom p q z ∧ |z - x| ≤ (1 / 2) ^ p * (x + 2 ^ (p - 1) * 2 ^ q) := by
    intro x hx
    obtain ⟨n, e, he, hn0, h2, h3, h4, h5⟩ := floatFrom_bracket (q := q) hp hx
    have hepos : (0 : ℝ) < 2 ^ e := by positivity
    have hx2 : 2 ^ e / 2 ≤ (1 / 2 : ℝ) ^ p * (x + 2 ^ (p - 1) * 2 ^ q) := by
      rw [mul_add, hpp]
      rcases h5 with rfl | h5
      · have : 0 ≤ (1 / 2 : ℝ) ^ p * x := by positivity
        linarith
      · have h1' : (2 : ℝ) ^ p ≤ 2 * n := by exact_mod_cast h5
        have : (2 : ℝ) ^ p * (2 ^ e / 2) ≤ x := by
          calc (2 : ℝ) ^ p * (2 ^ e / 2) ≤ 2 * n * (2 ^ e / 2) := by gcongr
            _ = n * 2 ^ e := by ring
            _ ≤ x := h3
        have h6 : 2 ^ e / 2 ≤ (1 / 2 : ℝ) ^ p * x := by
          rw [one_div, inv_pow, ← div_eq_inv_mul, le_div_iff₀ (by positivity)]
          linarith
        have : (0 : ℝ) < 2 ^ q := by positivity
        linarith
    rcases le_total (x - n * 2 ^ e) (2 ^ e / 2) with hc | hc
    · refine ⟨n * 2 ^ e, ⟨n, e, he, by rw [abs_of_nonneg hn0]; omega, rfl⟩, ?_⟩
      rw [abs_of_nonpos (by linarith)]; linarith
    · refine ⟨((n + 1 : ℤ) : ℝ) * 2 ^ e, ⟨n + 1, e, he, by rw [abs_of_nonneg (by omega)]; omega, rfl⟩, ?_⟩
      push_cast
      rw [abs_of_nonneg (by linarith)]; linarith
  refine ⟨fun x => ?_, fun x hx => h0 ▸ h.mono hx, fun x hx => h0 ▸ h.mono hx⟩
  rcases le_total 0 x with hx | hx
  · obtain ⟨z, hz, hzx⟩ := key x hx
    rw [abs_of_nonneg hx]
    exact (h.near x z hz).trans hzx
  · obtain ⟨z, hz, hzx⟩ := key (-x) (by linarith)
    have := h.near x (-z) hz.neg
    rw [abs_of_nonpos hx]
    refine this.trans ?_
    rwa [show -z - x = -(z - -x) by ring, abs_neg]

/-- Numbers below half of the smallest positive number are rounded to zero. -/
lemma Spec.NearestFrom.underflow (h : NearestFrom p q fl) {x : ℝ} (hx : |x| < 2 ^ q / 2) : fl x = 0 := by
  obtain ⟨n, e, he, -, hn⟩ := h.float x
  have hq : (0 : ℝ) < 2 ^ q := by positivity
  have h1 := h.near x 0 isFloatFrom_zero
  rw [zero_sub, abs_neg] at h1
  have h2 : |fl x| < 2 ^ q := by
    have := abs_add_le (fl x - x) x
    rw [sub_add_cancel] at this
    linarith
  by_contra hne
  have hn0 : n ≠ 0 := by
    rintro rfl
    exact hne (by rw [hn]; simp)
  have h3 : (1 : ℝ) ≤ |(n : ℝ)| := by exact_mod_cast Int.one_le_abs hn0
  have h4 : (2 : ℝ) ^ q ≤ 2 ^ e := zpow_le_zpow_right₀ (by norm_num) he
  rw [hn, abs_mul, abs_of_pos (by positivity : (0 : ℝ) < 2 ^ e)] at h2
  nlinarith

/-- Rounding to nearest with gradual underflow exists. -/
theorem exists_nearestFrom (hp : 1 ≤ p) (q : ℤ) : ∃ fl, NearestFrom p q fl := by
  have gap : ∀ {n e : ℤ}, (e = q ∨ 2 ^ p ≤ 2 * n) → ∀ z, IsFloatFrom p q z →
      z ≤ n * (2 : ℝ) ^ e ∨ (n + 1) * (2 : ℝ) ^ e ≤ z := by
    intro n e hn z hz
    by_contra hc
    push Not at hc
    rcases hn with rfl | hn
    · obtain ⟨m, f, hf, -, rfl⟩ := hz
      obtain ⟨k, rfl⟩ := Int.le.dest hf
      have he : (0 : ℝ) < 2 ^ e := by positivity
      rw [zpow_add₀ (by norm_num), mul_comm ((2 : ℝ) ^ e), ← mul_assoc, zpow_natCast] at hc
      have a' : n < m * 2 ^ k := by exact_mod_cast lt_of_mul_lt_mul_right hc.1 he.le
      have b' : m * 2 ^ k < n + 1 := by exact_mod_cast lt_of_mul_lt_mul_right hc.2 he.le
      omega
    · exact float_gap hn hz.isFloat hc.1 hc.2
  have pos : ∀ x : ℝ, 0 ≤ x → ∃ y, IsFloatFrom p q y ∧ ∀ z, IsFloatFrom p q z → |y - x| ≤ |z - x| := by
    intro x hx
    obtain ⟨n, e, he, hn0, h2, h3, h4, h5⟩ := floatFrom_bracket (q := q) hp hx
    have f1 : IsFloatFrom p q (n * (2 : ℝ) ^ e) := ⟨n, e, he, by rw [abs_of_nonneg hn0]; omega, rfl⟩
    have f2 : IsFloatFrom p q ((n + 1) * (2 : ℝ) ^ e) :=
      ⟨n + 1, e, he, by rw [abs_of_nonneg (by omega)]; omega, by push_cast; rfl⟩
    have hz := gap h5
    rcases le_total (x - n * (2 : ℝ) ^ e) ((n + 1) * (2 : ℝ) ^ e - x) with hc | hc
    · refine ⟨_, f1, fun z h => ?_⟩
      rw [abs_of_nonpos (by linarith)]
      rcases hz z h with h' | h'
      · rw [abs_of_nonpos (by linarith)]; linarith
      · rw [abs_of_nonneg (by linarith)]; linarith
    · refine ⟨_, f2, fun z h => ?_⟩
      rw [abs_of_nonneg (by linarith)]
      rcases hz z h with h' | h'
      · rw [abs_of_nonpos (by linarith)]; linarith
      · rw [abs_of_nonneg (by linarith)]; linarith
  have key : ∀ x : ℝ, ∃ y, IsFloatFrom p q y ∧ ∀ z, IsFloatFrom p q z → |y - x| ≤ |z - x| := by
    intro x
    rcases le_total 0 x with hx | hx
    · exact pos x hx
    · obtain ⟨y, hy, h⟩ := pos (-x) (by linarith)
      refine ⟨-y, hy.neg, fun z hz => ?_⟩
      have := h (-z) hz.neg
      rwa [show y - -x = -(-y - x) by ring, abs_neg, show -z - -x = -(z - x) by ring, abs_neg] at this
  choose f hf using key
  exact ⟨f, fun x => (hf x).1, fun x => (hf x).2⟩

/-! ### calculus of errors -/

variable {u t G H S T a a' b b' : ℝ}

/-- A rounding is harmless if the size by which errors are measured is at least `t`. -/
lemma Approx.roundFrom (hu : AccurateFrom u t fl) (hu0 : 0 ≤ u) (h : Approx G S a b) (hG : 1 ≤ G) (ht : t ≤ S) :
    Approx (G * (1 + 2 * u)) S (fl a) b := by
  refine ⟨?_, h.size⟩
  have h1 := hu.err a
  have h2 := h.abs_le
  have h3 : |fl a - b| ≤ |fl a - a| + |a - b| := abs_sub_le _ _ _
  have hS := h.nonneg
  have h4 : u * (|a| + t) ≤ u * (2 * (G * S)) := by
    refine mul_le_mul_of_nonneg_left ?_ hu0
    nlinarith
  have h5 := h.err
  nlinarith

/-- A loop of rounded additions. -/
lemma Approx.foldlFrom {α : Type*} (hu : AccurateFrom u t fl) (hu0 : 0 ≤ u) (l : List α) {s s' T : α → ℝ} :
    ∀ {H S acc c : ℝ}, Approx H S acc c → 1 ≤ H → G ≤ H → (∀ i ∈ l, Approx G (T i) (s i) (s' i) ∧ t ≤ T i) →
      Approx (H * (1 + 2 * u) ^ l.length) (S + (l.map T).sum) (l.foldl (fun acc i => fl (acc + s i)) acc)
        (c + (l.map s').sum) := by
  induction l with
  | nil => intro H S acc c h _ _ _; simpa using h
  | cons i l ih =>
    intro H S acc c h hH hGH ht
    have h1 : Approx H (S + T i) (acc + s i) (c + s' i) := h.add ((ht i (by simp)).1.le hGH)
    have h2 := h1.roundFrom hu hu0 hH (by linarith [(ht i (by simp)).2, h.nonneg])
    have h3 : H ≤ H * (1 + 2 * u) := by nlinarith
    have := ih h2 (hH.trans h3) (hGH.trans h3) fun j hj => ht j (by simp [hj])
    simp only [List.foldl_cons, List.length_cons, List.map_cons, List.sum_cons]
    rw [pow_succ', ← mul_assoc, ← add_assoc, ← add_assoc]
    exact this

/-- A loop of rounded additions from zero. -/
lemma Approx.foldlFrom_zero {α : Type*} (hu : AccurateFrom u t fl) (hu0 : 0 ≤ u) (hG : 1 ≤ G) (l : List α)
    {s s' T : α → ℝ} (ht : ∀ i ∈ l, Approx G (T i) (s i) (s' i) ∧ t ≤ T i) :
    Approx (G * (1 + 2 * u) ^ l.length) (l.map T).sum (l.foldl (fun acc i => fl (acc + s i)) 0) (l.map s').sum := by
  have h0 : Approx G 0 0 0 := ⟨by simp, by simp⟩
  simpa using Approx.foldlFrom hu hu0 l h0 hG le_rfl ht

end Kalepy
