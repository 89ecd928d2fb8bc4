import Mathlib.Data.Int.Log
import Mathlib.Algebra.Order.Archimedean.Real.Basic
import Mathlib.Algebra.Order.Round
import Mathlib.Tactic.Linarith
import Mathlib.Tactic.Positivity
import Mathlib.Tactic.FieldSimp
import Mathlib.Tactic.Ring
import Mathlib.Tactic.NormNum
import Mathlib.Tactic.GCongr
import Verif.Spec.Rounding

/-!
# Rounding to nearest: monotone, idempotent, accurate; and an example
-/

namespace Kalepy

open Spec

variable {p : ℕ} {fl : ℝ → ℝ}

lemma isFloat_zero : IsFloat p 0 := ⟨0, 0, by simp, by simp⟩

lemma isFloat_one : IsFloat p 1 := ⟨1, 0, by simpa using one_le_pow₀ (by norm_num : (1 : ℤ) ≤ 2), by simp⟩

lemma Spec.IsFloat.neg {x : ℝ} (h : IsFloat p x) : IsFloat p (-x) := by
  obtain ⟨n, e, h1, h2⟩ := h
  exact ⟨-n, e, by simpa using h1, by rw [h2]; push_cast; ring⟩

/-- No floating point number lies strictly between neighbours. -/
lemma float_gap {n e : ℤ} (hn : 2 ^ p ≤ 2 * n) {z : ℝ} (hz : IsFloat p z) (h1 : n * (2 : ℝ) ^ e < z)
    (h2 : z < (n + 1) * (2 : ℝ) ^ e) : False := by
  obtain ⟨m, f, hm, rfl⟩ := hz
  have he : (0 : ℝ) < 2 ^ e := by positivity
  rcases le_or_gt e f with hf | hf
  · obtain ⟨k, rfl⟩ := Int.le.dest hf
    rw [zpow_add₀ (by norm_num), mul_comm ((2 : ℝ) ^ e), ← mul_assoc, zpow_natCast] at h1 h2
    have a := lt_of_mul_lt_mul_right h1 he.le
    have b := lt_of_mul_lt_mul_right h2 he.le
    have a' : n < m * 2 ^ k := by exact_mod_cast a
    have b' : m * 2 ^ k < n + 1 := by exact_mod_cast b
    omega
  · have hm' : (m : ℝ) ≤ 2 ^ p := by exact_mod_cast (le_abs_self m).trans hm
    have hn' : (2 : ℝ) ^ p ≤ 2 * n := by exact_mod_cast hn
    have h3 : (2 : ℝ) ^ f ≤ 2 ^ (e - 1) := zpow_le_zpow_right₀ (by norm_num) (by omega)
    have h4 : (2 : ℝ) ^ (e - 1) = 2 ^ e / 2 := by rw [zpow_sub_one₀ (by norm_num)]; ring
    have h5 : (m : ℝ) * 2 ^ f ≤ 2 ^ p * 2 ^ f := mul_le_mul_of_nonneg_right hm' (by positivity)
    have h6 : (2 : ℝ) ^ p * 2 ^ f ≤ 2 ^ p * (2 ^ e / 2) := by rw [← h4]; gcongr
    have h7 : (2 : ℝ) ^ p * (2 ^ e / 2) ≤ 2 * n * (2 ^ e / 2) := by gcongr
    linarith

lemma Spec.Nearest.fix (h : Nearest p fl) {x : ℝ} (hx : IsFloat p x) : fl x = x := by
  have := h.near x x hx
  rw [sub_self, abs_zero] at this
  exact sub_eq_zero.mp (abs_nonpos_iff.mp this)

lemma Spec.Nearest.idem (h : Nearest p fl) (x : ℝ) : fl (fl x) = fl x := h.fix (h.float x)

lemma Spec.Nearest.zero (h : Nearest p fl) : fl 0 = 0 := h.fix isFloat_zero

lemma Spec.Nearest.one (h : Nearest p fl) : fl 1 = 1 := h.fix isFloat_one

lemma Spec.Nearest.mono (h : Nearest p fl) : Monotone fl := by
  intro x y hxy
  rcases hxy.eq_or_lt with rfl | hlt
  · exact le_rfl
  by_contra hc
  push Not at hc
  have a := h.near x (fl y) (h.float y)
  have b := h.near y (fl x) (h.float x)
  rcases abs_cases (fl x - x) with c1 | c1 <;> rcases abs_cases (fl y - x) with c2 | c2 <;>
    rcases abs_cases (fl y - y) with c3 | c3 <;> rcases abs_cases (fl x - y) with c4 | c4 <;> linarith

/-- Every positive number lies between two neighbouring floating point numbers. -/
lemma float_bracket (hp : 1 ≤ p) {x : ℝ} (hx : 0 < x) :
    ∃ n e : ℤ, 2 ^ p ≤ 2 * n ∧ n + 1 ≤ 2 ^ p ∧ n * (2 : ℝ) ^ e ≤ x ∧ x < (n + 1) * (2 : ℝ) ^ e := by
  have h1 := Int.zpow_log_le_self (b := 2) (by norm_num) hx
  have h2 := Int.lt_zpow_succ_log_self (b := 2) (by norm_num) x
  set l := Int.log 2 x with hl
  push_cast at h1 h2
  set e : ℤ := l - p + 1 with he
  have hepos : (0 : ℝ) < 2 ^ e := by positivity
  have hle : (2 : ℝ) ^ l = 2 ^ (p - 1 : ℕ) * 2 ^ e := by
    rw [← zpow_natCast, ← zpow_add₀ (by norm_num)]
    congr 1; rw [he]; push_cast [hp]; ring
  have hle' : (2 : ℝ) ^ (l + 1) = 2 ^ p * 2 ^ e := by
    rw [← zpow_natCast, ← zpow_add₀ (by norm_num)]
    congr 1; rw [he]; ring
  rw [hle] at h1
  rw [hle'] at h2
  have q1 : (2 : ℝ) ^ (p - 1 : ℕ) ≤ x / 2 ^ e := by rwa [le_div_iff₀ hepos]
  have q2 : x / 2 ^ e < (2 : ℝ) ^ p := by rwa [div_lt_iff₀ hepos]
  refine ⟨⌊x / 2 ^ e⌋, e, ?_, ?_, ?_, ?_⟩
  · have : ((2 : ℤ) ^ (p - 1 : ℕ)) ≤ ⌊x / 2 ^ e⌋ := by
      rw [Int.le_floor]; push_cast; exact q1
    have hpp : (2 : ℤ) ^ p = 2 * 2 ^ (p - 1) := by
      rw [← pow_succ']; congr 1; omega
    omega
  · have : ⌊x / 2 ^ e⌋ < (2 : ℤ) ^ p := by
      rw [Int.floor_lt]; push_cast; exact q2
    omega
  · rw [← le_div_iff₀ hepos]; exact Int.floor_le _
  · rw [← div_lt_iff₀ hepos]; exact Int.lt_floor_add_one _

lemma isFloat_of_le {n e : ℤ} (h0 : 0 ≤ n) (h : n ≤ 2 ^ p) : IsFloat p (n * (2 : ℝ) ^ e) :=
  ⟨n, e, by rwa [abs_of_nonneg h0], rfl⟩

lemma Spec.Nearest.accurate (hp : 1 ≤ p) (h : Nearest p fl) : Accurate ((1 / 2) ^ p) fl := by
  have key : ∀ x : ℝ, 0 < x → ∃ z, IsFloat p z ∧ |z - x| ≤ (1 / 2) ^ p * x := by
    intro x hx
    obtain ⟨n, e, h1, h2, h3, h4⟩ := float_bracket hp hx
    have hn0 : 0 ≤ n := by
      have : (0 : ℤ) < 2 ^ p := by positivity
      omega
    have hepos : (0 : ℝ) < 2 ^ e := by positivity
    have h1' : (2 : ℝ) ^ p ≤ 2 * n := by exact_mod_cast h1
    have hx2 : 2 ^ e / 2 ≤ (1 / 2 : ℝ) ^ p * x := by
      have : (2 : ℝ) ^ p * (2 ^ e / 2) ≤ x := by
        calc (2 : ℝ) ^ p * (2 ^ e / 2) ≤ 2 * n * (2 ^ e / 2) := by gcongr
          _ = n * 2 ^ e := by ring
          _ ≤ x := h3
      rw [one_div, inv_pow, ← div_eq_inv_mul, le_div_iff₀ (by positivity)]
      linarith
    rcases le_total (x - n * 2 ^ e) (2 ^ e / 2) with hc | hc
    · refine ⟨n * 2 ^ e, isFloat_of_le hn0 (by omega), ?_⟩
      rw [abs_of_nonpos (by linarith)]; linarith
    · refine ⟨((n + 1 : ℤ) : ℝ) * 2 ^ e, isFloat_of_le (by omega) h2, ?_⟩
      push_cast
      rw [abs_of_nonneg (by linarith)]; linarith
  intro x
  rcases lt_trichotomy x 0 with hx | rfl | hx
  · obtain ⟨z, hz, hzx⟩ := key (-x) (by linarith)
    have := h.near x (-z) hz.neg
    rw [abs_of_neg hx]
    refine this.trans ?_
    rwa [show -z - x = -(z - -x) by ring, abs_neg]
  · rw [h.zero]; simp
  · obtain ⟨z, hz, hzx⟩ := key x hx
    rw [abs_of_pos hx]
    exact (h.near x z hz).trans hzx

/-- Rounding of a number closest to the lower of two neighbours. -/
lemma Spec.Nearest.down (h : Nearest p fl) {n e : ℤ} (hn : 2 ^ p ≤ 2 * n) (hn' : n ≤ 2 ^ p) {x : ℝ}
    (h1 : n * (2 : ℝ) ^ e ≤ x) (h2 : x < (n + 1 / 2) * (2 : ℝ) ^ e) : fl x = n * 2 ^ e := by
  have hn0 : 0 ≤ n := by
    have : (0 : ℤ) < 2 ^ p := by positivity
    omega
  have hz : IsFloat p (n * (2 : ℝ) ^ e) := isFloat_of_le hn0 hn'
  have a : n * (2 : ℝ) ^ e ≤ fl x := by rw [← h.fix hz]; exact h.mono h1
  have b := h.near x _ hz
  rw [abs_of_nonpos (by linarith : n * (2 : ℝ) ^ e - x ≤ 0)] at b
  have c := le_abs_self (fl x - x)
  by_contra hne
  refine float_gap hn (h.float x) (lt_of_le_of_ne a (Ne.symm hne)) ?_
  have : (0 : ℝ) < 2 ^ e := by positivity
  nlinarith

/-- Rounding of a number closest to the upper of two neighbours. -/
lemma Spec.Nearest.up (h : Nearest p fl) {n e : ℤ} (hn : 2 ^ p ≤ 2 * n) (hn' : n + 1 ≤ 2 ^ p) {x : ℝ}
    (h1 : (n + 1 / 2) * (2 : ℝ) ^ e < x) (h2 : x ≤ (n + 1) * (2 : ℝ) ^ e) : fl x = (n + 1) * 2 ^ e := by
  have hn0 : 0 ≤ n := by
    have : (0 : ℤ) < 2 ^ p := by positivity
    omega
  have hz : IsFloat p ((n + 1) * (2 : ℝ) ^ e) := by
    have := isFloat_of_le (p := p) (n := n + 1) (e := e) (by omega) hn'
    push_cast at this; exact this
  have a : fl x ≤ (n + 1) * (2 : ℝ) ^ e := by rw [← h.fix hz]; exact h.mono h2
  have b := h.near x _ hz
  rw [abs_of_nonneg (by linarith : 0 ≤ (n + 1) * (2 : ℝ) ^ e - x)] at b
  have c := neg_abs_le (fl x - x)
  by_contra hne
  refine float_gap hn (h.float x) ?_ (lt_of_le_of_ne a hne)
  have : (0 : ℝ) < 2 ^ e := by positivity
  nlinarith

/-- Rounding to nearest exists. -/
theorem exists_nearest (hp : 1 ≤ p) : ∃ fl, Nearest p fl := by
  have key : ∀ x : ℝ, ∃ y, IsFloat p y ∧ ∀ z, IsFloat p z → |y - x| ≤ |z - x| := by
    have pos : ∀ x : ℝ, 0 < x → ∃ y, IsFloat p y ∧ ∀ z, IsFloat p z → |y - x| ≤ |z - x| := by
      intro x hx
      obtain ⟨n, e, h1, h2, h3, h4⟩ := float_bracket hp hx
      have hn0 : 0 ≤ n := by
        have : (0 : ℤ) < 2 ^ p := by positivity
        omega
      have f1 : IsFloat p (n * (2 : ℝ) ^ e) := isFloat_of_le hn0 (by omega)
      have f2 : IsFloat p ((n + 1) * (2 : ℝ) ^ e) := by
        have := isFloat_of_le (p := p) (n := n + 1) (e := e) (by omega) h2
        push_cast at this; exact this
      have hz : ∀ z, IsFloat p z → z ≤ n * (2 : ℝ) ^ e ∨ (n + 1) * (2 : ℝ) ^ e ≤ z := by
        intro z hz
        by_contra hc
        push Not at hc
        exact float_gap h1 hz hc.1 hc.2
      rcases le_total (x - n * (2 : ℝ) ^ e) ((n + 1) * (2 : ℝ) ^ e - x) with hc | hc
      · refine ⟨_, f1, fun z h => ?_⟩
        rw [abs_of_nonpos (by linarith)]
        rcases hz z h with h' | h'
        · rw [abs_of_nonpos (by linarith)]; linarith
        · rw [abs_of_nonneg (by linarith)]; linarith
      · refine ⟨_, f2, fun z h => ?_⟩
        rw [abs_of_nonneg (by linarith)]
        rcases hz z h with h' | h'
        · rw [abs_of_nonpos (by linarith)]; linarith
        · rw [abs_of_nonneg (by linarith)]; linarith
    intro x
    rcases lt_trichotomy x 0 with hx | rfl | hx
    · obtain ⟨y, hy, h⟩ := pos (-x) (by linarith)
      refine ⟨-y, hy.neg, fun z hz => ?_⟩
      have := h (-z) hz.neg
      rwa [show y - -x = -(-y - x) by ring, abs_neg, show -z - -x = -(z - x) by ring, abs_neg] at this
    · exact ⟨0, isFloat_zero, fun z _ => by simp⟩
    · exact pos x hx
  choose f hf using key
  exact ⟨f, fun x => (hf x).1, fun x => (hf x).2⟩

/-! ### calculus of errors -/

/-- `a` approximates `b`, which is at most `S`, up to the fraction `G - 1` of `S`. -/
structure Approx (G S a b : ℝ) : Prop where
  err : |a - b| ≤ (G - 1) * S
  size : |b| ≤ S

variable {u G H S T a a' b b' : ℝ}

lemma Approx.nonneg (h : Approx G S a b) : 0 ≤ S := (abs_nonneg _).trans h.size

lemma Approx.abs_le (h : Approx G S a b) : |a| ≤ G * S := by
  have h1 := h.err
  have h2 := h.size
  have h3 := abs_add_le (a - b) b
  rw [sub_add_cancel] at h3
  linarith

lemma Approx.exact (b : ℝ) : Approx 1 |b| b b := ⟨by simp, le_rfl⟩

lemma Approx.le (h : Approx G S a b) (hGH : G ≤ H) : Approx H S a b :=
  ⟨h.err.trans (mul_le_mul_of_nonneg_right (by linarith) h.nonneg), h.size⟩

lemma Approx.le_size (h : Approx G S a b) (hG : 1 ≤ G) (hST : S ≤ T) : Approx G T a b :=
  ⟨h.err.trans (mul_le_mul_of_nonneg_left hST (by linarith)), h.size.trans hST⟩

lemma Approx.round (hu : Accurate u fl) (hu0 : 0 ≤ u) (h : Approx G S a b) : Approx (G * (1 + u)) S (fl a) b := by
  refine ⟨?_, h.size⟩
  have h1 := hu a
  have h2 := h.abs_le
  have h3 : |fl a - b| ≤ |fl a - a| + |a - b| := abs_sub_le _ _ _
  have h4 := mul_le_mul_of_nonneg_left h2 hu0
  have h5 := h.err
  nlinarith

lemma Approx.add (h : Approx G S a b) (h' : Approx G T a' b') : Approx G (S + T) (a + a') (b + b') := by
  refine ⟨?_, (abs_add_le _ _).trans (add_le_add h.size h'.size)⟩
  rw [show a + a' - (b + b') = (a - b) + (a' - b') by ring, mul_add]
  exact (abs_add_le _ _).trans (add_le_add h.err h'.err)

lemma Approx.neg (h : Approx G S a b) : Approx G S (-a) (-b) :=
  ⟨by rw [show -a - -b = -(a - b) by ring, abs_neg]; exact h.err, by rw [abs_neg]; exact h.size⟩

lemma Approx.sub (h : Approx G S a b) (h' : Approx G T a' b') : Approx G (S + T) (a - a') (b - b') := by
  rw [sub_eq_add_neg, sub_eq_add_neg]; exact h.add h'.neg

lemma Approx.mul (h : Approx G S a b) (h' : Approx H T a' b') :
    Approx (G * H) (S * T) (a * a') (b * b') := by
  refine ⟨?_, by rw [abs_mul]; exact mul_le_mul h.size h'.size (abs_nonneg _) h.nonneg⟩
  have e : a * a' - b * b' = a * (a' - b') + (a - b) * b' := by ring
  have h1 : |a * (a' - b')| ≤ G * S * ((H - 1) * T) := by
    rw [abs_mul]
    exact mul_le_mul h.abs_le h'.err (abs_nonneg _) ((abs_nonneg _).trans h.abs_le)
  have h2 : |(a - b) * b'| ≤ (G - 1) * S * T := by
    rw [abs_mul]
    exact mul_le_mul h.err h'.size (abs_nonneg _) ((abs_nonneg _).trans h.err)
  rw [e]
  refine (abs_add_le _ _).trans ((add_le_add h1 h2).trans (le_of_eq ?_))
  ring

/-- A loop of rounded additions. -/
lemma Approx.foldl {α : Type*} (hu : Accurate u fl) (hu0 : 0 ≤ u) (l : List α) {t t' T : α → ℝ} :
    ∀ {H S acc c : ℝ}, Approx H S acc c → G ≤ H → 0 ≤ H → (∀ i ∈ l, Approx G (T i) (t i) (t' i)) →
      Approx (H * (1 + u) ^ l.length) (S + (l.map T).sum) (l.foldl (fun acc i => fl (acc + t i)) acc)
        (c + (l.map t').sum) := by
  induction l with
  | nil => intro H S acc c h _ _ _; simpa using h
  | cons i l ih =>
    intro H S acc c h hGH hH ht
    have h1 : Approx H (S + T i) (acc + t i) (c + t' i) := h.add ((ht i (by simp)).le hGH)
    have h2 := h1.round hu hu0
    have h3 : H ≤ H * (1 + u) := by nlinarith
    have := ih h2 (hGH.trans h3) (hH.trans h3) fun j hj => ht j (by simp [hj])
    simp only [List.foldl_cons, List.length_cons, List.map_cons, List.sum_cons]
    rw [pow_succ', ← mul_assoc, ← add_assoc, ← add_assoc]
    exact this

/-- A loop of rounded additions from zero. -/
lemma Approx.foldl_zero {α : Type*} (hu : Accurate u fl) (hu0 : 0 ≤ u) (hG : 0 ≤ G) (l : List α) {t t' T : α → ℝ}
    (ht : ∀ i ∈ l, Approx G (T i) (t i) (t' i)) :
    Approx (G * (1 + u) ^ l.length) (l.map T).sum (l.foldl (fun acc i => fl (acc + t i)) 0) (l.map t').sum := by
  have h0 : Approx G 0 0 0 := ⟨by simp, by simp⟩
  simpa using Approx.foldl hu hu0 l h0 le_rfl hG ht

lemma Spec.Accurate.nonneg (hu : Accurate u fl) (hu1 : u ≤ 1) {x : ℝ} (hx : 0 ≤ x) : 0 ≤ fl x := by
  have h1 := neg_abs_le (fl x - x)
  have h2 := hu x
  rw [abs_of_nonneg hx] at h2
  nlinarith

lemma Spec.Accurate.pos (hu : Accurate u fl) (hu1 : u < 1) {x : ℝ} (hx : 0 < x) : 0 < fl x := by
  have h1 := neg_abs_le (fl x - x)
  have h2 := hu x
  rw [abs_of_pos hx] at h2
  nlinarith

lemma Spec.Accurate.nonpos (hu : Accurate u fl) (hu1 : u ≤ 1) {x : ℝ} (hx : x ≤ 0) : fl x ≤ 0 := by
  have h1 := le_abs_self (fl x - x)
  have h2 := hu x
  rw [abs_of_nonpos hx] at h2
  nlinarith

end Kalepy
