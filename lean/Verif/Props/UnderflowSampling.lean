import Verif.Proofs.Underflow
import Verif.Props.RoundedSampling

/-!
# C157: sampling in arithmetic with gradual underflow

As C136, with a smallest exponent of the floating point numbers: tiny masses and quotients lose digits or vanish.
-/

namespace Kalepy

open Spec

variable {p : ℕ} {q : ℤ} {fl : ℝ → ℝ}

lemma isFloatFrom_one (hq : q ≤ 0) : IsFloatFrom p q 1 := ⟨1, 0, hq, by simpa using one_le_pow₀ (by norm_num : (1 : ℤ) ≤ 2), by simp⟩

lemma Spec.NearestFrom.rounds (hq : q ≤ 0) (h : NearestFrom p q fl) : Rounds (IsFloatFrom p q) fl :=
  ⟨h.float, h.fix, h.mono, isFloatFrom_zero, isFloatFrom_one hq⟩

/-- Every floating point number is a multiple of the smallest one. -/
lemma Spec.IsFloatFrom.multiple {x : ℝ} (h : IsFloatFrom p q x) : ∃ k : ℤ, x = k * (2 : ℝ) ^ q := by
  obtain ⟨n, e, he, -, rfl⟩ := h
  obtain ⟨j, rfl⟩ := Int.le.dest he
  refine ⟨n * 2 ^ j, ?_⟩
  rw [zpow_add₀ (by norm_num), zpow_natCast]
  push_cast
  ring

/-- Small multiples of the smallest number are floating point numbers. -/
lemma isFloatFrom_of_multiple {k : ℤ} (h : |(k : ℝ) * (2 : ℝ) ^ q| ≤ 2 ^ p * (2 : ℝ) ^ q) : IsFloatFrom p q (k * (2 : ℝ) ^ q) := by
  refine ⟨k, q, le_rfl, ?_, rfl⟩
  have hq : (0 : ℝ) < 2 ^ q := by positivity
  rw [abs_mul, abs_of_pos hq] at h
  exact_mod_cast le_of_mul_le_mul_right h hq

/-- Uniform positions stay in the bin, although the width is rounded and may be subnormal. -/
lemma placeFrom_mem (hp : 1 ≤ p) (hfl : NearestFrom p q fl) {a b loc : ℝ} (ha : IsFloatFrom p q a) (hb : IsFloatFrom p q b)
    (hab : a ≤ b) (h0 : 0 ≤ loc) (h1 : loc ≤ 1 - (1 / 2) ^ p) :
    a ≤ fl (a + fl (fl (b - a) * loc)) ∧ fl (a + fl (fl (b - a) * loc)) ≤ b := by
  have hu := hfl.accurate hp
  have hupos : (0 : ℝ) < (1 / 2) ^ p := by positivity
  obtain ⟨w, hw⟩ : ∃ w, w = fl (b - a) := ⟨_, rfl⟩
  rw [← hw]
  have hw0 : 0 ≤ w := hw ▸ hu.nonneg _ (by linarith)
  have hq0 : 0 ≤ fl (w * loc) := hu.nonneg _ (mul_nonneg hw0 h0)
  have hwf : fl w = w := by rw [hw]; exact hfl.fix (hfl.float _)
  have hqw : fl (w * loc) ≤ w := by
    calc fl (w * loc) ≤ fl w := hfl.mono (by nlinarith)
      _ = w := hwf
  constructor
  · calc a = fl a := (hfl.fix ha).symm
      _ ≤ _ := hfl.mono (by linarith)
  · have key : fl (w * loc) ≤ b - a := by
      rcases le_or_gt (b - a) (2 ^ p * (2 : ℝ) ^ q) with hsmall | hbig
      · -- the difference is exact
        obtain ⟨k, hk⟩ := ha.multiple
        obtain ⟨l, hl⟩ := hb.multiple
        have e : b - a = ((l - k : ℤ) : ℝ) * (2 : ℝ) ^ q := by rw [hk, hl]; push_cast; ring
        have : w = b - a := by
          rw [hw, e]
          refine hfl.fix (isFloatFrom_of_multiple ?_)
          rw [← e, abs_of_nonneg (by linarith)]
          exact hsmall
        linarith
      · by_contra hc
        push Not at hc
        have h2 := hfl.near (b - a) (fl (w * loc)) (hfl.float _)
        rw [← hw, abs_of_nonneg (by linarith), abs_of_nonneg (by linarith)] at h2
        have heq : fl (w * loc) = w := by linarith
        have hz : IsFloatFrom p q (2 ^ p * (2 : ℝ) ^ q) := ⟨2 ^ p, q, le_rfl, by rw [abs_of_pos (by positivity)], by push_cast; rfl⟩
        have hwl : 2 ^ p * (2 : ℝ) ^ q < w * loc := by
          by_contra hc'
          push Not at hc'
          have := hfl.mono hc'
          rw [hfl.fix hz] at this
          linarith
        -- both `w` and `w * loc` are normal
        obtain ⟨n, e, he, hn0, hn1, hn2, hn3, hn4⟩ := floatFrom_bracket (q := q) hp (mul_nonneg hw0 h0)
        have hn : 2 ^ p ≤ 2 * n := by
          rcases hn4 with rfl | hn4
          · exfalso
            have h6 : ((n : ℝ) + 1) ≤ 2 ^ p := by exact_mod_cast hn1
            have h7 : ((n : ℝ) + 1) * 2 ^ e ≤ 2 ^ p * 2 ^ e := mul_le_mul_of_nonneg_right h6 (by positivity)
            linarith
          · exact hn4
        have hepos : (0 : ℝ) < 2 ^ e := by positivity
        have hn' : (2 : ℝ) ^ p ≤ 2 * n := by exact_mod_cast hn
        -- the rounding error is at most half of the distance of neighbours
        have herr : w - w * loc ≤ 2 ^ e / 2 := by
          have f1 : IsFloatFrom p q (n * (2 : ℝ) ^ e) := ⟨n, e, he, by rw [abs_of_nonneg hn0]; omega, rfl⟩
          have f2 : IsFloatFrom p q ((n + 1) * (2 : ℝ) ^ e) :=
            ⟨n + 1, e, he, by rw [abs_of_nonneg (by omega)]; omega, by push_cast; rfl⟩
          have g1 := hfl.near (w * loc) _ f1
          have g2 := hfl.near (w * loc) _ f2
          rw [heq] at g1 g2
          rw [abs_of_nonpos (by linarith : n * (2 : ℝ) ^ e - w * loc ≤ 0)] at g1
          rw [abs_of_nonneg (by linarith : 0 ≤ (n + 1) * (2 : ℝ) ^ e - w * loc)] at g2
          have := le_abs_self (w - w * loc)
          linarith
        have h3 : ((1 : ℝ) / 2) ^ p * w ≤ w - w * loc := by nlinarith
        have h4 : 2 ^ e / 2 ≤ ((1 : ℝ) / 2) ^ p * (w * loc) := by
          rw [one_div, inv_pow, ← div_eq_inv_mul, le_div_iff₀ (by positivity)]
          calc (2 : ℝ) ^ e / 2 * 2 ^ p ≤ 2 ^ e / 2 * (2 * n) := by gcongr
            _ = n * 2 ^ e := by ring
            _ ≤ w * loc := hn2
        have hwpos : 0 < w := by linarith
        have h5 : w * loc < w := by nlinarith
        nlinarith
    calc fl (a + fl (w * loc)) ≤ fl b := hfl.mono (by linarith)
      _ = b := hfl.fix hb

/-- **C157 (grid).** In floating point arithmetic with gradual underflow, sampling a grid without interpolation succeeds for
all random numbers, and every sample lies in a bin of positive mass, however small edges and masses are. -/
theorem C157_samples_in_grid {d : ℕ} (hp : 1 ≤ p) (hq : q ≤ 0) (hfl : NearestFrom p q fl) {srt : List ℝ → List ℕ}
    (hs : ∀ l, IsArgsort (srt l) l) {edges : List (List ℝ)} {mass : NDArr d ℝ}
    (hshape : edges.length = d ∧ ∀ i : Fin d, (edges.getD i []).length = mass.shape i + 1)
    (hedges : ∀ e ∈ edges, e.Pairwise (· ≤ ·) ∧ ∀ x ∈ e, IsFloatFrom p q x)
    (hm : ∀ b, ValidIdx mass.shape b → 0 ≤ mass.get b ∧ IsFloatFrom p q (mass.get b))
    (hpos : ∃ b, ValidIdx mass.shape b ∧ 0 < mass.get b)
    {u : ℝ} (h0 : 0 ≤ u) (h1 : u < 1) (loc : Fin d → ℝ) (hloc : ∀ i, 0 ≤ loc i ∧ loc i ≤ 1 - (1 / 2) ^ p) :
    ∃ x, sampleUniformFl fl srt edges mass u loc = .ok x ∧
      ∃ b, ValidIdx mass.shape b ∧ 0 < mass.get b ∧ Spec.InBin edges b x := by
  refine samplesFl_of (hfl.rounds hq) hs hshape hedges (fun b hb => (hm b hb).1) hpos (fun x hx hx0 a ha => ?_) h0 h1 loc
    fun i _ _ ha hb hab => placeFrom_mem hp hfl ha hb hab (hloc i).1 (hloc i).2
  obtain ⟨k, hk, rfl⟩ := List.getElem_of_mem hx
  rw [NDArr.flat_getElem] at hx0 ⊢
  have hk' : k < ∏ i, mass.shape i := by rwa [NDArr.flat_length] at hk
  have hf := (hm _ (unravelIdx_valid hk')).2
  calc 0 < mass.get (unravelIdx mass.shape k) := hx0
    _ = fl (mass.get (unravelIdx mass.shape k)) := (hfl.fix hf).symm
    _ ≤ _ := hfl.mono (by linarith)

/-- **C157 (choice).** In floating point arithmetic with gradual underflow, the data point chosen for a new sample exists and
has a positive weight, for all random numbers and all nonnegative weights of which at least one is not lost when it is divided by
the sum of the weights (for double precision: is at least `2^-1074` of it, which holds for fewer than `2^1074` data). -/
theorem C157_choice (hq : q ≤ 0) (hfl : NearestFrom p q fl) {w : List ℝ} (hw : ∀ x ∈ w, 0 ≤ x)
    {total : ℝ} (ht : 0 < total) (hpos : ∃ x ∈ w, total * 2 ^ q ≤ x) {u : ℝ} (h0 : 0 ≤ u) (h1 : u < 1) :
    choiceIndexFl fl total w u < w.length ∧ 0 < w.getD (choiceIndexFl fl total w u) 0 := by
  obtain ⟨x, hx, hx0⟩ := hpos
  refine choiceFl_of (hfl.rounds hq) hw ht ⟨x, hx, ?_⟩ h0 h1
  have hz : IsFloatFrom p q ((2 : ℝ) ^ q) := ⟨1, q, le_rfl, by simpa using one_le_pow₀ (by norm_num : (1 : ℤ) ≤ 2), by simp⟩
  calc (0 : ℝ) < 2 ^ q := by positivity
    _ = fl (2 ^ q) := (hfl.fix hz).symm
    _ ≤ fl (x / total) := hfl.mono (by rw [le_div_iff₀ ht]; linarith)

/-- **C157 (lost weights).** A weight below half of the smallest positive number times the sum of all weights is lost: as the only
other data point it is never chosen, although its weight is positive. -/
theorem C157_lost (hq : q ≤ 0) (hfl : NearestFrom p q fl) {w₀ w₁ total : ℝ} (h0' : 0 ≤ w₀) (h1' : 0 < w₁)
    (ht : 0 < total) (ht1 : total * 2 ^ q ≤ w₁) (hlost : w₀ < total * (2 ^ q / 2)) {u : ℝ} (h0 : 0 ≤ u) (h1 : u < 1) :
    choiceIndexFl fl total [w₀, w₁] u = 1 := by
  have hz0 : fl 0 = 0 := hfl.fix isFloatFrom_zero
  have e : fl (w₀ / total) = fl (0 / total) := by
    rw [zero_div, hz0]
    apply hfl.underflow
    rw [abs_of_nonneg (div_nonneg h0' ht.le), div_lt_iff₀ ht]
    linarith
  have e2 : choiceIndexFl fl total [w₀, w₁] u = choiceIndexFl fl total [0, w₁] u := by
    simp only [choiceIndexFl, List.map_cons, List.map_nil, e]
  rw [e2]
  obtain ⟨a, b⟩ := C157_choice hq hfl (w := [0, w₁]) (by simp [h1'.le]) ht ⟨w₁, by simp, ht1⟩ h0 h1
  simp only [List.length_cons, List.length_nil] at a
  rcases (by omega : choiceIndexFl fl total [0, w₁] u = 0 ∨ choiceIndexFl fl total [0, w₁] u = 1) with h | h
  · rw [h] at b
    simp at b
  · exact h

/-! ### Examples -/

/-- In double precision: the smallest positive numbers as edges of bins. -/
example : ∃ fl srt, NearestFrom 53 (-1074) fl ∧ (∀ l, IsArgsort (srt l) l) ∧ ∀ u, 0 ≤ u → u < 1 →
    ∃ x, sampleUniformFl fl srt [[0, (2 : ℝ) ^ (-1074 : ℤ)]] ⟨fun _ : Fin 1 => 1, fun _ => (2 : ℝ) ^ (-1074 : ℤ)⟩ u (fun _ => 1 / 2) = .ok x ∧
      0 ≤ x 0 ∧ x 0 ≤ (2 : ℝ) ^ (-1074 : ℤ) := by
  obtain ⟨fl, h⟩ := exists_nearestFrom (p := 53) (by norm_num) (-1074)
  obtain ⟨srt, hs⟩ := exists_argsort
  have hf : IsFloatFrom 53 (-1074) ((2 : ℝ) ^ (-1074 : ℤ)) := ⟨1, -1074, le_rfl, by norm_num, by simp⟩
  have hpos : (0 : ℝ) < 2 ^ (-1074 : ℤ) := by positivity
  refine ⟨fl, srt, h, hs, fun u h0 h1 => ?_⟩
  obtain ⟨x, hx, b, hb, -, hin⟩ := C157_samples_in_grid (by norm_num) (by norm_num) h hs
    (edges := [[0, (2 : ℝ) ^ (-1074 : ℤ)]]) (mass := ⟨fun _ : Fin 1 => 1, fun _ => (2 : ℝ) ^ (-1074 : ℤ)⟩)
    ⟨rfl, fun i => by fin_cases i; rfl⟩
    (by
      intro e he
      rw [List.mem_singleton] at he
      subst he
      refine ⟨by simp, fun x hx => ?_⟩
      rcases List.mem_cons.mp hx with rfl | hx
      · exact isFloatFrom_zero
      · rw [List.mem_singleton.mp hx]
        exact hf)
    (fun b _ => ⟨hpos.le, hf⟩) ⟨fun _ => 0, fun _ => one_pos, hpos⟩ h0 h1 (fun _ => 1 / 2)
    (fun _ => ⟨by norm_num, by norm_num⟩)
  refine ⟨x, hx, ?_⟩
  have hb0 : b 0 = 0 := by have := hb 0; simpa using this
  have := hin 0
  rw [hb0] at this
  simpa [edgeAt] using this

end Kalepy
