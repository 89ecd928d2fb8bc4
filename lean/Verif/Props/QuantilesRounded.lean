import Verif.Props.EdgesRounded
import Verif.Proofs.TiesEven

/-!
# Quantiles in floating point arithmetic (C148)
-/

namespace Kalepy

open Spec

variable {p : ℕ} {fl : ℝ → ℝ}

/-- The positions of the data on the axis of the percentiles are in order. -/
lemma quantileGridFl_sorted (hp : 2 ≤ p) (h : Nearest p fl) (ht : TiesEven p fl) {ws : List ℝ}
    (hw : ∀ w ∈ ws, IsFloat p w ∧ 0 ≤ w) (hs : 0 ≤ sumFl fl ws) : (quantileGridFl fl ws).Pairwise (· ≤ ·) := by
  have hS := steps_cumsum (fl := fl) 0 ws
  have hfix := hS.fixed h.rounds rfl
  have hmono := hS.mono h.rounds rfl fun x hx => (hw x hx).2
  set A := (0 : ℝ) :: cumsumFrom fl 0 ws with hA
  have hlen : A.length = ws.length + 1 := hS.len
  rw [← List.isChain_iff_pairwise, List.isChain_iff_getElem]
  intro k hk
  have hk' : k + 1 < ws.length := by simpa [quantileGridFl, cumsumFrom_length] using hk
  have hget : ∀ i (hi : i < ws.length), (quantileGridFl fl ws)[i]'(by simpa [quantileGridFl, cumsumFrom_length] using hi) =
      fl (fl (A[i + 1]'(by omega) - fl (1 / 2 * ws[i])) / sumFl fl ws) := by
    intro i hi
    simp [quantileGridFl, hA]
  rw [hget k (by omega), hget (k + 1) hk']
  apply h.mono
  refine div_le_div_of_nonneg_right ?_ hs
  have hck : IsFloat p (A[k + 1]'(by omega)) := by
    rw [← hfix (k + 1) (by omega)]; exact h.float _
  have hc0 : 0 ≤ A[k + 1]'(by omega) := by
    have := pairwise_get hmono (i := 0) (j := k + 1) (by omega) (by omega)
    simpa [hA] using this
  have hwk := hw _ (List.getElem_mem (l := ws) (n := k) (by omega))
  have hwk1 := hw _ (List.getElem_mem (l := ws) (n := k + 1) hk')
  calc fl (A[k + 1]'(by omega) - fl (1 / 2 * ws[k])) ≤ fl (A[k + 1]'(by omega)) := h.mono (by
        have : 0 ≤ fl (1 / 2 * ws[k]) := by
          rw [← h.zero]; exact h.mono (by linarith [hwk.2])
        linarith)
    _ = A[k + 1]'(by omega) := h.fix hck
    _ ≤ _ := by
      rw [hS.step (k + 1) hk']
      exact add_sub_half hp h ht hck hc0 hwk1.1 hwk1.2

lemma searchRight_le {l : List ℝ} (x : ℝ) : searchRight l x ≤ l.length := List.countP_le_length

lemma searchRight_split {l : List ℝ} (hl : l.Pairwise (· ≤ ·)) (x : ℝ) (i : ℕ) (hi : i < l.length) :
    l[i] ≤ x ↔ i < searchRight l x := by
  induction l generalizing i with
  | nil => simp at hi
  | cons a l ih =>
    rw [List.pairwise_cons] at hl
    simp only [searchRight, List.countP_cons]
    by_cases ha : a ≤ x
    · simp only [ha, decide_true, if_true]
      cases i with
      | zero => simpa using ha
      | succ i =>
        have := ih hl.2 i (by simpa using hi)
        simp only [List.getElem_cons_succ, this, searchRight]
        omega
    · have h0 : l.countP (fun y => decide (y ≤ x)) = 0 := by
        rw [List.countP_eq_zero]
        intro b hb
        have := hl.1 b hb
        simp only [decide_eq_true_eq, not_le]
        linarith
      simp only [h0, ha, decide_false, Bool.false_eq_true, if_false, add_zero, Nat.not_lt_zero, iff_false, not_le]
      cases i with
      | zero => simpa using lt_of_not_ge ha
      | succ i =>
        have := hl.1 _ (List.getElem_mem (l := l) (n := i) (by simpa using hi))
        simp only [List.getElem_cons_succ]
        linarith

/-- Interpolation with rounding stays above the lower neighbour, and exceeds the upper one by rounding errors only. -/
lemma npInterpFl_bounds (hp : 7 ≤ p) (h : Nearest p fl) {x : ℝ} {xp fp : List ℝ} (hl : xp.length = fp.length)
    (hne : fp ≠ []) (hx : xp.Pairwise (· ≤ ·)) (hf : fp.Pairwise (· ≤ ·)) (hfl : ∀ y ∈ fp, IsFloat p y) :
    (∃ a ∈ fp, a ≤ npInterpFl fl x xp fp) ∧
      ∃ a ∈ fp, ∃ b ∈ fp, npInterpFl fl x xp fp ≤ b + 8 * (1 / 2) ^ p * (|a| + |b|) := by
  have hacc := h.accurate (by omega)
  set u : ℝ := (1 / 2) ^ p with hu
  have hu0 : 0 < u := by positivity
  have hu1 : u ≤ 1 / 128 := by
    calc u ≤ (1 / 2 : ℝ) ^ 7 := pow_le_pow_of_le_one (by norm_num) (by norm_num) hp
      _ = 1 / 128 := by norm_num
  have trivial_case : ∀ y ∈ fp, (∃ a ∈ fp, a ≤ y) ∧ ∃ a ∈ fp, ∃ b ∈ fp, y ≤ b + 8 * u * (|a| + |b|) := by
    intro y hy
    have : 0 ≤ 8 * u * (|y| + |y|) := by positivity
    exact ⟨⟨y, hy, le_rfl⟩, y, hy, y, hy, by linarith⟩
  have hpos : 0 < fp.length := List.length_pos_of_ne_nil hne
  unfold npInterpFl
  have hsr := searchRight_le (l := xp) x
  split
  · rw [List.getD_eq_getElem _ _ hpos]; exact trivial_case _ (List.getElem_mem _)
  · rename_i j hj
    rw [hj] at hsr
    split_ifs with h1 h2
    · rw [List.getD_eq_getElem _ _ (by omega)]; exact trivial_case _ (List.getElem_mem _)
    · rw [List.getD_eq_getElem _ _ (by omega)]; exact trivial_case _ (List.getElem_mem _)
    · have hj1 : j + 1 < fp.length := by omega
      have g0 : fp.getD j 0 = fp[j] := List.getD_eq_getElem _ _ (by omega)
      have g1 : fp.getD (j + 1) 0 = fp[j + 1] := List.getD_eq_getElem _ _ hj1
      have x0 : xp.getD j 0 = xp[j] := List.getD_eq_getElem _ _ (by omega)
      have x1 : xp.getD (j + 1) 0 = xp[j + 1] := List.getD_eq_getElem _ _ (by omega)
      rw [g0, g1, x0, x1]
      have hxj : xp[j] ≤ x := (searchRight_split hx x j (by omega)).mpr (by omega)
      have hxj1 : x < xp[j + 1] := by
        by_contra hc
        have := (searchRight_split hx x (j + 1) (by omega)).mp (not_lt.mp hc)
        omega
      have hy : fp[j] ≤ fp[j + 1] := pairwise_get hf hj1 (by omega)
      have m0 := List.getElem_mem (l := fp) (n := j) (by omega)
      have m1 := List.getElem_mem (l := fp) (n := j + 1) hj1
      obtain ⟨y0, hy0⟩ : ∃ y, y = fp[j] := ⟨_, rfl⟩
      obtain ⟨y1, hy1⟩ : ∃ y, y = fp[j + 1] := ⟨_, rfl⟩
      obtain ⟨a, ha⟩ : ∃ y, y = xp[j] := ⟨_, rfl⟩
      obtain ⟨b, hb⟩ : ∃ y, y = xp[j + 1] := ⟨_, rfl⟩
      rw [← hy0] at m0
      rw [← hy1] at m1
      rw [← hy0, ← hy1] at hy
      rw [← ha] at hxj
      rw [← hb] at hxj1
      rw [← hy0, ← hy1, ← ha, ← hb]
      have hnn : ∀ {z : ℝ}, 0 ≤ z → 0 ≤ fl z := fun hz => by rw [← h.zero]; exact h.mono hz
      have hH := hnn (sub_nonneg.mpr hy)
      have hD := hacc.pos (by linarith) (sub_pos.mpr (lt_of_le_of_lt hxj hxj1))
      have hS := hnn (div_nonneg hH hD.le)
      have hX := hnn (sub_nonneg.mpr hxj)
      have hP := hnn (mul_nonneg hS hX)
      refine ⟨⟨y0, m0, ?_⟩, y0, m0, y1, m1, ?_⟩
      · calc y0 = fl y0 := (h.fix (hfl _ m0)).symm
          _ ≤ _ := h.mono (by linarith)
      · have up : ∀ {z : ℝ}, 0 ≤ z → fl z ≤ (1 + u) * z := fun {z} hz => by
          have := (abs_le.mp (hacc z)).2
          rw [abs_of_nonneg hz] at this
          linarith
        have dn : ∀ {z : ℝ}, 0 ≤ z → (1 - u) * z ≤ fl z := fun {z} hz => by
          have := (abs_le.mp (hacc z)).1
          rw [abs_of_nonneg hz] at this
          linarith
        obtain ⟨Δ, hΔ⟩ : ∃ y, y = y1 - y0 := ⟨_, rfl⟩
        obtain ⟨w, hw⟩ : ∃ y, y = b - a := ⟨_, rfl⟩
        simp only [← hΔ, ← hw] at hH hD hS hP ⊢
        have hΔ0 : 0 ≤ Δ := by linarith
        have hw0 : 0 < w := by linarith
        have b1 := up hΔ0
        have b2 := dn hw0.le
        have h1u : 0 < 1 - u := by linarith
        have b3 : fl Δ / fl w ≤ (1 + u) * Δ / ((1 - u) * w) := by
          apply div_le_div₀ (by positivity) b1 (by positivity) b2
        have b4 : fl (fl Δ / fl w) ≤ (1 + u) * ((1 + u) * Δ / ((1 - u) * w)) :=
          (up (div_nonneg hH hD.le)).trans (by gcongr)
        have b5 : fl (x - a) ≤ (1 + u) * w :=
          (up (sub_nonneg.mpr hxj)).trans (by gcongr; linarith)
        have b6 : fl (fl Δ / fl w) * fl (x - a) ≤ (1 + u) * ((1 + u) * Δ / ((1 - u) * w)) * ((1 + u) * w) := by
          gcongr
        have b7 : fl (fl (fl Δ / fl w) * fl (x - a)) ≤
            (1 + u) * ((1 + u) * ((1 + u) * Δ / ((1 - u) * w)) * ((1 + u) * w)) :=
          (up (mul_nonneg hS hX)).trans (by gcongr)
        have b8 : (1 + u) * ((1 + u) * ((1 + u) * Δ / ((1 - u) * w)) * ((1 + u) * w)) = (1 + u) ^ 4 / (1 - u) * Δ := by
          field_simp
        have b9 : (1 + u) ^ 4 / (1 - u) ≤ 1 + 6 * u := by
          rw [div_le_iff₀ h1u]
          nlinarith [sq_nonneg u, mul_pos hu0 hu0, mul_pos (mul_pos hu0 hu0) hu0, mul_nonneg (sq_nonneg u) (by linarith : 0 ≤ 1 / 128 - u), mul_nonneg (mul_nonneg (sq_nonneg u) hu0.le) (by linarith : 0 ≤ 1 / 128 - u), mul_nonneg hu0.le (by linarith : 0 ≤ 1 / 128 - u)]
        have b10 : fl (fl (fl Δ / fl w) * fl (x - a)) + y0 ≤ y1 + 6 * u * Δ := by
          have := mul_le_mul_of_nonneg_right b9 hΔ0
          linarith
        have b11 := h.mono b10
        have b12 : fl (y1 + 6 * u * Δ) ≤ y1 + 6 * u * Δ + u * |y1 + 6 * u * Δ| := by
          have := (abs_le.mp (hacc (y1 + 6 * u * Δ))).2
          linarith
        have b13 : |y1 + 6 * u * Δ| ≤ |y1| + Δ := by
          refine (abs_add_le _ _).trans ?_
          rw [abs_of_nonneg (by positivity : 0 ≤ 6 * u * Δ)]
          nlinarith
        have b14 : Δ ≤ |y0| + |y1| := by
          rw [hΔ]; linarith [le_abs_self y1, neg_abs_le y0]
        have b15 : u * |y1 + 6 * u * Δ| ≤ u * (|y1| + Δ) := by gcongr
        have b16 := mul_le_mul_of_nonneg_left b14 hu0.le
        have b17 := mul_nonneg hu0.le (abs_nonneg y0)
        refine (b11.trans (b12.trans (add_le_add le_rfl b15))).trans ?_
        have b18 : y1 + 6 * u * Δ + u * (|y1| + Δ) = y1 + 7 * (u * Δ) + u * |y1| := by ring
        have b19 : y1 + 8 * u * (|y0| + |y1|) = y1 + 7 * (u * (|y0| + |y1|)) + u * |y0| + u * |y1| := by ring
        rw [b18, b19]
        linarith

/-- Specification: the weights used; without weights all are one. -/
def Spec.FloatWeights (p : ℕ) (values : List ℝ) : Option (List ℝ) → Prop
  | none => True
  | some w => w.length = values.length ∧ (∀ x ∈ w, IsFloat p x ∧ 0 ≤ x) ∧ ∃ x ∈ w, 0 < x

lemma argsort_values {srt : List ℝ → List ℕ} (hs : ∀ l, IsArgsort (srt l) l) (values : List ℝ) :
    ((srt values).map fun i => values.getD i 0).Perm values := by
  refine ((hs values).1.map _).trans (List.Perm.of_eq ?_)
  apply List.ext_getElem (by simp)
  intro i h1 h2
  simp [h2]

/-- **C148, full claim.** In double precision every quantile lies between the smallest and the largest value. -/
def C148_Claim : Prop :=
  ∀ (fl : ℝ → ℝ), Nearest 53 fl → TiesEven 53 fl → ∀ (srt : List ℝ → List ℕ), (∀ l, IsArgsort (srt l) l) →
    ∀ (values percs : List ℝ) (weights : Option (List ℝ)), (∀ v ∈ values, IsFloat 53 v) →
      Spec.FloatWeights 53 values weights → (∀ x ∈ percs, 0 ≤ x ∧ x ≤ 1 ∧ IsFloat 53 x) →
      ∀ qs, quantilesFl fl srt values percs weights = .ok qs →
        ∀ q ∈ qs, (∃ v ∈ values, v ≤ q) ∧ ∃ v ∈ values, q ≤ v

/-- **C148**, what holds: with rounding to nearest, ties to even, quantiles of any values with any valid weights are
computed, one for each percentile.  None is smaller than the smallest value.  None exceeds the largest value by more
than a few units of rounding of the values.  Missing: that none exceeds the largest value (`C148_refuted`). -/
theorem C148_partial (hp : 7 ≤ p) (h : Nearest p fl) (ht : TiesEven p fl) {srt : List ℝ → List ℕ}
    (hs : ∀ l, IsArgsort (srt l) l) {values percs : List ℝ} {weights : Option (List ℝ)} (hne : values ≠ [])
    (hv : ∀ v ∈ values, IsFloat p v) (hw : Spec.FloatWeights p values weights) (hpc : ∀ x ∈ percs, 0 ≤ x ∧ x ≤ 1) :
    ∃ qs, quantilesFl fl srt values percs weights = .ok qs ∧ qs.length = percs.length ∧
      ∀ q ∈ qs, (∃ v ∈ values, v ≤ q) ∧
        ∃ v ∈ values, ∃ w ∈ values, q ≤ w + 8 * (1 / 2) ^ p * (|v| + |w|) := by
  obtain ⟨ws, hws⟩ : ∃ ws, ws = weights.getD (values.map fun _ => 1) := ⟨_, rfl⟩
  have hwl : ws.length = values.length ∧ (∀ x ∈ ws, IsFloat p x ∧ 0 ≤ x) ∧ ∃ x ∈ ws, 0 < x := by
    cases weights with
    | none =>
      subst hws
      refine ⟨by simp, ?_, ?_⟩
      · intro x hx
        simp only [Option.getD_none, List.mem_map] at hx
        obtain ⟨_, _, rfl⟩ := hx
        exact ⟨isFloat_one, by norm_num⟩
      · obtain ⟨v, hv⟩ := List.exists_mem_of_ne_nil _ hne
        exact ⟨1, List.mem_map.mpr ⟨v, hv, rfl⟩, by norm_num⟩
    | some w => subst hws; exact hw
  obtain ⟨hl, hw1, hw2⟩ := hwl
  have hperm := (hs values).1
  have hvs := argsort_values hs values
  have hwp : ((srt values).map fun i => ws.getD i 0).Perm ws := by
    refine (hperm.map _).trans (List.Perm.of_eq ?_)
    apply List.ext_getElem (by simp [hl])
    intro i h1 h2
    simp [h2]
  have hsum : 0 < sumFl fl ((srt values).map fun i => ws.getD i 0) := by
    exact sumFl_pos (by omega) h (fun x hx => (hw1 x (hwp.mem_iff.mp hx)).2)
      (by obtain ⟨x, hx, hx0⟩ := hw2; exact ⟨x, hwp.mem_iff.mpr hx, hx0⟩)
  have hidx : ∀ i ∈ srt values, i < ws.length := by
    intro i hi
    have := hperm.mem_iff.mp hi
    simpa [hl] using this
  have hne' : ((srt values).map fun i => values.getD i 0) ≠ [] := by
    intro hc
    rw [hc] at hvs
    exact hne (List.nil_perm.mp hvs)
  refine ⟨percs.map fun x => npInterpFl fl x (quantileGridFl fl ((srt values).map fun i => ws.getD i 0))
    ((srt values).map fun i => values.getD i 0), ?_, by simp, ?_⟩
  · unfold quantilesFl
    simp only [← hws]
    rw [if_neg (by simpa using hpc), if_neg (by simpa using hidx), if_neg hsum.ne', if_neg (by simpa using hne')]
  · intro q hq
    obtain ⟨x, _, rfl⟩ := List.mem_map.mp hq
    have := npInterpFl_bounds hp h (x := x)
      (xp := quantileGridFl fl ((srt values).map fun i => ws.getD i 0))
      (fp := (srt values).map fun i => values.getD i 0)
      (by simp [quantileGridFl, cumsumFrom_length]) hne'
      (quantileGridFl_sorted (by omega) h ht (fun x hx => hw1 x (hwp.mem_iff.mp hx)) hsum.le) (hs values).2
      (fun y hy => hv y (hvs.mem_iff.mp hy))
    obtain ⟨⟨a, ha, h1⟩, b, hb, c, hc, h2⟩ := this
    exact ⟨⟨a, hvs.mem_iff.mp ha, h1⟩, b, hvs.mem_iff.mp hb, c, hvs.mem_iff.mp hc, h2⟩

lemma argsort_strict {srt : List ℝ → List ℕ} (hs : ∀ l, IsArgsort (srt l) l) {a b c : ℝ} (hab : a < b) (hbc : b < c) :
    srt [a, b, c] = [0, 1, 2] := by
  obtain ⟨h1, h2⟩ := hs [a, b, c]
  have h3 : (srt [a, b, c]).Pairwise (· ≤ ·) := by
    rw [List.pairwise_map] at h2
    refine h2.imp_of_mem ?_
    intro i j hi hj hij
    have hi' : i < 3 := by simpa using h1.mem_iff.mp hi
    have hj' : j < 3 := by simpa using h1.mem_iff.mp hj
    interval_cases i <;> interval_cases j <;> simp_all <;> linarith
  exact h1.eq_of_pairwise (fun a b _ _ h h' => le_antisymm h h') h3 (by decide)

/-- **C148**: the full claim is false.  The values are -1 and two numbers near 8e-16, with weights 0, 1 and 4; the
quantile of the largest number below 1/10 exceeds all of them. -/
theorem C148_refuted : ¬ C148_Claim := by
  intro hC
  obtain ⟨fl, h, ht⟩ := exists_nearest_even (p := 53) (by norm_num)
  obtain ⟨srt, hs⟩ := exists_argsort
  have f1 : fl (29 / 2 ^ 55 - -1) = 1 + 1 / 2 ^ 50 := by
    rw [h.up (n := 2 ^ 52 + 3) (e := -52) (by norm_num) (by norm_num) (by norm_num) (by norm_num)]
    norm_num
  have e0 : fl 0 = 0 := h.zero
  have e1 : fl 1 = 1 := h.one
  have e2 : fl (1 / 2) = 1 / 2 := h.fix ⟨1, -1, by norm_num, by norm_num⟩
  have e3 : fl 2 = 2 := h.fix ⟨2, 0, by norm_num, by norm_num⟩
  have e5 : fl 5 = 5 := h.fix ⟨5, 0, by norm_num, by norm_num⟩
  have e4 : fl 3 = 3 := h.fix ⟨3, 0, by norm_num, by norm_num⟩
  have e6 : fl (1 / 10) = 7205759403792794 / 2 ^ 56 := by
    rw [h.up (n := 7205759403792793) (e := -56) (by norm_num) (by norm_num) (by norm_num) (by norm_num)]
    norm_num
  have e7 : fl (7205759403792794 / 2 ^ 56) = 7205759403792794 / 2 ^ 56 := h.fix ⟨7205759403792794, -56, by norm_num, by norm_num⟩
  have e8 : fl (7205759403792793 / 2 ^ 56) = 7205759403792793 / 2 ^ 56 := h.fix ⟨7205759403792793, -56, by norm_num, by norm_num⟩
  have e9 : fl ((1 + 1 / 2 ^ 50) / (7205759403792794 / 2 ^ 56)) = 5629499534213125 / 2 ^ 49 := by
    rw [h.up (n := 5629499534213124) (e := -49) (by norm_num) (by norm_num) (by norm_num) (by norm_num)]
    norm_num
  have e10 : fl (5629499534213125 / 2 ^ 49 * (7205759403792793 / 2 ^ 56)) = 1 + 1 / 2 ^ 50 := by
    rw [h.up (n := 2 ^ 52 + 3) (e := -52) (by norm_num) (by norm_num) (by norm_num) (by norm_num)]
    norm_num
  have e11 : fl (1 + 1 / 2 ^ 50 + -1) = 1 / 2 ^ 50 := by
    rw [show (1 + 1 / 2 ^ 50 + -1 : ℝ) = 1 / 2 ^ 50 by norm_num]
    exact h.fix ⟨1, -50, by norm_num, by norm_num⟩
  have hsrt : srt [-1, 29 / 2 ^ 55, 30 / 2 ^ 55] = [0, 1, 2] := argsort_strict hs (by norm_num) (by norm_num)
  have hcs : cumsumFrom fl 0 [0, 1, 4] = [0, 1, 5] := by
    simp only [cumsumFrom, add_zero, zero_add, e0, e1]
    norm_num [e5]
  have hsum : sumFl fl [0, 1, 4] = 5 := by rw [sumFl, hcs]; rfl
  have hgrid : quantileGridFl fl [0, 1, 4] = [0, 7205759403792794 / 2 ^ 56, fl (3 / 5)] := by
    simp only [quantileGridFl, hsum, hcs, List.zipWith_cons_cons, List.zipWith_nil_left]
    rw [mul_zero, e0, sub_zero, e0, zero_div, e0, mul_one, e2, show (1 : ℝ) - 1 / 2 = 1 / 2 by norm_num, e2,
      show (1 : ℝ) / 2 / 5 = 1 / 10 by norm_num, e6, show (1 : ℝ) / 2 * 4 = 2 by norm_num, e3,
      show (5 : ℝ) - 2 = 3 by norm_num, e4]
  have hq : quantilesFl fl srt [-1, 29 / 2 ^ 55, 30 / 2 ^ 55] [7205759403792793 / 2 ^ 56] (some [0, 1, 4]) =
      .ok [1 / 2 ^ 50] := by
    unfold quantilesFl
    simp only [hsrt, Option.getD_some]
    rw [if_neg (by norm_num), if_neg (by simp)]
    have hv : ([0, 1, 2].map fun i => ([-1, 29 / 2 ^ 55, 30 / 2 ^ 55] : List ℝ).getD i 0) = [-1, 29 / 2 ^ 55, 30 / 2 ^ 55] := rfl
    have hw : ([0, 1, 2].map fun i => ([0, 1, 4] : List ℝ).getD i 0) = [0, 1, 4] := rfl
    rw [hv, hw, hsum, if_neg (by norm_num), if_neg (by simp), hgrid]
    simp only [List.map_cons, List.map_nil, Except.ok.injEq, List.cons.injEq, and_true]
    have h35 : (1 : ℝ) / 2 ≤ fl (3 / 5) := by rw [← e2]; exact h.mono (by norm_num)
    have hsr : searchRight [0, 7205759403792794 / 2 ^ 56, fl (3 / 5)] (7205759403792793 / 2 ^ 56 : ℝ) = 1 := by
      simp only [searchRight, List.countP_cons, List.countP_nil]
      rw [decide_eq_true (by norm_num : (0 : ℝ) ≤ 7205759403792793 / 2 ^ 56),
        decide_eq_false (by norm_num : ¬ (7205759403792794 / 2 ^ 56 : ℝ) ≤ 7205759403792793 / 2 ^ 56),
        decide_eq_false (by
          rw [not_le]
          exact lt_of_lt_of_le (by norm_num) h35 : ¬ fl (3 / 5) ≤ (7205759403792793 / 2 ^ 56 : ℝ))]
      rfl
    unfold npInterpFl
    rw [hsr]
    simp only [List.length_cons, List.length_nil, List.getD_cons_zero, List.getD_cons_succ, zero_add]
    rw [if_neg (by norm_num), if_neg (by norm_num), f1, sub_zero, sub_zero, e7, e8, e9, e10, e11]
  have := hC fl h ht srt hs [-1, 29 / 2 ^ 55, 30 / 2 ^ 55] [7205759403792793 / 2 ^ 56] (some [0, 1, 4])
    (by
      intro v hv
      simp only [List.mem_cons, List.not_mem_nil, or_false] at hv
      rcases hv with rfl | rfl | rfl
      · exact ⟨-1, 0, by norm_num, by norm_num⟩
      · exact ⟨29, -55, by norm_num, by norm_num⟩
      · exact ⟨30, -55, by norm_num, by norm_num⟩)
    ⟨rfl, by
      intro v hv
      simp only [List.mem_cons, List.not_mem_nil, or_false] at hv
      rcases hv with rfl | rfl | rfl
      · exact ⟨isFloat_zero, le_rfl⟩
      · exact ⟨isFloat_one, by norm_num⟩
      · exact ⟨⟨4, 0, by norm_num, by norm_num⟩, by norm_num⟩, 1, by simp, by norm_num⟩
    (by
      intro v hv
      simp only [List.mem_cons, List.not_mem_nil, or_false] at hv
      subst hv
      exact ⟨by norm_num, by norm_num, 7205759403792793, -56, by norm_num, by norm_num⟩)
    _ hq _ (List.mem_cons_self ..)
  obtain ⟨_, v, hv, hle⟩ := this
  simp only [List.mem_cons, List.not_mem_nil, or_false] at hv
  rcases hv with rfl | rfl | rfl <;> norm_num at hle

/-- Concrete case of the hypotheses of `C148_partial`: three values with weights, in double precision. -/
example : ∃ fl srt, Nearest 53 fl ∧ TiesEven 53 fl ∧ (∀ l, IsArgsort (srt l) l) ∧
    ∃ qs, quantilesFl fl srt [3, -1, 1 / 2] [1 / 4, 1 / 2] (some [1, 0, 2]) = .ok qs ∧ qs.length = 2 := by
  obtain ⟨fl, h, ht⟩ := exists_nearest_even (p := 53) (by norm_num)
  obtain ⟨srt, hs⟩ := exists_argsort
  obtain ⟨qs, h1, h2, _⟩ := C148_partial (values := [3, -1, 1 / 2]) (percs := [1 / 4, 1 / 2]) (weights := some [1, 0, 2])
    (by norm_num) h ht hs (by simp)
    (by
      intro v hv
      simp only [List.mem_cons, List.not_mem_nil, or_false] at hv
      rcases hv with rfl | rfl | rfl
      · exact ⟨3, 0, by norm_num, by norm_num⟩
      · exact ⟨-1, 0, by norm_num, by norm_num⟩
      · exact ⟨1, -1, by norm_num, by norm_num⟩)
    ⟨rfl, by
      intro v hv
      simp only [List.mem_cons, List.not_mem_nil, or_false] at hv
      rcases hv with rfl | rfl | rfl
      · exact ⟨isFloat_one, by norm_num⟩
      · exact ⟨isFloat_zero, le_rfl⟩
      · exact ⟨⟨2, 0, by norm_num, by norm_num⟩, by norm_num⟩, 1, by simp, by norm_num⟩
    (by
      intro x hx
      simp only [List.mem_cons, List.not_mem_nil, or_false] at hx
      rcases hx with rfl | rfl <;> norm_num)
  exact ⟨fl, srt, h, ht, hs, qs, h1, h2⟩

end Kalepy
