import Mathlib.Tactic.IntervalCases
import Verif.Model.RoundedSpacing
import Verif.Props.EdgesRounded
import Verif.Props.Spacing
import Verif.Props.Edges1d

/-!
# C154: spacing, midpoints and subdivide in floating point arithmetic
-/

namespace Kalepy

open Spec

/-! ## Specification -/

/-- Specification: `lg` computes decimal logarithms: the results are floating point numbers with `p` digits, whose error is at
most the fraction `ε` of the logarithm. -/
structure Spec.Log10 (p : ℕ) (ε : ℝ) (lg : ℝ → ℝ) : Prop where
  float : ∀ x, IsFloat p (lg x)
  near : ∀ x, 0 < x → |lg x - Real.logb 10 x| ≤ ε * |Real.logb 10 x|

/-- Specification: `pw` computes powers of ten up to the fraction `ε` of their value. -/
def Spec.Pow10 (ε : ℝ) (pw : ℝ → ℝ) : Prop := ∀ y, |pw y - (10 : ℝ) ^ y| ≤ ε * (10 : ℝ) ^ y

variable {p : ℕ} {fl lg pw : ℝ → ℝ}

/-! ## Without rounding -/

lemma linspaceNumFl_id (a b : ℝ) (n : ℤ) : linspaceNumFl id a b n = npLinspaceNum a b n := by
  simp only [linspaceNumFl, npLinspaceNum, linspaceFl_id]

lemma midpointsFl_id (l : List ℝ) : midpointsFl id l = midpoints1 l := rfl

/-- **C154**: without rounding, the model of this file is that of the other parts. -/
theorem C154_exact (dt : DType) (data : List ℝ) (scale : String) (num : Option ℝ) (dex : ℝ) (positive : Bool) (xx : List ℝ)
    (m : ℕ) (a b : ℝ) (n : ℤ) :
    spacingFl id (Real.logb 10) ((10 : ℝ) ^ ·) dt data scale num dex positive = spacing dt data scale num dex positive ∧
    midpointsFl id xx = midpoints1 xx ∧ midpointsLogFl id (Real.logb 10) ((10 : ℝ) ^ ·) xx = midpointsLog xx ∧
    binsFl id a b n = binsOf a b n ∧ subdivideFl id xx m = subdivide xx m := by
  refine ⟨?_, rfl, ?_, ?_, ?_⟩
  · unfold spacingFl spacing
    simp only [linspaceNumFl_id, id]
    rfl
  · simp only [midpointsLogFl, midpointsLog, midpointsFl_id]
    rfl
  · simp only [binsFl, binsOf, linspaceNumFl_id, midpointsFl_id, List.map_id]
    rfl
  · simp only [subdivideFl, subdivide, List.map_id, id]
    congr 3
    funext x D
    congr 1
    funext j
    ring

/-! ## Midpoints -/

lemma Spec.IsFloat.half {x : ℝ} (h : IsFloat p x) : IsFloat p (1 / 2 * x) := by
  obtain ⟨n, e, h1, rfl⟩ := h
  refine ⟨n, e - 1, h1, ?_⟩
  rw [zpow_sub_one₀ (by norm_num)]
  ring

lemma Spec.IsFloat.double {x : ℝ} (h : IsFloat p x) : IsFloat p (2 * x) := by
  obtain ⟨n, e, h1, rfl⟩ := h
  refine ⟨n, e + 1, h1, ?_⟩
  rw [zpow_add_one₀ (by norm_num)]
  ring

/-- The midpoint of two floating point numbers is rounded once, and lies between them. -/
lemma midFl (h : Nearest p fl) {a b : ℝ} (ha : IsFloat p a) (hb : IsFloat p b) (hab : a ≤ b) :
    a ≤ fl (1 / 2 * fl (a + b)) ∧ fl (1 / 2 * fl (a + b)) ≤ b ∧ fl (1 / 2 * fl (a + b)) = 1 / 2 * fl (a + b) := by
  have e : fl (1 / 2 * fl (a + b)) = 1 / 2 * fl (a + b) := h.fix (h.float _).half
  have h1 : 2 * a ≤ fl (a + b) := by rw [← h.fix ha.double]; exact h.mono (by linarith)
  have h2 : fl (a + b) ≤ 2 * b := by rw [← h.fix hb.double]; exact h.mono (by linarith)
  rw [e]
  exact ⟨by linarith, by linarith, rfl⟩

/-- **C154.** Midpoints of weakly increasing floating point numbers: one less, each between its neighbours (both included: there may be no
floating point number between them), in weakly increasing order, and at most the fraction `2^-p` away from the mean of the neighbours. -/
theorem C154_midpoints (hp : 1 ≤ p) (h : Nearest p fl) (l : List ℝ) (hl : 2 ≤ l.length) (hf : ∀ x ∈ l, IsFloat p x)
    (hs : l.Pairwise (· ≤ ·)) :
    ∃ r, midpointsFl fl l = .ok r ∧ r.length = l.length - 1 ∧ r.Pairwise (· ≤ ·) ∧
      ∀ i (hi : i + 1 < l.length), ∃ m, r[i]? = some m ∧ l[i] ≤ m ∧ m ≤ l[i + 1] ∧
        |m - (l[i] + l[i + 1]) / 2| ≤ (1 / 2) ^ p * |(l[i] + l[i + 1]) / 2| := by
  have hu := h.accurate hp
  refine ⟨_, if_neg (by omega), by simp, ?_, ?_⟩
  · rw [List.pairwise_iff_getElem] at *
    intro i j hi hj hij
    simp only [List.length_zipWith, List.length_tail] at hi hj
    simp only [List.getElem_zipWith, List.getElem_tail]
    have h1 := hs i j (by omega) (by omega) hij
    have h2 := hs (i + 1) (j + 1) (by omega) (by omega) (by omega)
    apply h.mono
    have := h.mono (add_le_add h1 h2)
    linarith
  · intro i hi
    have hab : l[i] ≤ l[i + 1] := List.pairwise_iff_getElem.mp hs _ _ _ _ (by omega)
    obtain ⟨h1, h2, h3⟩ := midFl h (hf _ (List.getElem_mem (by omega : i < l.length))) (hf _ (List.getElem_mem hi)) hab
    refine ⟨fl (1 / 2 * fl (l[i] + l[i + 1])), ?_, h1, h2, ?_⟩
    · rw [List.getElem?_eq_getElem (by simp; omega)]
      simp
    · rw [h3]
      have := hu (l[i] + l[i + 1])
      rw [show 1 / 2 * fl (l[i] + l[i + 1]) - (l[i] + l[i + 1]) / 2 = (fl (l[i] + l[i + 1]) - (l[i] + l[i + 1])) / 2 by ring,
        abs_div, abs_div, abs_of_pos (by norm_num : (0 : ℝ) < 2)]
      linarith

/-! ## Subdivision -/

/-- The position in the bin of the `j`-th of `num + 1` edges. -/
lemma locFl (hp : 3 ≤ p) (h : Nearest p fl) {num : ℕ} (hn : num + 1 ≤ 2 ^ (p - 3)) {a b : ℝ} (ha : IsFloat p a) (hb : IsFloat p b)
    (hab : a ≤ b) {j : ℕ} (hj : j ≤ num) :
    a ≤ fl (a + fl (fl (b - a) * fl (j * fl (1 / ((num : ℝ) + 1))))) ∧
      fl (a + fl (fl (b - a) * fl (j * fl (1 / ((num : ℝ) + 1))))) ≤ b := by
  have hu := h.accurate (by omega)
  obtain ⟨u, hu'⟩ : ∃ u : ℝ, u = (1 / 2) ^ p := ⟨_, rfl⟩
  rw [← hu'] at hu
  have hu0 : 0 ≤ u := by rw [hu']; positivity
  have hnu : ((num : ℝ) + 1) * u ≤ 1 / 8 := by
    have := half_pow_mul_le hp hn
    push_cast at this
    rwa [hu']
  have hn0 : (0 : ℝ) < (num : ℝ) + 1 := by positivity
  have hu8 : u ≤ 1 / 8 := by nlinarith [Nat.cast_nonneg (α := ℝ) num]
  have hd := fl_nonneg h (sub_nonneg.mpr hab)
  have hs0 : 0 ≤ fl (1 / ((num : ℝ) + 1)) := fl_nonneg h (by positivity)
  have hl0 : 0 ≤ fl (j * fl (1 / ((num : ℝ) + 1))) := fl_nonneg h (by positivity)
  have hm0 := fl_nonneg h (mul_nonneg hd hl0)
  constructor
  · calc a = fl a := (h.fix ha).symm
      _ ≤ _ := h.mono (by linarith)
  · calc _ ≤ fl b := h.mono ?_
      _ = b := h.fix hb
    have hj' : (j : ℝ) ≤ num := by exact_mod_cast hj
    have e1 : fl (b - a) ≤ (1 + u) * (b - a) := accurate_le hu (by linarith)
    have e2 : fl (1 / ((num : ℝ) + 1)) ≤ (1 + u) * (1 / ((num : ℝ) + 1)) := accurate_le hu (by positivity)
    have e3 := accurate_le hu (mul_nonneg (Nat.cast_nonneg (α := ℝ) j) hs0)
    have e4 := accurate_le hu (mul_nonneg hd hl0)
    have e5 : fl (j * fl (1 / ((num : ℝ) + 1))) * (num + 1) ≤ (1 + u) ^ 2 * num := by
      calc fl (j * fl (1 / ((num : ℝ) + 1))) * (num + 1)
          ≤ (1 + u) * (num * ((1 + u) * (1 / ((num : ℝ) + 1)))) * (num + 1) := by
            apply mul_le_mul_of_nonneg_right _ hn0.le
            exact e3.trans (mul_le_mul_of_nonneg_left (mul_le_mul hj' e2 hs0 (by positivity)) (by linarith))
        _ = (1 + u) ^ 2 * num := by field_simp
    have e6 : fl (fl (b - a) * fl (j * fl (1 / ((num : ℝ) + 1)))) * (num + 1) ≤ (b - a) * (num + 1) := by
      calc fl (fl (b - a) * fl (j * fl (1 / ((num : ℝ) + 1)))) * (num + 1)
          ≤ (1 + u) * (fl (b - a) * fl (j * fl (1 / ((num : ℝ) + 1)))) * (num + 1) :=
            mul_le_mul_of_nonneg_right e4 hn0.le
        _ = (1 + u) * fl (b - a) * (fl (j * fl (1 / ((num : ℝ) + 1))) * (num + 1)) := by ring
        _ ≤ (1 + u) * ((1 + u) * (b - a)) * ((1 + u) ^ 2 * num) := by
            apply mul_le_mul _ e5 (by positivity)
            · exact mul_nonneg (by linarith) (mul_nonneg (by linarith) (by linarith))
            · exact mul_le_mul_of_nonneg_left e1 (by linarith)
        _ = ((1 + u) ^ 4 * num) * (b - a) := by ring
        _ ≤ (num + 1) * (b - a) := by
            apply mul_le_mul_of_nonneg_right _ (by linarith)
            have h2 : (1 + u) ^ 2 ≤ 1 + 17 / 8 * u := by nlinarith
            have h4 : (1 + u) ^ 4 ≤ 1 + 8 * u := by
              calc (1 + u) ^ 4 = ((1 + u) ^ 2) ^ 2 := by ring
                _ ≤ (1 + 17 / 8 * u) ^ 2 := by gcongr
                _ ≤ 1 + 8 * u := by nlinarith
            have hnn : (0 : ℝ) ≤ num := Nat.cast_nonneg _
            calc (1 + u) ^ 4 * (num : ℝ) ≤ (1 + 8 * u) * num := mul_le_mul_of_nonneg_right h4 hnn
              _ ≤ num + 1 := by nlinarith
        _ = _ := by ring
    have := le_of_mul_le_mul_right e6 hn0
    linarith

/-- The rows of the intermediate array. -/
noncomputable def subRowsFl (fl : ℝ → ℝ) (xx : List ℝ) (num : ℕ) : List (List ℝ) :=
  List.zipWith (fun x D => (List.range (num + 1)).map fun (j : ℕ) =>
    fl (x + fl (D * fl (j * fl (1 / ((num : ℝ) + 1)))))) xx ((npDiff (xx ++ [0])).map fl)

lemma subRowsFl_len (xx : List ℝ) (num : ℕ) : ∀ l ∈ subRowsFl fl xx num, l.length = num + 1 := by
  intro l hl
  obtain ⟨i, hi, rfl⟩ := List.getElem_of_mem hl
  simp [subRowsFl]

lemma subRowsFl_length (xx : List ℝ) (num : ℕ) : (subRowsFl fl xx num).length = xx.length := by
  simp [subRowsFl, npDiff]

lemma subRowsFl_get (xx : List ℝ) (num k j : ℕ) (hk : k < xx.length) (hj : j ≤ num) :
    (subRowsFl fl xx num).flatten[k * (num + 1) + j]? = some (fl (xx[k]
      + fl (fl ((xx ++ [0]).getD (k + 1) 0 - xx[k]) * fl (j * fl (1 / ((num : ℝ) + 1)))))) := by
  rw [flatten_getElem?_const _ _ (subRowsFl_len xx num) k j (by omega),
    List.getElem?_eq_getElem (by rw [subRowsFl_length]; exact hk), Option.bind_some]
  simp only [subRowsFl, List.getElem_zipWith]
  rw [List.getElem?_eq_getElem (by simp; omega)]
  simp only [List.getElem_map, List.getElem_range, npDiff, List.getElem_zipWith, List.getElem_tail]
  rw [List.getD_eq_getElem _ _ (by simp; omega), List.getElem_append_left (i := k) hk]

lemma subdivideFl_get (h0 : fl 0 = 0) (xx : List ℝ) (hfix : ∀ x ∈ xx, fl x = x) (num : ℕ) (hn : 1 ≤ num) (hx : xx ≠ []) :
    (subdivideFl fl xx num).length = (xx.length - 1) * (num + 1) + 1 ∧
    (∀ k (hk : k < xx.length), (subdivideFl fl xx num)[k * (num + 1)]? = some xx[k]) ∧
    (∀ k j (hk : k + 1 < xx.length), j ≤ num → (subdivideFl fl xx num)[k * (num + 1) + j]? =
      some (fl (xx[k] + fl (fl (xx[k + 1] - xx[k]) * fl (j * fl (1 / ((num : ℝ) + 1))))))) := by
  have hX : 1 ≤ xx.length := List.length_pos_iff.mpr hx
  have hflen : (subRowsFl fl xx num).flatten.length = xx.length * (num + 1) := by
    rw [flatten_length_const _ _ (subRowsFl_len xx num), subRowsFl_length]
  have hlen : (subRowsFl fl xx num).flatten.length - num = (xx.length - 1) * (num + 1) + 1 := by
    rw [hflen]
    obtain ⟨n, hn'⟩ : ∃ n, xx.length = n + 1 := ⟨xx.length - 1, by omega⟩
    rw [hn', Nat.add_mul, Nat.add_sub_cancel]; omega
  have hsub : subdivideFl fl xx num = (subRowsFl fl xx num).flatten.take ((xx.length - 1) * (num + 1) + 1) := by
    rw [← hlen]
    exact if_neg (by omega)
  have hget : ∀ m, m < (xx.length - 1) * (num + 1) + 1 →
      (subdivideFl fl xx num)[m]? = (subRowsFl fl xx num).flatten[m]? := by
    intro m hm; rw [hsub, List.getElem?_take_of_lt hm]
  refine ⟨by rw [hsub, List.length_take]; omega, ?_, ?_⟩
  · intro k hk
    rw [hget _ (by have : k * (num + 1) ≤ (xx.length - 1) * (num + 1) := Nat.mul_le_mul_right _ (by omega)
                   omega)]
    have := subRowsFl_get (fl := fl) xx num k 0 hk (by omega)
    rw [add_zero] at this
    rw [this]
    simp [h0, hfix _ (List.getElem_mem hk)]
  · intro k j hk hj
    have hle : (k + 1) * (num + 1) ≤ (xx.length - 1) * (num + 1) := Nat.mul_le_mul_right _ (by omega)
    rw [hget _ (by rw [Nat.add_mul] at hle; omega), subRowsFl_get xx num k j (by omega) (by omega),
      List.getD_eq_getElem _ _ (by simp; omega), List.getElem_append_left hk]

/-- **C154.** Subdividing floating point edges in (weakly) increasing order by `num ≥ 1`, at most `2^(p-3)`: all edges are kept, the new ones lie between
their neighbours, and the result is in weakly increasing order. -/
theorem C154_subdivide (hp : 3 ≤ p) (h : Nearest p fl) (xx : List ℝ) (num : ℕ) (hn : 1 ≤ num) (hn' : num + 1 ≤ 2 ^ (p - 3)) (hx : xx ≠ [])
    (hf : ∀ x ∈ xx, IsFloat p x) (hs : xx.Pairwise (· ≤ ·)) :
    (subdivideFl fl xx num).length = (xx.length - 1) * (num + 1) + 1 ∧ (subdivideFl fl xx num).Pairwise (· ≤ ·) ∧
    (∀ k (hk : k < xx.length), (subdivideFl fl xx num)[k * (num + 1)]? = some xx[k]) ∧
    (∀ k j (hk : k + 1 < xx.length), j ≤ num + 1 → ∃ y, (subdivideFl fl xx num)[k * (num + 1) + j]? = some y ∧
      xx[k] ≤ y ∧ y ≤ xx[k + 1]) := by
  obtain ⟨h1, h2, h3⟩ := subdivideFl_get h.zero xx (fun x hx => h.fix (hf x hx)) num hn hx
  have hle : ∀ k (hk : k + 1 < xx.length), xx[k] ≤ xx[k + 1] := fun k hk =>
    List.pairwise_iff_getElem.mp hs _ _ _ _ (by omega)
  have hloc : ∀ k j (hk : k + 1 < xx.length), j ≤ num → _ := fun k j hk hj =>
    locFl hp h hn' (hf _ (List.getElem_mem (by omega : k < xx.length))) (hf _ (List.getElem_mem hk)) (hle k hk) hj
  refine ⟨h1, ?_, h2, ?_⟩
  · rw [← List.isChain_iff_pairwise, List.isChain_iff_getElem]
    intro i hi
    rw [h1] at hi
    have hk : i / (num + 1) + 1 < xx.length := by
      have : i / (num + 1) < xx.length - 1 := by
        rw [Nat.div_lt_iff_lt_mul (by omega)]; omega
      generalize i / (num + 1) = q at this
      omega
    have hj : i % (num + 1) < num + 1 := Nat.mod_lt _ (by omega)
    have hi2 : i / (num + 1) * (num + 1) + i % (num + 1) = i := Nat.div_add_mod' i (num + 1)
    have e1 := h3 _ (i % (num + 1)) hk (by omega)
    rw [hi2] at e1
    obtain ⟨_, e1⟩ := List.getElem?_eq_some_iff.mp e1
    rw [e1]
    rcases Nat.lt_or_ge (i % (num + 1) + 1) (num + 1) with hlt | hge
    · have e2 := h3 _ (i % (num + 1) + 1) hk (by omega)
      rw [← add_assoc, hi2] at e2
      obtain ⟨_, e2⟩ := List.getElem?_eq_some_iff.mp e2
      rw [e2]
      apply h.mono
      apply add_le_add_right
      apply h.mono
      apply mul_le_mul_of_nonneg_left _ (fl_nonneg h (by linarith [hle _ hk]))
      apply h.mono
      apply mul_le_mul_of_nonneg_right _ (fl_nonneg h (by positivity))
      push_cast
      linarith
    · have e2 := h2 (i / (num + 1) + 1) hk
      have : (i / (num + 1) + 1) * (num + 1) = i + 1 := by rw [Nat.add_mul, one_mul]; omega
      rw [this] at e2
      obtain ⟨_, e2⟩ := List.getElem?_eq_some_iff.mp e2
      rw [e2]
      exact (hloc _ _ hk (by omega)).2
  · intro k j hk hj
    rcases Nat.lt_or_ge j (num + 1) with hlt | hge
    · exact ⟨_, h3 k j hk (by omega), (hloc k j hk (by omega)).1, (hloc k j hk (by omega)).2⟩
    · have : j = num + 1 := by omega
      subst this
      refine ⟨xx[k + 1], ?_, hle k hk, le_rfl⟩
      rw [show k * (num + 1) + (num + 1) = (k + 1) * (num + 1) by ring]
      exact h2 (k + 1) hk

/-! ## Linear spacing -/

lemma linspaceNumFl_nat (a b : ℝ) (m : ℕ) : linspaceNumFl fl a b ((m : ℤ) + 1) = .ok (linspaceFl fl a b m) := by
  unfold linspaceNumFl
  rw [if_neg (by omega), if_neg (by omega)]
  congr 2

lemma scaleFlag_lin {scale : String} (hs : "lin".toList <+: scale.toList) : scaleFlag scale = .ok false := by
  have h1 : startsWith "log" scale = false := by
    rw [startsWith, Bool.eq_false_iff]
    intro h
    rw [List.isPrefixOf_iff_prefix] at h
    obtain ⟨t, ht⟩ := h
    obtain ⟨t', ht'⟩ := hs
    rw [← ht'] at ht
    simp at ht
  rw [scaleFlag, h1, startsWith, if_neg (by simp), if_pos (List.isPrefixOf_iff_prefix.mpr hs)]

lemma scaleFlag_log {scale : String} (hs : "log".toList <+: scale.toList) : scaleFlag scale = .ok true := by
  rw [scaleFlag, startsWith, if_pos (List.isPrefixOf_iff_prefix.mpr hs)]

lemma pyInt_floor {x : ℝ} {n : ℕ} (hx : 2 ≤ x) (hn : ⌊x⌋ = (n : ℤ) + 1) : pyInt x = (n : ℤ) + 1 ∧ 0 < n := by
  refine ⟨by rw [pyInt, if_pos (by linarith)]; exact hn, ?_⟩
  have : (2 : ℤ) ≤ ⌊x⌋ := Int.le_floor.mpr (by exact_mod_cast hx)
  omega

/-- **C154.** Linear spacing of floating point data: the requested number of points (20 by default), in weakly increasing order, from exactly the smallest to
exactly the largest element, so that all data are covered. -/
theorem C154_linear (hp : 8 ≤ p) (h : Nearest p fl) (dt : DType) {data : List ℝ} (positive : Bool) {lo hi : ℝ}
    (he : IsExtrema (if positive then data.filter (0 < ·) else data) lo hi) (hlo : IsFloat p lo) (hhi : IsFloat p hi)
    (scale : String) (hscale : "lin".toList <+: scale.toList) (num : Option ℝ) (n : ℕ)
    (hn : num = none ∧ n = 19 ∨ ∃ x, num = some x ∧ 2 ≤ x ∧ ⌊x⌋ = n + 1 ∧ n ≤ 2 ^ (p - 3)) (dex : ℝ) :
    ∃ grid, spacingFl fl lg pw dt data scale num dex positive = .ok grid ∧ grid.length = n + 1 ∧ grid.Pairwise (· ≤ ·) ∧
      grid[0]? = some lo ∧ grid[n]? = some hi := by
  have hle : lo ≤ hi := (he.2.2 lo he.1).2
  have h32 : (19 : ℕ) ≤ 2 ^ (p - 3) := by
    calc 19 ≤ 2 ^ 5 := by norm_num
      _ ≤ 2 ^ (p - 3) := Nat.pow_le_pow_right (by norm_num) (by omega)
  have key : spacingFl fl lg pw dt data scale num dex positive = .ok (linspaceFl fl lo hi n) ∧ 0 < n ∧ n ≤ 2 ^ (p - 3) := by
    unfold spacingFl
    rw [scaleFlag_lin hscale, extrema_minmax dt positive he]
    obtain ⟨rfl, rfl⟩ | ⟨x, rfl, hx, hfl, hle'⟩ := hn
    · exact ⟨linspaceNumFl_nat lo hi 19, by norm_num, h32⟩
    · obtain ⟨h1, h2⟩ := pyInt_floor hx hfl
      simp only [Bool.false_eq_true, if_false, h1]
      exact ⟨linspaceNumFl_nat lo hi n, h2, hle'⟩
  obtain ⟨e, h0, hmax⟩ := key
  exact ⟨_, e, linspaceFl_spec (by omega) h hlo hhi hle hmax h0⟩

/-- **C154.** `bins(a, b, n)` for floating point numbers `a ≤ b`: the edges go from `a` to `b` in weakly increasing order, every centre lies in its bin, and no
width is negative. -/
theorem C154_bins (hp : 3 ≤ p) (h : Nearest p fl) {a b : ℝ} (ha : IsFloat p a) (hb : IsFloat p b) (hab : a ≤ b) (n : ℕ) (hn : 0 < n)
    (hn' : n ≤ 2 ^ (p - 3)) :
    ∃ xe xc dx, binsFl fl a b (n + 1) = .ok (xe, xc, dx) ∧ xe.length = n + 1 ∧ xe[0]? = some a ∧ xe[n]? = some b ∧
      xc.length = n ∧ dx.length = n ∧
      ∀ k < n, ∃ lo hi c w, xe[k]? = some lo ∧ xe[k + 1]? = some hi ∧ xc[k]? = some c ∧ dx[k]? = some w ∧
        lo ≤ c ∧ c ≤ hi ∧ 0 ≤ w ∧ |w - (hi - lo)| ≤ (1 / 2) ^ p * (hi - lo) := by
  obtain ⟨h1, h2, h3, h4⟩ := linspaceFl_spec hp h ha hb hab hn' hn
  have hf : ∀ x ∈ linspaceFl fl a b n, IsFloat p x := by
    intro x hx
    unfold linspaceFl at hx
    rw [if_neg (by omega)] at hx
    simp only [List.mem_append, List.mem_map, List.mem_singleton] at hx
    obtain ⟨k, -, rfl⟩ | rfl := hx
    · exact h.float _
    · exact hb
  obtain ⟨r, e, h5, -, h6⟩ := C154_midpoints (by omega) h _ (by omega) hf h2
  refine ⟨_, r, (npDiff (linspaceFl fl a b n)).map fl, ?_, h1, h3, h4, by omega, by simp [npDiff, h1], ?_⟩
  · unfold binsFl
    rw [linspaceNumFl_nat]
    simp only [e]
  · intro k hk
    have hk' : k + 1 < (linspaceFl fl a b n).length := by omega
    obtain ⟨c, e1, e2, e3, -⟩ := h6 k hk'
    have hle : (linspaceFl fl a b n)[k] ≤ (linspaceFl fl a b n)[k + 1] := List.pairwise_iff_getElem.mp h2 _ _ _ _ (by omega)
    refine ⟨_, _, c, fl ((linspaceFl fl a b n)[k + 1] - (linspaceFl fl a b n)[k]), List.getElem?_eq_getElem (by omega), List.getElem?_eq_getElem hk', e1, ?_, e2, e3,
      fl_nonneg h (by linarith), ?_⟩
    · rw [List.getElem?_map, npDiff, List.getElem?_zipWith, List.getElem?_tail, List.getElem?_eq_getElem hk', List.getElem?_eq_getElem (by omega : k < (linspaceFl fl a b n).length)]
      simp
    · have := h.accurate (by omega : 1 ≤ p) ((linspaceFl fl a b n)[k + 1] - (linspaceFl fl a b n)[k])
      rwa [abs_of_nonneg (show 0 ≤ (linspaceFl fl a b n)[k + 1] - (linspaceFl fl a b n)[k] by linarith)] at this

/-! ## Logarithmic spacing -/

/-- There and back again. -/
lemma pw_lg_bounds {ε : ℝ} (hε : 0 ≤ ε) (hε1 : ε ≤ 1) (hl : Log10 p ε lg) {x : ℝ} (hx : 0 < x) :
    (1 - ε) * (x * (10 : ℝ) ^ (-(ε * |Real.logb 10 x|))) ≤ (1 - ε) * (10 : ℝ) ^ lg x ∧
      (1 + ε) * (10 : ℝ) ^ lg x ≤ (1 + ε) * (x * (10 : ℝ) ^ (ε * |Real.logb 10 x|)) := by
  have h10 : (10 : ℝ) ^ Real.logb 10 x = x := Real.rpow_logb (by norm_num) (by norm_num) hx
  have hn := abs_le.mp (hl.near x hx)
  constructor
  · apply mul_le_mul_of_nonneg_left _ (by linarith)
    calc x * (10 : ℝ) ^ (-(ε * |Real.logb 10 x|)) = (10 : ℝ) ^ (Real.logb 10 x + -(ε * |Real.logb 10 x|)) := by
          rw [Real.rpow_add (by norm_num), h10]
      _ ≤ (10 : ℝ) ^ lg x := Real.rpow_le_rpow_of_exponent_le (by norm_num) (by linarith)
  · apply mul_le_mul_of_nonneg_left _ (by linarith)
    calc (10 : ℝ) ^ lg x ≤ (10 : ℝ) ^ (Real.logb 10 x + ε * |Real.logb 10 x|) :=
          Real.rpow_le_rpow_of_exponent_le (by norm_num) (by linarith)
      _ = x * (10 : ℝ) ^ (ε * |Real.logb 10 x|) := by rw [Real.rpow_add (by norm_num), h10]

/-- **C154 (what holds).** Logarithmic spacing of positive data, with a requested number of points: that many points; the first and the last are those computed from the
smallest and the largest element, and so differ from them at most by the rounding of the logarithm and the power; all points are between these bounds.
Missing: the first and the last point are not the smallest and the largest element, see `C154_log_refuted`. -/
theorem C154_log_partial (hp : 3 ≤ p) (h : Nearest p fl) {ε : ℝ} (hε : 0 ≤ ε) (hε1 : ε ≤ 1) (hl : Log10 p ε lg) (hw : Pow10 ε pw)
    (dt : DType) {data : List ℝ} (positive : Bool) {lo hi : ℝ}
    (he : IsExtrema (if positive then data.filter (0 < ·) else data) lo hi) (hlo : 0 < lo) (hmono : lg lo ≤ lg hi)
    (scale : String) (hscale : "log".toList <+: scale.toList) (x : ℝ) (n : ℕ) (hx : 2 ≤ x) (hn : ⌊x⌋ = n + 1) (hn' : n ≤ 2 ^ (p - 3)) (dex : ℝ) :
    ∃ grid, spacingFl fl lg pw dt data scale (some x) dex positive = .ok grid ∧ grid.length = n + 1 ∧
      grid[0]? = some (pw (lg lo)) ∧ grid[n]? = some (pw (lg hi)) ∧
      (∀ y ∈ [lo, hi], (1 - ε) * (y * (10 : ℝ) ^ (-(ε * |Real.logb 10 y|))) ≤ pw (lg y) ∧
        pw (lg y) ≤ (1 + ε) * (y * (10 : ℝ) ^ (ε * |Real.logb 10 y|))) ∧
      ∀ g ∈ grid, (1 - ε) * (lo * (10 : ℝ) ^ (-(ε * |Real.logb 10 lo|))) ≤ g ∧ g ≤ (1 + ε) * (hi * (10 : ℝ) ^ (ε * |Real.logb 10 hi|)) := by
  have hle : lo ≤ hi := (he.2.2 lo he.1).2
  have hhi : 0 < hi := hlo.trans_le hle
  obtain ⟨e1, h0⟩ := pyInt_floor hx hn
  obtain ⟨h1, h2, h3, h4⟩ := linspaceFl_spec hp h (hl.float lo) (hl.float hi) hmono hn' h0
  have hpw : ∀ y, (1 - ε) * (10 : ℝ) ^ y ≤ pw y ∧ pw y ≤ (1 + ε) * (10 : ℝ) ^ y := by
    intro y
    have := abs_le.mp (hw y)
    constructor <;> linarith
  refine ⟨(linspaceFl fl (lg lo) (lg hi) n).map pw, ?_, by simp [h1], by rw [List.getElem?_map, h3]; rfl, by
    rw [List.getElem?_map, h4]; rfl, ?_, ?_⟩
  · unfold spacingFl
    rw [scaleFlag_log hscale, extrema_minmax dt positive he]
    simp only [if_true, if_pos (And.intro hlo hhi), e1]
    rw [linspaceNumFl_nat]
    rfl
  · intro y hy
    have hy0 : 0 < y := by
      simp only [List.mem_cons, List.not_mem_nil, or_false] at hy
      obtain rfl | rfl := hy <;> assumption
    obtain ⟨b1, b2⟩ := pw_lg_bounds hε hε1 hl hy0
    exact ⟨b1.trans (hpw _).1, (hpw _).2.trans b2⟩
  · intro g hg
    obtain ⟨y, hy, rfl⟩ := List.mem_map.mp hg
    obtain ⟨k, hk, rfl⟩ := List.getElem_of_mem hy
    obtain ⟨_, h3⟩ := List.getElem?_eq_some_iff.mp h3
    obtain ⟨_, h4⟩ := List.getElem?_eq_some_iff.mp h4
    have hmon : ∀ i j (_ : i < (linspaceFl fl (lg lo) (lg hi) n).length) (_ : j < (linspaceFl fl (lg lo) (lg hi) n).length),
        i ≤ j → (linspaceFl fl (lg lo) (lg hi) n)[i] ≤ (linspaceFl fl (lg lo) (lg hi) n)[j] := by
      intro i j _ _ hij
      rcases hij.eq_or_lt with rfl | hlt
      · exact le_rfl
      · exact List.pairwise_iff_getElem.mp h2 _ _ _ _ hlt
    have g1 := hmon 0 k (by omega) hk (by omega)
    have g2 := hmon k n hk (by omega) (by omega)
    rw [h3] at g1
    rw [h4] at g2
    have b1 := (pw_lg_bounds hε hε1 hl hlo).1
    have b2 := (pw_lg_bounds hε hε1 hl hhi).2
    constructor
    · refine b1.trans (le_trans ?_ (hpw _).1)
      exact mul_le_mul_of_nonneg_left (Real.rpow_le_rpow_of_exponent_le (by norm_num) g1) (by linarith)
    · refine le_trans (hpw _).2 (le_trans ?_ b2)
      exact mul_le_mul_of_nonneg_left (Real.rpow_le_rpow_of_exponent_le (by norm_num) g2) (by linarith)

/-! ### Logarithms lose information -/

/-- A floating point number from 1 on is a multiple of `2^(1-p)`. -/
lemma float_in_one_two (hp : 1 ≤ p) {y : ℝ} (hy : IsFloat p y) (h1 : 1 ≤ y) :
    ∃ m : ℕ, y = m * (1 / 2 : ℝ) ^ (p - 1) := by
  -- the multiple below
  obtain ⟨m, hm⟩ : ∃ m : ℕ, m = ⌊y * 2 ^ (p - 1)⌋₊ := ⟨_, rfl⟩
  have hy0 : 0 ≤ y * 2 ^ (p - 1) := by positivity
  have hle : (m : ℝ) ≤ y * 2 ^ (p - 1) := by rw [hm]; exact Nat.floor_le hy0
  have hlt : y * 2 ^ (p - 1) < m + 1 := by rw [hm]; exact Nat.lt_floor_add_one _
  have hpow : (2 : ℝ) ^ (p - 1) * (1 / 2) ^ (p - 1) = 1 := by rw [← mul_pow]; norm_num
  have hz : (2 : ℝ) ^ (-((p - 1 : ℕ) : ℤ)) = (1 / 2) ^ (p - 1) := by
    rw [zpow_neg, zpow_natCast, one_div, inv_pow]
  have hpos : (0 : ℝ) < (1 / 2) ^ (p - 1) := by positivity
  refine ⟨m, ?_⟩
  by_contra hne
  have hm1 : (2 : ℤ) ^ p ≤ 2 * (m : ℤ) := by
    have : (2 : ℕ) ^ (p - 1) ≤ m := by
      rw [hm]
      apply Nat.le_floor
      push_cast
      nlinarith [show (0 : ℝ) < 2 ^ (p - 1) by positivity]
    have h3 : (2 : ℕ) ^ p = 2 * 2 ^ (p - 1) := by rw [← pow_succ']; congr 1; omega
    have : (2 : ℕ) ^ p ≤ 2 * m := by omega
    exact_mod_cast this
  have key : y = y * 2 ^ (p - 1) * (1 / 2) ^ (p - 1) := by rw [mul_assoc, hpow, mul_one]
  apply float_gap (e := -((p - 1 : ℕ) : ℤ)) hm1 hy
  · rw [hz]
    push_cast
    refine lt_of_le_of_ne ?_ (Ne.symm hne)
    calc (m : ℝ) * (1 / 2) ^ (p - 1) ≤ y * 2 ^ (p - 1) * (1 / 2) ^ (p - 1) := by gcongr
      _ = y := key.symm
  · rw [hz]
    push_cast
    calc y = y * 2 ^ (p - 1) * (1 / 2) ^ (p - 1) := key
      _ < (m + 1) * (1 / 2) ^ (p - 1) := by gcongr

/-- Two floating point numbers between 16 and 32 have the same computed logarithm. -/
lemma lg_collision (hp : 4 ≤ p) {ε : ℝ} (hε : ε ≤ 1 / 20) (hl : Log10 p ε lg) :
    ∃ x y, x ≠ y ∧ (16 ≤ x ∧ x < 32 ∧ IsFloat p x) ∧ (16 ≤ y ∧ y < 32 ∧ IsFloat p y) ∧ lg x = lg y := by
  obtain ⟨q, rfl⟩ : ∃ q, p = q + 4 := ⟨p - 4, by omega⟩
  -- the numbers
  let val : ℕ → ℝ := fun k => ((2 ^ (q + 3) + k : ℕ) : ℝ) * (16 * (1 / 2) ^ (q + 3))
  have hq : (2 : ℝ) ^ (q + 3) * (1 / 2) ^ (q + 3) = 1 := by rw [← mul_pow]; norm_num
  have hqpos : (0 : ℝ) < (1 / 2) ^ (q + 3) := by positivity
  have hval : ∀ k : ℕ, val k = 16 + k * (16 * (1 / 2) ^ (q + 3)) := by
    intro k
    simp only [val]
    push_cast
    linear_combination (16 : ℝ) * hq
  have hval2 : ∀ k < 2 ^ (q + 3), 16 ≤ val k ∧ val k < 32 ∧ IsFloat (q + 4) (val k) := by
    intro k hk
    have hk' : (k : ℝ) < 2 ^ (q + 3) := by exact_mod_cast hk
    refine ⟨?_, ?_, ?_⟩
    · rw [hval]
      have : 0 ≤ (k : ℝ) * (16 * (1 / 2) ^ (q + 3)) := by positivity
      linarith
    · rw [hval]
      have : (k : ℝ) * (16 * (1 / 2) ^ (q + 3)) < 2 ^ (q + 3) * (16 * (1 / 2) ^ (q + 3)) := by gcongr
      nlinarith
    · refine ⟨((2 ^ (q + 3) + k : ℕ) : ℤ), 4 - ((q + 3 : ℕ) : ℤ), ?_, ?_⟩
      · rw [abs_of_nonneg (by positivity)]
        have : 2 ^ (q + 3) + k ≤ 2 ^ (q + 4) := by
          have : 2 ^ (q + 4) = 2 * 2 ^ (q + 3) := by ring
          omega
        exact_mod_cast this
      · simp only [val]
        rw [zpow_sub₀ (by norm_num), zpow_natCast, one_div, inv_pow]
        push_cast
        ring
  -- their logarithms
  have hlog : ∀ x : ℝ, 16 ≤ x → x < 32 → 6 / 5 ≤ Real.logb 10 x ∧ Real.logb 10 x ≤ 5 / 3 := by
    intro x h1 h2
    constructor
    · rw [Real.le_logb_iff_rpow_le (by norm_num) (by linarith)]
      refine le_trans ?_ h1
      have : ((10 : ℝ) ^ (6 / 5 : ℝ)) ^ 5 ≤ 16 ^ 5 := by
        rw [← Real.rpow_natCast, ← Real.rpow_mul (by norm_num)]
        norm_num
      exact le_of_pow_le_pow_left₀ (by norm_num) (by norm_num) this
    · rw [Real.logb_le_iff_le_rpow (by norm_num) (by linarith)]
      refine h2.le.trans ?_
      have : (32 : ℝ) ^ 3 ≤ ((10 : ℝ) ^ (5 / 3 : ℝ)) ^ 3 := by
        rw [← Real.rpow_natCast ((10 : ℝ) ^ (5 / 3 : ℝ)), ← Real.rpow_mul (by norm_num)]
        norm_num
      exact le_of_pow_le_pow_left₀ (by norm_num) (by positivity) this
  have hrange : ∀ k < 2 ^ (q + 3), 1 ≤ lg (val k) ∧ lg (val k) ≤ 7 / 4 := by
    intro k hk
    obtain ⟨h1, h2, -⟩ := hval2 k hk
    obtain ⟨h3, h4⟩ := hlog _ h1 h2
    have h5 := hl.near (val k) (by linarith)
    rw [abs_of_nonneg (by linarith : 0 ≤ Real.logb 10 (val k))] at h5
    have h6 := abs_le.mp h5
    have h7 : ε * Real.logb 10 (val k) ≤ 1 / 20 * Real.logb 10 (val k) := mul_le_mul_of_nonneg_right hε (by linarith)
    constructor <;> linarith
  have hnum : ∀ k < 2 ^ (q + 3), ∃ m : ℕ, lg (val k) = m * (1 / 2 : ℝ) ^ (q + 3) := by
    intro k hk
    have := float_in_one_two (by omega) (hl.float (val k)) (hrange k hk).1
    simpa using this
  choose! f hf using hnum
  have hmaps : ∀ k ∈ Finset.range (2 ^ (q + 3)), f k ∈ Finset.Icc (4 * 2 ^ (q + 1)) (7 * 2 ^ (q + 1)) := by
    intro k hk
    rw [Finset.mem_range] at hk
    obtain ⟨h1, h2⟩ := hrange k hk
    rw [hf k hk] at h1 h2
    have e : (f k : ℝ) = f k * (1 / 2) ^ (q + 3) * 2 ^ (q + 3) := by rw [mul_assoc, mul_comm ((1 / 2 : ℝ) ^ _), hq, mul_one]
    have p4 : (2 : ℝ) ^ (q + 3) = 4 * 2 ^ (q + 1) := by ring
    have hp0 : (0 : ℝ) < 2 ^ (q + 3) := by positivity
    rw [Finset.mem_Icc]
    constructor
    · have : (4 : ℝ) * 2 ^ (q + 1) ≤ f k := by
        rw [e, ← p4]
        nlinarith
      exact_mod_cast this
    · have : (f k : ℝ) ≤ 7 * 2 ^ (q + 1) := by
        rw [e]
        calc (f k : ℝ) * (1 / 2) ^ (q + 3) * 2 ^ (q + 3) ≤ 7 / 4 * 2 ^ (q + 3) := by gcongr
          _ = 7 * 2 ^ (q + 1) := by rw [p4]; ring
      exact_mod_cast this
  have hcard : (Finset.Icc (4 * 2 ^ (q + 1)) (7 * 2 ^ (q + 1))).card < (Finset.range (2 ^ (q + 3))).card := by
    rw [Nat.card_Icc, Finset.card_range]
    have h1 : 2 ^ (q + 3) = 4 * 2 ^ (q + 1) := by ring
    have h2 : 2 ≤ 2 ^ (q + 1) := by
      calc 2 = 2 ^ 1 := by norm_num
        _ ≤ 2 ^ (q + 1) := Nat.pow_le_pow_right (by norm_num) (by omega)
    omega
  obtain ⟨i, hi, j, hj, hij, hfij⟩ := Finset.exists_ne_map_eq_of_card_lt_of_maps_to hcard hmaps
  rw [Finset.mem_range] at hi hj
  refine ⟨val i, val j, ?_, hval2 i hi, hval2 j hj, by rw [hf i hi, hf j hj, hfij]⟩
  intro h
  rw [hval, hval] at h
  have : (i : ℝ) * (16 * (1 / 2) ^ (q + 3)) = j * (16 * (1 / 2) ^ (q + 3)) := by linarith
  have := mul_right_cancel₀ (by positivity : (16 : ℝ) * (1 / 2) ^ (q + 3) ≠ 0) this
  exact hij (by exact_mod_cast this)

/-- There is a number that is not reproduced. -/
lemma pw_lg_ne (hp : 4 ≤ p) {ε : ℝ} (hε : ε ≤ 1 / 20) (hl : Log10 p ε lg) (pw : ℝ → ℝ) :
    ∃ x, 16 ≤ x ∧ x < 32 ∧ IsFloat p x ∧ pw (lg x) ≠ x := by
  obtain ⟨x, y, hne, ⟨a1, a2, a3⟩, ⟨b1, b2, b3⟩, h⟩ := lg_collision hp hε hl
  by_cases hx : pw (lg x) = x
  · refine ⟨y, b1, b2, b3, fun hy => hne ?_⟩
    rw [← hx, h, hy]
  · exact ⟨x, a1, a2, a3, hx⟩

/-- **C154 (full statement for logarithmic scales, not true of the code)**, for given functions `lg` and `pw`: the grid begins at the smallest and ends at the largest element, and the
edges that are subdivided are kept. -/
def C154_Claim (p : ℕ) (fl lg pw : ℝ → ℝ) : Prop :=
  (∀ (data : List ℝ) (lo hi : ℝ), (∀ x ∈ data, IsFloat p x) → IsExtrema data lo hi → 0 < lo → ∀ (n : ℕ), 1 ≤ n → ∀ grid,
    spacingFl fl lg pw .float data "log" (some (n + 1)) = .ok grid → grid[0]? = some lo ∧ grid[n]? = some hi) ∧
  (∀ (xx : List ℝ), xx ≠ [] → (∀ x ∈ xx, IsFloat p x ∧ 0 < x) → ∀ num, 1 ≤ num → ∀ r, subdivideLogFl fl lg pw xx num = .ok r →
    ∀ k (hk : k < xx.length), r[k * (num + 1)]? = some xx[k])

/-- **C154 fails for logarithmic scales, whatever the functions**: the results of any function `log10` that returns `p`-digit numbers with at most 5% error do not
determine the arguments, so that no function `10**y` can restore them.  Some number `x` between 16 and 32 is affected: for the data 1, x the grid does not end at `x`, for the
data x, 64 it does not begin at `x`, and subdividing the edges x, 64 does not keep `x`. -/
theorem C154_log_refuted (hp : 4 ≤ p) (h : Nearest p fl) {ε : ℝ} (hε : ε ≤ 1 / 20) (hl : Log10 p ε lg) (pw : ℝ → ℝ) :
    (∃ x, 16 ≤ x ∧ x < 32 ∧ IsFloat p x ∧
      (∀ n : ℕ, 1 ≤ n → ∃ g g' z z', spacingFl fl lg pw .float [1, x] "log" (some (n + 1)) = .ok g ∧ g[n]? = some z ∧ z ≠ x ∧
        spacingFl fl lg pw .float [x, 64] "log" (some (n + 1)) = .ok g' ∧ g'[0]? = some z' ∧ z' ≠ x) ∧
      (∀ num : ℕ, 1 ≤ num → ∃ r z, subdivideLogFl fl lg pw [x, 64] num = .ok r ∧ r[0]? = some z ∧ z ≠ x)) ∧
    ¬ C154_Claim p fl lg pw := by
  obtain ⟨x, h1, h2, hx, hne⟩ := pw_lg_ne hp hε hl pw
  have hpy : ∀ n : ℕ, 1 ≤ n → pyInt ((n : ℝ) + 1) = (n : ℤ) + 1 := by
    intro n hn
    refine (pyInt_floor ?_ ?_).1
    · have : (1 : ℝ) ≤ n := by exact_mod_cast hn
      linarith
    · have := Int.floor_intCast (R := ℝ) ((n : ℤ) + 1)
      push_cast at this
      exact this
  have e1 : IsExtrema (if false then [(1 : ℝ), x].filter (0 < ·) else [1, x]) 1 x := by
    refine ⟨by simp, by simp, ?_⟩
    simp only [Bool.false_eq_true, if_false, List.mem_cons, List.not_mem_nil, or_false]
    rintro y (rfl | rfl) <;> constructor <;> linarith
  have e2 : IsExtrema (if false then [x, (64 : ℝ)].filter (0 < ·) else [x, 64]) x 64 := by
    refine ⟨by simp, by simp, ?_⟩
    simp only [Bool.false_eq_true, if_false, List.mem_cons, List.not_mem_nil, or_false]
    rintro y (rfl | rfl) <;> constructor <;> linarith
  have hlog : scaleFlag "log" = .ok true := scaleFlag_log (List.prefix_refl _)
  have g1 : ∀ n : ℕ, 1 ≤ n → spacingFl fl lg pw .float [1, x] "log" (some (n + 1)) = .ok ((linspaceFl fl (lg 1) (lg x) n).map pw) := by
    intro n hn
    unfold spacingFl
    rw [hlog, extrema_minmax .float false e1]
    simp only [if_true, if_pos (And.intro (show (0 : ℝ) < 1 by norm_num) (show 0 < x by linarith)), hpy n hn]
    rw [linspaceNumFl_nat]
    rfl
  have g2 : ∀ n : ℕ, 1 ≤ n → spacingFl fl lg pw .float [x, 64] "log" (some (n + 1)) = .ok ((linspaceFl fl (lg x) (lg 64) n).map pw) := by
    intro n hn
    unfold spacingFl
    rw [hlog, extrema_minmax .float false e2]
    simp only [if_true, if_pos (And.intro (show 0 < x by linarith) (show (0 : ℝ) < 64 by norm_num)), hpy n hn]
    rw [linspaceNumFl_nat]
    rfl
  have last : ∀ (a b : ℝ) (n : ℕ), 1 ≤ n → (linspaceFl fl a b n)[n]? = some b := by
    intro a b n hn
    unfold linspaceFl
    rw [if_neg (by omega), List.getElem?_append_right (by simp)]
    simp
  have first : ∀ (a b : ℝ) (n : ℕ), 1 ≤ n → IsFloat p a → (linspaceFl fl a b n)[0]? = some a := by
    intro a b n hn ha
    unfold linspaceFl
    rw [if_neg (by omega), List.getElem?_append_left (by simp; omega)]
    simp [List.getElem?_range (by omega : 0 < n), h.zero, h.fix ha]
  have hspace : ∀ n : ℕ, 1 ≤ n → ∃ g g' z z', spacingFl fl lg pw .float [1, x] "log" (some (n + 1)) = .ok g ∧ g[n]? = some z ∧ z ≠ x ∧
        spacingFl fl lg pw .float [x, 64] "log" (some (n + 1)) = .ok g' ∧ g'[0]? = some z' ∧ z' ≠ x := by
    intro n hn
    refine ⟨_, _, pw (lg x), pw (lg x), g1 n hn, ?_, hne, g2 n hn, ?_, hne⟩
    · rw [List.getElem?_map, last _ _ _ hn]; rfl
    · rw [List.getElem?_map, first _ _ _ hn (hl.float x)]; rfl
  refine ⟨⟨x, h1, h2, hx, hspace, ?_⟩, ?_⟩
  · intro num hnum
    refine ⟨(subdivideFl fl ([x, 64].map lg) num).map pw, pw (lg x), ?_, ?_, hne⟩
    · unfold subdivideLogFl
      rw [if_pos]
      simp only [List.mem_cons, List.not_mem_nil, or_false]
      rintro y (rfl | rfl) <;> linarith
    · have hfix : ∀ y ∈ [x, 64].map lg, fl y = y := by
        simp only [List.map_cons, List.map_nil, List.mem_cons, List.not_mem_nil, or_false]
        rintro y (rfl | rfl) <;> exact h.fix (hl.float _)
      have := (subdivideFl_get h.zero _ hfix num hnum (by simp)).2.1 0 (by simp)
      rw [Nat.zero_mul] at this
      rw [List.getElem?_map, this]
      rfl
  · rintro ⟨hC, -⟩
    obtain ⟨g, -, z, -, ha, hb, hc, -⟩ := hspace 1 le_rfl
    have hf1 : ∀ y ∈ [1, x], IsFloat p y := by
      simp only [List.mem_cons, List.not_mem_nil, or_false]
      rintro y (rfl | rfl)
      · exact isFloat_one
      · exact hx
    have := (hC [1, x] 1 x hf1 e1 (by norm_num) 1 le_rfl g ha).2
    rw [hb] at this
    exact hc (Option.some.inj this)

/-! ### Examples -/

/-- The hypotheses can be met: rounded logarithms and powers, in double precision. -/
example : ∃ fl lg pw, Nearest 53 fl ∧ Log10 53 ((1 / 2) ^ 53) lg ∧ Pow10 ((1 / 2) ^ 53) pw ∧ lg 1 ≤ lg 100 ∧
    (∀ x ∈ [(1 : ℝ), 2, 4], IsFloat 53 x) ∧ midpointsFl fl [1, 2, 4] = .ok [3 / 2, 3] ∧ subdivideFl fl [1, 2, 4] 1 = [1, 3 / 2, 2, 3, 4] := by
  obtain ⟨fl, hfl⟩ := exists_nearest (p := 53) (by norm_num)
  have hu := hfl.accurate (by norm_num)
  have hi : ∀ m : ℤ, |m| ≤ 2 ^ 53 → fl m = m := fun m hm => hfl.fix (isFloat_int hm)
  have hh : ∀ m : ℤ, |m| ≤ 2 ^ 53 → fl (m / 2) = m / 2 := by
    intro m hm
    rw [show (m : ℝ) / 2 = 1 / 2 * m by ring]
    exact hfl.fix (isFloat_int hm).half
  have e3 := hi 3 (by norm_num); have e2 := hi 2 (by norm_num); have e4 := hi 4 (by norm_num); have e6 := hi 6 (by norm_num)
  have e1 := hfl.one; have e0 := hfl.zero
  have e32 := hh 3 (by norm_num); have e12 := hh 1 (by norm_num); have en4 := hi (-4) (by norm_num)
  push_cast at e3 e2 e4 e6 e32 e12 en4
  refine ⟨fl, fun x => fl (Real.logb 10 x), fun y => fl ((10 : ℝ) ^ y), hfl, ⟨fun x => hfl.float _, fun x _ => hu _⟩, ?_, ?_, ?_, ?_, ?_⟩
  · intro y
    have := hu ((10 : ℝ) ^ y)
    rwa [abs_of_pos (a := (10 : ℝ) ^ y) (by positivity)] at this
  · exact hfl.mono (Real.logb_le_logb_of_le (by norm_num) (by norm_num) (by norm_num))
  · simp only [List.mem_cons, List.not_mem_nil, or_false]
    rintro y (rfl | rfl | rfl)
    · exact isFloat_one
    · simpa using isFloat_int (p := 53) (m := 2) (by norm_num)
    · simpa using isFloat_int (p := 53) (m := 4) (by norm_num)
  · simp only [midpointsFl]
    norm_num [e3, e6, e32]
  · simp only [subdivideFl, dropLast', npDiff]
    norm_num [List.range_succ, e0, e1, e2, e3, e4, e32, e12, en4]

end Kalepy
