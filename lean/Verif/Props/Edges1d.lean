import Mathlib.Tactic.Linarith
import Mathlib.Tactic.FieldSimp
import Mathlib.Tactic.Ring
import Mathlib.Tactic.NormNum
import Mathlib.Data.List.GetD
import Verif.Model.Utils
import Verif.Proofs.Np

/-!
# C36, C37: midpoints and subdivide
-/

namespace Kalepy

variable {K : Type*}

section linear

variable [Field K] [LinearOrder K] [IsStrictOrderedRing K]

/-- **C36.** Midpoints of an array of at least two values: one less value, each the mean of its
neighbours, so strictly between them if they differ. -/
theorem C36_midpoints (l : List K) (h : 2 ≤ l.length) :
    ∃ r, midpoints1 l = .ok r ∧ r.length = l.length - 1 ∧
      ∀ i (hi : i + 1 < l.length), ∃ m, r[i]? = some m ∧ m = (l[i] + l[i + 1]) / 2 ∧
        (l[i] < l[i + 1] → l[i] < m ∧ m < l[i + 1]) ∧ (l[i + 1] < l[i] → l[i + 1] < m ∧ m < l[i]) := by
  refine ⟨_, if_neg (by omega), by simp, ?_⟩
  intro i hi
  refine ⟨1 / 2 * (l[i] + l[i + 1]), ?_, by ring, fun h => ⟨by linarith, by linarith⟩,
    fun h => ⟨by linarith, by linarith⟩⟩
  rw [List.getElem?_eq_getElem (by simp; omega)]
  simp

/-- **C36.** Midpoints of strictly increasing values are strictly increasing. -/
theorem C36_midpoints_increasing (l r : List K) (hl : l.Pairwise (· < ·)) (hr : midpoints1 l = .ok r) :
    r.Pairwise (· < ·) := by
  by_cases h : l.length < 2
  · rw [midpoints1, if_pos h] at hr; cases hr
  · rw [midpoints1, if_neg h] at hr
    injection hr with hr; subst hr
    rw [List.pairwise_iff_getElem] at *
    intro i j hi hj hij
    simp only [List.length_zipWith, List.length_tail] at hi hj
    simp only [List.getElem_zipWith, List.getElem_tail]
    have h1 := hl i j (by omega) (by omega) hij
    have h2 := hl (i + 1) (j + 1) (by omega) (by omega) (by omega)
    linarith

/-- **C36.** Fewer than two values: an exception. -/
theorem C36_short (l : List K) (h : l.length < 2) : midpoints1 l = .error .runtimeError := if_pos h

end linear

/-- **C36.** Log-midpoints of positive values are the geometric means of the neighbours (in particular
between them). -/
theorem C36_midpoints_log (l : List ℝ) (h : 2 ≤ l.length) (hp : ∀ x ∈ l, 0 < x) :
    ∃ r, midpointsLog l = .ok r ∧ r.length = l.length - 1 ∧
      ∀ i (hi : i + 1 < l.length), r[i]? = some (Real.sqrt (l[i] * l[i + 1])) := by
  have he : midpoints1 (l.map (Real.logb 10)) = .ok (List.zipWith (fun a b => 1 / 2 * (a + b))
      (l.map (Real.logb 10)) (l.map (Real.logb 10)).tail) := if_neg (by simp; omega)
  refine ⟨_, by unfold midpointsLog; rw [if_pos hp, he], by simp, ?_⟩
  intro i hi
  rw [List.getElem?_eq_getElem (by simp; omega)]
  simp only [List.getElem_map, List.getElem_zipWith, List.getElem_tail, Option.some.injEq]
  have h1 := hp _ (List.getElem_mem (by omega : i < l.length))
  have h2 := hp _ (List.getElem_mem hi)
  rw [← Real.logb_mul h1.ne' h2.ne', Real.sqrt_eq_rpow, mul_comm, Real.rpow_mul (by norm_num),
    Real.rpow_logb (by norm_num) (by norm_num) (mul_pos h1 h2)]

example : midpoints1 [(1 : ℚ), 2, 5] = .ok [3 / 2, 7 / 2] := by
  simp [midpoints1]; norm_num

/-! ### subdivide -/

section subdivide

lemma flatten_length_const {α : Type*} (ls : List (List α)) (m : ℕ) (h : ∀ l ∈ ls, l.length = m) :
    ls.flatten.length = ls.length * m := by
  induction ls with
  | nil => simp
  | cons a l ih =>
    rw [List.flatten_cons, List.length_append, ih fun x hx => h x (by simp [hx]), h a (by simp),
      List.length_cons]; ring

lemma flatten_getElem?_const {α : Type*} (ls : List (List α)) (m : ℕ) (h : ∀ l ∈ ls, l.length = m)
    (k j : ℕ) (hj : j < m) : ls.flatten[k * m + j]? = (ls[k]?).bind (·[j]?) := by
  induction ls generalizing k with
  | nil => simp
  | cons a l ih =>
    have ha := h a (by simp)
    rw [List.flatten_cons]
    cases k with
    | zero => rw [List.getElem?_append_left (by omega)]; simp
    | succ k =>
      rw [List.getElem?_append_right (by rw [ha]; nlinarith)]
      have : (k + 1) * m + j - a.length = k * m + j := by
        rw [ha, Nat.add_mul]; omega
      rw [this, ih fun x hx => h x (by simp [hx])]
      simp

variable [Field K] [LinearOrder K] [IsStrictOrderedRing K]

/-- The rows of the intermediate array. -/
def subRows (xx : List K) (num : ℕ) : List (List K) :=
  List.zipWith (fun x D => (List.range (num + 1)).map fun (j : ℕ) =>
    x + D * ((j : K) / ((num : K) + 1))) xx (npDiff (xx ++ [0]))

lemma subRows_len (xx : List K) (num : ℕ) : ∀ l ∈ subRows xx num, l.length = num + 1 := by
  intro l hl
  obtain ⟨i, hi, rfl⟩ := List.getElem_of_mem hl
  simp [subRows]

lemma subRows_length (xx : List K) (num : ℕ) : (subRows xx num).length = xx.length := by
  simp [subRows, npDiff]

lemma subRows_get (xx : List K) (num k j : ℕ) (hk : k < xx.length) (hj : j ≤ num) :
    (subRows xx num).flatten[k * (num + 1) + j]? = some (xx[k]
      + ((xx ++ [0]).getD (k + 1) 0 - xx[k]) * ((j : K) / ((num : K) + 1))) := by
  rw [flatten_getElem?_const _ _ (subRows_len xx num) k j (by omega),
    List.getElem?_eq_getElem (by rw [subRows_length]; exact hk), Option.bind_some]
  simp only [subRows, List.getElem_zipWith]
  rw [List.getElem?_eq_getElem (by simp; omega)]
  simp only [List.getElem_map, List.getElem_range, npDiff, List.getElem_zipWith, List.getElem_tail]
  rw [List.getD_eq_getElem _ _ (by simp; omega), List.getElem_append_left (i := k) hk]

/-- **C37.** For `num ≥ 1`, `subdivide(xx, num)` of `X ≥ 1` edges has `(X-1)(num+1)+1` edges; the original
edge `k` is at position `k(num+1)`; and between two original edges the new ones are spaced evenly.
Missing: `num = 0`, see `C37_refuted`. -/
theorem C37_subdivide_partial (xx : List K) (num : ℕ) (hn : 1 ≤ num) (hx : xx ≠ []) :
    (subdivide xx num).length = (xx.length - 1) * (num + 1) + 1 ∧
    (∀ k (hk : k < xx.length), (subdivide xx num)[k * (num + 1)]? = some xx[k]) ∧
    (∀ k j (hk : k + 1 < xx.length), j ≤ num + 1 →
      (subdivide xx num)[k * (num + 1) + j]? = some (xx[k] + (xx[k + 1] - xx[k]) * j / (num + 1))) := by
  have hX : 1 ≤ xx.length := List.length_pos_iff.mpr hx
  have hflen : (subRows xx num).flatten.length = xx.length * (num + 1) := by
    rw [flatten_length_const _ _ (subRows_len xx num), subRows_length]
  have hlen : (subRows xx num).flatten.length - num = (xx.length - 1) * (num + 1) + 1 := by
    rw [hflen]
    obtain ⟨n, hn'⟩ : ∃ n, xx.length = n + 1 := ⟨xx.length - 1, by omega⟩
    rw [hn', Nat.add_mul, Nat.add_sub_cancel]; omega
  have hsub : subdivide xx num = (subRows xx num).flatten.take ((xx.length - 1) * (num + 1) + 1) := by
    rw [← hlen]
    exact if_neg (by omega)
  have hget : ∀ m, m < (xx.length - 1) * (num + 1) + 1 →
      (subdivide xx num)[m]? = (subRows xx num).flatten[m]? := by
    intro m hm; rw [hsub, List.getElem?_take_of_lt hm]
  have hedge : ∀ k (hk : k < xx.length), (subdivide xx num)[k * (num + 1)]? = some xx[k] := by
    intro k hk
    rw [hget _ (by have : k * (num + 1) ≤ (xx.length - 1) * (num + 1) := Nat.mul_le_mul_right _ (by omega)
                   omega)]
    have := subRows_get xx num k 0 hk (by omega)
    simpa using this
  refine ⟨?_, hedge, ?_⟩
  · rw [hsub, List.length_take]; omega
  · intro k j hk hj
    have hn0 : ((num : K) + 1) ≠ 0 := by positivity
    rcases Nat.lt_or_ge j (num + 1) with h | h
    · have hle : (k + 1) * (num + 1) ≤ (xx.length - 1) * (num + 1) := Nat.mul_le_mul_right _ (by omega)
      rw [hget _ (by rw [Nat.add_mul] at hle; omega), subRows_get xx num k j (by omega) (by omega)]
      rw [List.getD_eq_getElem _ _ (by simp; omega), List.getElem_append_left hk]
      congr 2; ring
    · have : j = num + 1 := by omega
      subst this
      have e : k * (num + 1) + (num + 1) = (k + 1) * (num + 1) := by ring
      rw [e, hedge (k + 1) hk]
      congr 1; push_cast; field_simp; ring

/-- **C37.** For `num ≥ 1` strictly increasing edges remain strictly increasing. -/
theorem C37_increasing_partial (xx : List K) (num : ℕ) (hn : 1 ≤ num) (hx : xx ≠ [])
    (hinc : xx.Pairwise (· < ·)) : (subdivide xx num).Pairwise (· < ·) := by
  obtain ⟨hl, -, he⟩ := C37_subdivide_partial xx num hn hx
  rw [← List.isChain_iff_pairwise, List.isChain_iff_getElem]
  intro i hi
  rw [hl] at hi
  have hk : i / (num + 1) + 1 < xx.length := by
    have : i / (num + 1) < xx.length - 1 := by
      rw [Nat.div_lt_iff_lt_mul (by omega)]; omega
    generalize i / (num + 1) = q at this
    omega
  have hj : i % (num + 1) < num + 1 := Nat.mod_lt _ (by omega)
  have hi2 : i / (num + 1) * (num + 1) + i % (num + 1) = i := Nat.div_add_mod' i (num + 1)
  have h1 := he _ (i % (num + 1)) hk (by omega)
  have h2 := he _ (i % (num + 1) + 1) hk (by omega)
  rw [← add_assoc, hi2] at h2
  rw [hi2] at h1
  rw [List.getElem?_eq_some_iff] at h1 h2
  obtain ⟨_, h1⟩ := h1
  obtain ⟨_, h2⟩ := h2
  rw [h1, h2]
  have hd : xx[i / (num + 1)] < xx[i / (num + 1) + 1] :=
    List.pairwise_iff_getElem.mp hinc _ _ _ _ (by omega)
  have hn0 : (0 : K) < (num : K) + 1 := by positivity
  push_cast
  have : (xx[i / (num + 1) + 1] - xx[i / (num + 1)]) * ((i % (num + 1) : ℕ) : K) / (num + 1) <
      (xx[i / (num + 1) + 1] - xx[i / (num + 1)]) * (((i % (num + 1) : ℕ) : K) + 1) / (num + 1) := by
    apply div_lt_div_of_pos_right _ hn0
    apply mul_lt_mul_of_pos_left _ (by linarith)
    linarith
  linarith

/-- **C37 (full statement for the number of edges, not true of the code).** -/
def C37_Claim : Prop :=
  ∀ (xx : List ℚ) (num : ℕ) (_ : xx ≠ []), (subdivide xx num).length = (xx.length - 1) * (num + 1) + 1

/-- **C37 fails for `num = 0`**: the result is empty (`[:-0]`) for all edges. -/
theorem C37_zero (xx : List K) : subdivide xx 0 = [] := by simp [subdivide, dropLast']

theorem C37_refuted : ¬ C37_Claim := by
  intro hC
  have := hC [0, 1] 0 (by simp)
  rw [C37_zero] at this
  simp at this

example : subdivide [(0 : ℚ), 2, 6] 1 = [0, 1, 2, 4, 6] := by
  simp [subdivide, npDiff, dropLast', List.range_succ]; norm_num

end subdivide

end Kalepy
