import Mathlib.Tactic.Linarith
import Mathlib.Tactic.FieldSimp
import Mathlib.Tactic.Ring
import Mathlib.Algebra.Order.BigOperators.Group.List
import Verif.Model.Utils
import Verif.Proofs.Np

/-!
# np.interp and the quantile grid
-/

namespace Kalepy

variable {K : Type*}

lemma searchRight_le_length [LinearOrder K] (a : List K) (v : K) : searchRight a v ≤ a.length :=
  List.countP_le_length

lemma searchRight_spec [LinearOrder K] {a : List K} (ha : a.Pairwise (· ≤ ·)) (v : K) :
    (∀ i (h : i < a.length), i < searchRight a v → a[i] ≤ v) ∧
    (∀ i (h : i < a.length), searchRight a v ≤ i → v < a[i]) := by
  induction a with
  | nil => simp
  | cons b l ih =>
    rw [List.pairwise_cons] at ha
    obtain ⟨h1, h2⟩ := ih ha.2
    by_cases hb : b ≤ v
    · have hs : searchRight (b :: l) v = searchRight l v + 1 := by simp [searchRight, hb]
      rw [hs]
      constructor
      · intro i h hi
        cases i with
        | zero => exact hb
        | succ i => exact h1 i (by simpa using h) (by omega)
      · intro i h hi
        cases i with
        | zero => omega
        | succ i => exact h2 i (by simpa using h) (by omega)
    · have hs : searchRight (b :: l) v = 0 := by
        simp only [searchRight, List.countP_eq_zero, List.mem_cons, decide_eq_true_eq]
        rintro x (rfl | hx)
        · exact hb
        · exact fun h => hb ((ha.1 x hx).trans h)
      rw [hs]
      refine ⟨fun i _ hi => absurd hi (by omega), ?_⟩
      intro i h _
      have hbv : v < b := not_le.mp hb
      cases i with
      | zero => exact hbv
      | succ i => exact hbv.trans_le (ha.1 _ (List.getElem_mem (by simpa using h)))

lemma searchRight_mono [LinearOrder K] (a : List K) {v w : K} (h : v ≤ w) :
    searchRight a v ≤ searchRight a w := by
  apply List.countP_mono_left
  intro x _ hx
  simp only [decide_eq_true_eq] at *
  exact hx.trans h

lemma pairwise_getElem_le [LinearOrder K] {a : List K} (ha : a.Pairwise (· ≤ ·)) {i j : ℕ} (hij : i ≤ j)
    (hj : j < a.length) : a[i] ≤ a[j] := by
  rcases hij.lt_or_eq with h | h
  · exact List.pairwise_iff_getElem.mp ha i j _ hj h
  · subst h; exact le_rfl

section interp

variable [Field K] [LinearOrder K] [IsStrictOrderedRing K]

/-- The interpolated value lies between the values at the two surrounding points. -/
lemma npInterp_between {xp fp : List K} (hx : xp.Pairwise (· ≤ ·)) (hf : fp.Pairwise (· ≤ ·))
    (hl : xp.length = fp.length) (x : K) (j : ℕ) (hj : searchRight xp x = j + 1) (hj2 : j + 1 < fp.length) :
    fp[j] ≤ npInterp x xp fp ∧ npInterp x xp fp ≤ fp[j + 1] := by
  have hff : fp[j] ≤ fp[j + 1] := pairwise_getElem_le hf (by omega) hj2
  unfold npInterp
  rw [hj]
  simp only
  rw [if_neg (by omega), List.getD_eq_getElem _ _ (by omega : j < xp.length),
    List.getD_eq_getElem _ _ (by omega : j + 1 < xp.length), List.getD_eq_getElem _ _ (by omega : j < fp.length),
    List.getD_eq_getElem _ _ hj2]
  split_ifs with h
  · exact ⟨le_rfl, hff⟩
  · obtain ⟨s1, s2⟩ := searchRight_spec hx x
    have h1 := s1 j (by omega) (by omega)
    have h2 := s2 (j + 1) (by omega) (by omega)
    have hd : 0 < xp[j + 1] - xp[j] := by linarith
    have ht0 : 0 ≤ (x - xp[j]) / (xp[j + 1] - xp[j]) := div_nonneg (by linarith) hd.le
    have ht1 : (x - xp[j]) / (xp[j + 1] - xp[j]) ≤ 1 := by rw [div_le_one hd]; linarith
    have e : (fp[j + 1] - fp[j]) / (xp[j + 1] - xp[j]) * (x - xp[j])
        = (fp[j + 1] - fp[j]) * ((x - xp[j]) / (xp[j + 1] - xp[j])) := by ring
    rw [e]
    have hn : 0 ≤ fp[j + 1] - fp[j] := by linarith
    constructor
    · have := mul_nonneg hn ht0
      linarith
    · have := mul_le_of_le_one_right hn ht1
      linarith

lemma npInterp_zero {xp fp : List K} (x : K) (hj : searchRight xp x = 0) (h : 0 < fp.length) :
    npInterp x xp fp = fp[0] := by
  unfold npInterp; rw [hj]; simp [h]

lemma npInterp_last {xp fp : List K} (hl : xp.length = fp.length) (x : K)
    (hj : searchRight xp x = fp.length) (h : 0 < fp.length) :
    npInterp x xp fp = fp[fp.length - 1] := by
  obtain ⟨n, hn⟩ : ∃ n, fp.length = n + 1 := ⟨fp.length - 1, by omega⟩
  unfold npInterp
  rw [hj.trans hn]
  simp only
  rw [if_pos (by omega), List.getD_eq_getElem _ _ (by omega)]
  simp [hn]

lemma npInterp_bounds {xp fp : List K} (hx : xp.Pairwise (· ≤ ·)) (hf : fp.Pairwise (· ≤ ·))
    (hl : xp.length = fp.length) (h : 0 < fp.length) (x : K) :
    fp[0] ≤ npInterp x xp fp ∧ npInterp x xp fp ≤ fp[fp.length - 1] := by
  rcases Nat.eq_zero_or_pos (searchRight xp x) with h0 | h0
  · rw [npInterp_zero x h0 h]; exact ⟨le_rfl, pairwise_getElem_le hf (by omega) _⟩
  · by_cases h1 : searchRight xp x = fp.length
    · rw [npInterp_last hl x h1 h]; exact ⟨pairwise_getElem_le hf (by omega) _, le_rfl⟩
    · have := searchRight_le_length xp x
      obtain ⟨b1, b2⟩ := npInterp_between hx hf hl x (searchRight xp x - 1) (by omega) (by omega)
      exact ⟨(pairwise_getElem_le hf (by omega) _).trans b1, b2.trans (pairwise_getElem_le hf (by omega) _)⟩

lemma npInterp_mono {xp fp : List K} (hx : xp.Pairwise (· ≤ ·)) (hf : fp.Pairwise (· ≤ ·))
    (hl : xp.length = fp.length) (h : 0 < fp.length) {x y : K} (hxy : x ≤ y) :
    npInterp x xp fp ≤ npInterp y xp fp := by
  have hm := searchRight_mono xp hxy
  have lx := searchRight_le_length xp x
  have ly := searchRight_le_length xp y
  rcases Nat.eq_zero_or_pos (searchRight xp x) with h0 | h0
  · rw [npInterp_zero x h0 h]; exact (npInterp_bounds hx hf hl h y).1
  by_cases hy : searchRight xp y = fp.length
  · rw [npInterp_last hl y hy h]; exact (npInterp_bounds hx hf hl h x).2
  obtain ⟨bx1, bx2⟩ := npInterp_between hx hf hl x (searchRight xp x - 1) (by omega) (by omega)
  obtain ⟨by1, by2⟩ := npInterp_between hx hf hl y (searchRight xp y - 1) (by omega) (by omega)
  rcases hm.lt_or_eq with hlt | heq
  · exact (bx2.trans (pairwise_getElem_le hf (by omega) (by omega))).trans by1
  · -- same cell
    obtain ⟨j, hj⟩ : ∃ j, searchRight xp x = j + 1 := ⟨searchRight xp x - 1, by omega⟩
    have hj' : searchRight xp y = j + 1 := by omega
    obtain ⟨s1, s2⟩ := searchRight_spec hx x
    obtain ⟨t1, t2⟩ := searchRight_spec hx y
    have h1 := s1 j (by omega) (by omega)
    have h2 := t2 (j + 1) (by omega) (by omega)
    have hd : 0 < xp[j + 1] - xp[j] := by linarith
    have hff : fp[j] ≤ fp[j + 1] := pairwise_getElem_le hf (by omega) (by omega)
    have form : ∀ z, searchRight xp z = j + 1 → npInterp z xp fp
        = (fp[j + 1] - fp[j]) / (xp[j + 1] - xp[j]) * (z - xp[j]) + fp[j] := by
      intro z hz
      unfold npInterp
      rw [hz]
      simp only
      rw [if_neg (by omega), List.getD_eq_getElem _ _ (by omega : j < xp.length),
        List.getD_eq_getElem _ _ (by omega : j + 1 < xp.length),
        List.getD_eq_getElem _ _ (by omega : j < fp.length),
        List.getD_eq_getElem _ _ (by omega : j + 1 < fp.length)]
      split_ifs with h
      · rw [h]; ring
      · rfl
    rw [form x hj, form y hj']
    have hs : 0 ≤ (fp[j + 1] - fp[j]) / (xp[j + 1] - xp[j]) := div_nonneg (by linarith) hd.le
    have := mul_le_mul_of_nonneg_left (sub_le_sub_right hxy xp[j]) hs
    linarith

/-! ### the cumulative weight fractions -/

lemma quantileGrid_length (ws : List K) : (quantileGrid ws).length = ws.length := by
  simp [quantileGrid, npCumsum_length]

lemma quantileGrid_getElem (ws : List K) (i : ℕ) (h : i < ws.length) :
    (quantileGrid ws)[i]'(by rw [quantileGrid_length]; exact h)
      = ((ws.take i).sum + 1 / 2 * ws[i]) / ws.sum := by
  simp only [quantileGrid, List.getElem_zipWith]
  rw [npCumsum_getElem, List.sum_take_succ _ _ h]
  ring

lemma quantileGrid_sorted {ws : List K} (hw : ∀ w ∈ ws, 0 ≤ w) (hs : 0 < ws.sum) :
    (quantileGrid ws).Pairwise (· ≤ ·) := by
  rw [← List.isChain_iff_pairwise, List.isChain_iff_getElem]
  intro i hi
  rw [quantileGrid_length] at hi
  rw [quantileGrid_getElem ws i (by omega), quantileGrid_getElem ws (i + 1) hi,
    List.sum_take_succ _ _ (by omega)]
  apply div_le_div_of_nonneg_right _ hs.le
  have h1 := hw _ (List.getElem_mem (by omega : i < ws.length))
  have h2 := hw _ (List.getElem_mem hi)
  linarith

lemma quantileGrid_le_one {ws : List K} (hw : ∀ w ∈ ws, 0 ≤ w) (hs : 0 < ws.sum) :
    ∀ x ∈ quantileGrid ws, x ≤ 1 := by
  intro x hx
  obtain ⟨i, hi, rfl⟩ := List.getElem_of_mem hx
  rw [quantileGrid_length] at hi
  rw [quantileGrid_getElem ws i hi, div_le_one hs]
  have h1 := hw _ (List.getElem_mem hi)
  have h2 : (ws.take (i + 1)).sum ≤ ws.sum := by
    conv_rhs => rw [← List.sum_take_add_sum_drop ws (i + 1)]
    have : 0 ≤ (ws.drop (i + 1)).sum := List.sum_nonneg fun w h => hw w (List.mem_of_mem_drop h)
    linarith
  rw [List.sum_take_succ _ _ hi] at h2
  linarith

lemma quantileGrid_pos {ws : List K} (hw : ∀ w ∈ ws, 0 < w) (hs : 0 < ws.sum) :
    ∀ x ∈ quantileGrid ws, 0 < x := by
  intro x hx
  obtain ⟨i, hi, rfl⟩ := List.getElem_of_mem hx
  rw [quantileGrid_length] at hi
  rw [quantileGrid_getElem ws i hi]
  apply div_pos _ hs
  have h1 := hw _ (List.getElem_mem hi)
  have : 0 ≤ (ws.take i).sum := List.sum_nonneg fun w h => (hw w (List.mem_of_mem_take h)).le
  linarith

lemma quantileGrid_scale (ws : List K) {c : K} (hc : c ≠ 0) :
    quantileGrid (ws.map (c * ·)) = quantileGrid ws := by
  apply List.ext_getElem
  · simp [quantileGrid_length]
  intro i h1 h2
  rw [quantileGrid_length] at h1 h2
  rw [quantileGrid_getElem _ i h1, quantileGrid_getElem _ i h2, ← List.map_take, List.sum_map_mul_left,
    List.sum_map_mul_left, List.getElem_map]
  simp only [List.map_id']
  rw [← mul_div_mul_left _ ws.sum hc]; congr 1; ring

end interp

end Kalepy
