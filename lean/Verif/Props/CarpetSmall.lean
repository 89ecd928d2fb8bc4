import Verif.Props.Carpet

/-!
# C91: sizes of the points of a carpet for all positive weights

`C91_refuted` has one example in which a heavier point is smaller.  Here it is said for all weights in which order the sizes
are, in particular for weights below one, like normalised weights.
-/

namespace Kalepy

open Spec

/-- **C91, all cases.** Let `I` be the data drawn.  If the interquartile range of the logarithms of their weights is at most one,
heavier points are not smaller.  If it is greater, the order depends on the weights: heavier points are not smaller if no weight is
below one, and they are *not larger* if no weight is above one, as for normalised weights. -/
theorem C91_actual (srt : List ℝ → List ℕ) (sel : ℕ → ℕ → List ℕ) (fuzz : ℕ → ℝ) (xs w : List ℝ) (top : ℝ) (a : CarpetArgs)
    (ms : List Marker) (lo hi : ℝ) (hs : IsChoice sel) (hw : w.length = xs.length)
    (h : carpet srt sel fuzz xs (some w) top a = .ok (ms, lo, hi)) :
    ∃ I iqr, ShowsData a.rotate xs a.limit ms I ∧ iqrange srt (I.map fun i => Real.logb 10 (w.getD i 0)) = .ok iqr ∧
      ((iqr ≤ 1 ∨ ∀ x ∈ w, 1 ≤ x) → ∀ k l (hk : k < ms.length) (hl : l < ms.length),
        w.getD (I.getD k 0) 0 ≤ w.getD (I.getD l 0) 0 → ms[k].size ≤ ms[l].size) ∧
      ((1 < iqr ∧ ∀ x ∈ w, x ≤ 1) → ∀ k l (hk : k < ms.length) (hl : l < ms.length),
        w.getD (I.getD k 0) 0 ≤ w.getD (I.getD l 0) 0 → ms[l].size ≤ ms[k].size) := by
  obtain ⟨I, ww, ys, h1, h2, h3, h4, h5, h6, h7, h8, h9, h10⟩ := carpet_ok hs (by rintro _ ⟨⟩; exact hw) h
  have hd : ms.map (dataCoord a.rotate) = I.map fun i => xs.getD i 0 := by
    refine map_eq_of_get h9 fun k hk hk' => ?_
    rw [(h10 k hk).1, List.getD_eq_getElem I 0 hk']
  simp only [Option.map_some, carpetWeights] at h4
  set v := I.map fun i => w.getD i 0 with hv
  have hmem : ∀ x ∈ v, x ∈ w := by
    intro x hx
    obtain ⟨i, hi, rfl⟩ := List.mem_map.mp hx
    have := h2 i hi
    rw [List.getD_eq_getElem _ _ (by omega)]
    exact List.getElem_mem _
  split at h4
  swap
  · cases h4
  rename_i hpos
  split at h4
  · cases h4
  rename_i iqr hiqr
  split at h4
  · cases h4
  rename_i m hm
  split at h4
  · cases h4
  rename_i hm0
  cases h4
  have hvl : ∀ k, k < ms.length → k < v.length := by
    intro k hk
    simp only [hv, List.length_map]
    omega
  have hvk : ∀ k (hk : k < ms.length), w.getD (I.getD k 0) 0 = v[k]'(hvl k hk) := by
    intro k hk
    simp only [hv, List.getElem_map]
    rw [List.getD_eq_getElem I 0 (by omega)]
  have hsize : ∀ (g : ℝ → ℝ), (if 1 < iqr then v.map (Real.logb 10) else v) = v.map g → ∀ k (hk : k < ms.length),
      ms[k].size = carpetSize I.length (g (w.getD (I.getD k 0) 0) / m) := by
    intro g hg k hk
    rw [hg] at h10
    rw [(h10 k hk).2.2, hvk k hk]
    simp only [Option.getD_some, List.map_map]
    rw [List.getD_eq_getElem _ _ (by simpa using hvl k hk)]
    simp only [List.getElem_map, Function.comp_apply]
  have hwpos : ∀ k (hk : k < ms.length), 0 < w.getD (I.getD k 0) 0 := by
    intro k hk
    rw [hvk k hk]
    exact hpos _ (List.getElem_mem _)
  have hlog : ∀ k l (hk : k < ms.length) (hl : l < ms.length), w.getD (I.getD k 0) 0 ≤ w.getD (I.getD l 0) 0 →
      Real.logb 10 (w.getD (I.getD k 0) 0) ≤ Real.logb 10 (w.getD (I.getD l 0) 0) := fun k l hk hl hkl =>
    Real.logb_le_logb_of_le (by norm_num) (hwpos k hk) hkl
  refine ⟨I, iqr, ⟨h1, h2, h3, hd⟩, by simpa [hv, List.map_map, Function.comp_def] using hiqr, ?_, ?_⟩
  · intro hc k l hk hl hkl
    by_cases hi : 1 < iqr
    · have hall := hc.resolve_left (by linarith)
      rw [if_pos hi] at hm
      have hmp : 0 ≤ m := by
        obtain ⟨p, hp, q, hq, rfl⟩ := npMedian_mem_range hm
        obtain ⟨x, hx, rfl⟩ := List.mem_map.mp hp
        obtain ⟨y, hy, rfl⟩ := List.mem_map.mp hq
        have := Real.logb_nonneg (b := 10) (by norm_num) (hall x (hmem x hx))
        have := Real.logb_nonneg (b := 10) (by norm_num) (hall y (hmem y hy))
        linarith
      rw [hsize _ (if_pos hi) k hk, hsize _ (if_pos hi) l hl]
      exact carpetSize_mono _ (div_le_div_of_nonneg_right (hlog k l hk hl hkl) hmp)
    · rw [if_neg hi] at hm
      have hmp : 0 < m := npMedian_pos hm hpos
      rw [hsize id (by simp [hi]) k hk, hsize id (by simp [hi]) l hl]
      exact carpetSize_mono _ (div_le_div_of_nonneg_right hkl hmp.le)
  · rintro ⟨hi, hall⟩ k l hk hl hkl
    rw [if_pos hi] at hm
    have hmp : m ≤ 0 := by
      obtain ⟨p, hp, q, hq, rfl⟩ := npMedian_mem_range hm
      obtain ⟨x, hx, rfl⟩ := List.mem_map.mp hp
      obtain ⟨y, hy, rfl⟩ := List.mem_map.mp hq
      have := Real.logb_nonpos (b := 10) (by norm_num) (hpos x hx).le (hall x (hmem x hx))
      have := Real.logb_nonpos (b := 10) (by norm_num) (hpos y hy).le (hall y (hmem y hy))
      linarith
    rw [hsize _ (if_pos hi) k hk, hsize _ (if_pos hi) l hl]
    exact carpetSize_mono _ (div_le_div_of_nonpos_of_le hmp (hlog k l hk hl hkl))

end Kalepy
