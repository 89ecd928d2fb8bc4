import Mathlib.Tactic.FieldSimp
import Mathlib.Tactic.Positivity
import Verif.Model.Sample
import Verif.Proofs.Grid
import Verif.Proofs.Np

/-!
# Lemmas about `sample.py`
-/

set_option linter.unusedSectionVars false

namespace Kalepy

variable {d : ℕ} {K : Type*}

section cumulative
variable [Field K] [LinearOrder K] [IsStrictOrderedRing K]

/-- What `_data_to_cumulative` returns for nonnegative masses with positive total. -/
structure CumOK (m : List K) (idx : List ℕ) (csum : List K) : Prop where
  perm : idx.Perm (List.range m.length)
  sorted : (idx.map fun i => m.getD i 0).Pairwise (· ≤ ·)
  len : csum.length = idx.length + 1
  get : ∀ k (h : k < csum.length), csum[k] = ((idx.map fun i => m.getD i 0).take k).sum / m.sum

lemma dataToCumulative_ok {srt : List K → List ℕ} (hs : ∀ l, IsArgsort (srt l) l) {m : List K}
    (ht : 0 < m.sum) : ∃ idx csum, dataToCumulative srt m = .ok (idx, csum) ∧ CumOK m idx csum := by
  have hperm := (hs m).perm
  have hsum : ((srt m).map fun i => m.getD i 0).sum = m.sum := hperm.sum_eq
  have hne : ((srt m).map fun i => m.getD i 0) ≠ [] := by
    intro h; rw [h] at hsum; simp at hsum; rw [← hsum] at ht; exact lt_irrefl _ ht
  refine ⟨srt m, 0 :: (npCumsum ((srt m).map fun i => m.getD i 0)).map (· / m.sum), ?_, ?_⟩
  · unfold dataToCumulative
    simp only [npCumsum_getLast?, if_neg hne, hsum, if_neg ht.ne']
  · refine ⟨(hs m).1, (hs m).2, by simp [npCumsum_length], fun k h => ?_⟩
    have : (0 : K) :: (npCumsum ((srt m).map fun i => m.getD i 0)).map (· / m.sum)
        = (0 :: npCumsum ((srt m).map fun i => m.getD i 0)).map (· / m.sum) := by simp
    simp only [this, List.getElem_map]
    rw [cons_cumsum_getElem]

variable {m : List K} {idx : List ℕ} {csum : List K}

lemma CumOK.idx_length (h : CumOK m idx csum) : idx.length = m.length := by
  simpa using h.perm.length_eq

lemma CumOK.nodup (h : CumOK m idx csum) : idx.Nodup := h.perm.nodup_iff.mpr List.nodup_range

lemma CumOK.sum_sorted (h : CumOK m idx csum) : (idx.map fun i => m.getD i 0).sum = m.sum := by
  have := h.perm.map (fun i => m.getD i 0)
  rw [list_map_getD_range] at this
  exact this.sum_eq

lemma CumOK.step (h : CumOK m idx csum) (k : ℕ) (hk : k < idx.length) :
    csum[k + 1]'(by rw [h.len]; omega) - csum[k]'(by rw [h.len]; omega) = m.getD idx[k] 0 / m.sum := by
  rw [h.get, h.get, ← sub_div, List.take_add_one, List.sum_append]
  simp [hk]

lemma CumOK.zero (h : CumOK m idx csum) : csum[0]'(by rw [h.len]; omega) = 0 := by
  rw [h.get]; simp

lemma CumOK.one (h : CumOK m idx csum) (ht : 0 < m.sum) :
    csum[idx.length]'(by rw [h.len]; omega) = 1 := by
  rw [h.get]
  have : (idx.map fun i => m.getD i 0).take idx.length = idx.map fun i => m.getD i 0 := by
    rw [List.take_of_length_le (by simp)]
  rw [this, h.sum_sorted, div_self ht.ne']

lemma getD_nonneg (hm : ∀ x ∈ m, 0 ≤ x) (i : ℕ) : 0 ≤ m.getD i 0 := by
  by_cases h : i < m.length
  · rw [List.getD_eq_getElem _ _ h]; exact hm _ (List.getElem_mem h)
  · rw [List.getD_eq_default _ _ (by omega)]

lemma CumOK.mono (h : CumOK m idx csum) (hm : ∀ x ∈ m, 0 ≤ x) (ht : 0 < m.sum) :
    csum.Pairwise (· ≤ ·) := by
  rw [← List.isChain_iff_pairwise, List.isChain_iff_getElem]
  intro i hi
  have hk : i < idx.length := by rw [h.len] at hi; omega
  have := h.step i hk
  have h0 : 0 ≤ m.getD idx[i] 0 / m.sum := div_nonneg (getD_nonneg hm _) ht.le
  linarith

/-- Selection for a positive random value: the interval of the cumulative sums that contains it. -/
lemma CumOK.pick_pos (h : CumOK m idx csum) (hm : ∀ x ∈ m, 0 ≤ x) (ht : 0 < m.sum) {u : K}
    (h0 : 0 < u) (h1 : u < 1) : ∃ (k : ℕ) (hk : k < idx.length),
      pickBin idx csum u = .ok idx[k] ∧ csum[k]'(by rw [h.len]; omega) < u ∧
      u ≤ csum[k + 1]'(by rw [h.len]; omega) := by
  obtain ⟨s1, s2⟩ := searchLeft_spec (h.mono hm ht) u
  have hz := h.zero
  have ho := h.one ht
  have hp1 : 1 ≤ searchLeft csum u := by
    by_contra hc
    have := s2 0 (by rw [h.len]; omega) (by omega)
    rw [hz] at this; exact absurd h0 (not_lt.mpr this)
  have hp2 : searchLeft csum u ≤ idx.length := by
    by_contra hc
    have := s1 idx.length (by rw [h.len]; omega) (by omega)
    rw [ho] at this; exact absurd h1 (not_lt.mpr this.le)
  obtain ⟨k, hk⟩ : ∃ k, searchLeft csum u = k + 1 := ⟨searchLeft csum u - 1, by omega⟩
  refine ⟨k, by omega, ?_, s1 k (by rw [h.len]; omega) (by omega), s2 (k+1) (by rw [h.len]; omega) (by omega)⟩
  rw [pickBin, hk]
  have : ((k + 1 : ℕ) : ℤ) - 1 = (k : ℤ) := by push_cast; ring
  rw [this, pyIndex_nat _ _ (by omega)]

/-- The random value 0 selects the last bin in sorting order. -/
lemma CumOK.pick_zero (h : CumOK m idx csum) (hm : ∀ x ∈ m, 0 ≤ x) (ht : 0 < m.sum) :
    ∃ hn : idx.length - 1 < idx.length, pickBin idx csum 0 = .ok idx[idx.length - 1] := by
  have hmono := h.mono hm ht
  have hs : searchLeft csum 0 = 0 := by
    rw [searchLeft, List.countP_eq_zero]
    intro x hx
    obtain ⟨i, hi, rfl⟩ := List.getElem_of_mem hx
    have : csum[0]'(by omega) ≤ csum[i] := by
      rcases Nat.eq_zero_or_pos i with rfl | hi0
      · exact le_refl _
      · exact List.pairwise_iff_getElem.mp hmono _ _ _ _ hi0
    rw [h.zero] at this
    simpa using this
  have hne : 0 < idx.length := by
    rcases Nat.eq_zero_or_pos idx.length with h0 | h0
    · have hnil : m = [] := List.length_eq_zero_iff.mp (by rw [← h.idx_length, h0])
      rw [hnil] at ht; simp at ht
    · exact h0
  refine ⟨by omega, ?_⟩
  rw [pickBin, hs]
  have : ((0 : ℕ) : ℤ) - 1 = -1 := rfl
  rw [this, pyIndex_neg_one _ hne]

/-- Every random value in `[0,1)` selects a bin of positive mass. -/
lemma CumOK.pick_ok (h : CumOK m idx csum) (hm : ∀ x ∈ m, 0 ≤ x) (ht : 0 < m.sum) {u : K}
    (h0 : 0 ≤ u) (h1 : u < 1) :
    ∃ b, pickBin idx csum u = .ok b ∧ b < m.length ∧ 0 < m.getD b 0 := by
  have hmem : ∀ k (hk : k < idx.length), idx[k] < m.length := by
    intro k hk
    have := h.perm.mem_iff.mp (List.getElem_mem hk)
    simpa using this
  rcases h0.eq_or_lt with rfl | h0
  · obtain ⟨hn, hp⟩ := h.pick_zero hm ht
    refine ⟨_, hp, hmem _ hn, ?_⟩
    by_contra hc
    have hz : m.getD idx[idx.length - 1] 0 = 0 := le_antisymm (not_lt.mp hc) (getD_nonneg hm _)
    have hall : ∀ x ∈ (idx.map fun i => m.getD i 0), x = 0 := by
      intro x hx
      obtain ⟨i, hi, rfl⟩ := List.getElem_of_mem hx
      have hi' : i < idx.length := by simpa using hi
      have hle : (idx.map fun i => m.getD i 0)[i] ≤ (idx.map fun i => m.getD i 0)[idx.length - 1]'(by simpa using hn) := by
        rcases Nat.lt_or_ge i (idx.length - 1) with hlt | hge
        · exact List.pairwise_iff_getElem.mp h.sorted _ _ _ _ hlt
        · have : i = idx.length - 1 := by omega
          subst this; exact le_refl _
      simp only [List.getElem_map] at hle ⊢
      rw [hz] at hle
      exact le_antisymm hle (getD_nonneg hm _)
    have : (idx.map fun i => m.getD i 0).sum = 0 := List.sum_eq_zero hall
    rw [h.sum_sorted] at this
    exact ht.ne' this
  · obtain ⟨k, hk, hp, hlo, hhi⟩ := h.pick_pos hm ht h0 h1
    refine ⟨_, hp, hmem _ hk, ?_⟩
    have hstep := h.step k hk
    have : 0 < m.getD idx[k] 0 / m.sum := by rw [← hstep]; linarith
    exact (div_pos_iff_of_pos_right ht).mp this

end cumulative

/-! ### gradients -/

section grad
variable [Field K]

lemma corners_insert (S : Finset (Fin d)) (i : Fin d) (hi : i ∉ S) (f : (Fin d → ℕ) → K) :
    ∑ c ∈ corners (insert i S), f c
      = ∑ c ∈ corners S, (f c + f (Function.update c i 1)) := by
  rw [Finset.sum_add_distrib,
    ← Finset.sum_filter_add_sum_filter_not (corners (insert i S)) (fun c => c i = 0)]
  congr 1
  · refine Finset.sum_congr ?_ fun _ _ => rfl
    ext c
    simp only [corners, Finset.mem_filter, mem_validIdx, Finset.mem_insert, not_or]
    constructor
    · rintro ⟨⟨h1, h2⟩, h3⟩
      refine ⟨h1, fun j hj => ?_⟩
      by_cases hji : j = i
      · rw [hji]; exact h3
      · exact h2 j ⟨hji, hj⟩
    · rintro ⟨h1, h2⟩
      exact ⟨⟨h1, fun j hj => h2 j hj.2⟩, h2 i hi⟩
  · symm
    refine Finset.sum_nbij' (fun c => Function.update c i 1) (fun c => Function.update c i 0) ?_ ?_ ?_ ?_ ?_
    · intro c hc
      simp only [corners, Finset.mem_filter, mem_validIdx, Finset.mem_insert, not_or] at hc ⊢
      refine ⟨⟨fun j => ?_, fun j hj => ?_⟩, by simp⟩
      · by_cases hji : j = i
        · subst hji; simp
        · simpa [hji] using hc.1 j
      · simpa [hj.1] using hc.2 j hj.2
    · intro c hc
      simp only [corners, Finset.mem_filter, mem_validIdx, Finset.mem_insert, not_or] at hc ⊢
      refine ⟨fun j => ?_, fun j hj => ?_⟩
      · by_cases hji : j = i
        · subst hji; simp
        · simpa [hji] using hc.1.1 j
      · by_cases hji : j = i
        · subst hji; simp
        · simpa [hji] using hc.1.2 j ⟨hji, hj⟩
    · intro c hc
      simp only [corners, Finset.mem_filter, mem_validIdx] at hc
      rw [Function.update_idem]
      exact Function.update_eq_self_iff.mpr (hc.2 i hi).symm
    · intro c hc
      simp only [corners, Finset.mem_filter, mem_validIdx] at hc
      rw [Function.update_idem]
      refine Function.update_eq_self_iff.mpr ?_
      have h1 : c i < 2 := hc.1.1 i
      omega
    · intro c _; rfl

lemma corners_empty : corners (∅ : Finset (Fin d)) = {0} := by
  ext c
  simp only [corners, Finset.mem_filter, mem_validIdx, Finset.mem_singleton]
  constructor
  · rintro ⟨-, h⟩; funext j; exact h j (by simp)
  · rintro rfl; exact ⟨fun _ => by simp, fun _ _ => rfl⟩

/-- `midpoints` over several axes: mean over the corners in these axes. -/
lemma midAxes_ok (l : List (Fin d)) (hl : l.Nodup) (a : NDArr d K) (h : ∀ i ∈ l, 2 ≤ a.shape i) :
    ∃ G, midAxes l a = .ok G ∧
      (∀ i, G.shape i = if i ∈ l then a.shape i - 1 else a.shape i) ∧
      ∀ idx, G.get idx
        = (∑ c ∈ corners l.toFinset, a.get fun i => idx i + c i) / 2 ^ l.length := by
  induction l generalizing a with
  | nil =>
    refine ⟨a, rfl, by simp, fun idx => ?_⟩
    simp [corners_empty]
  | cons i l ih =>
    rw [List.nodup_cons] at hl
    set b : NDArr d K := { shape := Function.update a.shape i (a.shape i - 1)
                           get := fun idx => 1 / 2 * (a.get idx + a.get (Function.update idx i (idx i + 1))) }
      with hb
    have hmid : midAxis i a = .ok b := by
      rw [midAxis, if_neg (by have := h i (by simp); omega)]
    obtain ⟨G, hG, hsh, hget⟩ := ih hl.2 b (by
      intro j hj
      have hne : j ≠ i := fun e => hl.1 (e ▸ hj)
      simpa [hb, hne] using h j (by simp [hj]))
    refine ⟨G, ?_, fun j => ?_, fun idx => ?_⟩
    · simp only [midAxes, List.foldlM_cons, hmid]
      exact hG
    · rw [hsh]
      by_cases hji : j = i
      · subst hji; simp [hb, hl.1]
      · simp [hb, hji]
    · rw [hget, List.toFinset_cons, corners_insert _ _ (by simpa using hl.1), List.length_cons, pow_succ]
      have : ∀ c ∈ corners l.toFinset, b.get (fun j => idx j + c j)
          = 1 / 2 * (a.get (fun j => idx j + c j)
              + a.get (fun j => idx j + Function.update c i 1 j)) := by
        intro c hc
        simp only [corners, Finset.mem_filter] at hc
        have hci : c i = 0 := hc.2 i (by simpa using hl.1)
        simp only [hb]
        congr 3
        funext j
        by_cases hji : j = i
        · subst hji; simp [hci]
        · simp [hji]
      rw [Finset.sum_congr rfl this, ← Finset.mul_sum]
      ring

/-- `_grad_along`: mean, over the corners of the cell in the other axes, of the difference along `dim`. -/
lemma gradAlong_ok (a : NDArr d K) (dim : Fin d) (h : ∀ i, 2 ≤ a.shape i) :
    ∃ G, gradAlong a dim = .ok G ∧ (∀ i, G.shape i = a.shape i - 1) ∧
      ∀ idx, G.get idx
        = (∑ c ∈ corners (Finset.univ.erase dim),
            (a.get (fun i => idx i + Function.update c dim 1 i) - a.get (fun i => idx i + c i))) / 2 ^ (d - 1) := by
  have hnd : ((List.finRange d).erase dim).Nodup := (List.nodup_finRange d).erase dim
  have hmem : ∀ i, i ∈ (List.finRange d).erase dim ↔ i ≠ dim := by
    intro i; rw [(List.nodup_finRange d).mem_erase_iff]; simp
  obtain ⟨G, hG, hs, hg⟩ := midAxes_ok _ hnd (a.diffAxis dim) (by
    intro i hi
    rw [hmem] at hi
    simpa [NDArr.diffAxis, hi] using h i)
  refine ⟨G, hG, fun i => ?_, fun idx => ?_⟩
  · rw [hs]
    by_cases hi : i = dim
    · subst hi; simp [hmem, NDArr.diffAxis]
    · simp [hmem, NDArr.diffAxis, hi]
  · rw [hg, List.length_erase_of_mem (List.mem_finRange _), List.length_finRange]
    have hfin : ((List.finRange d).erase dim).toFinset = Finset.univ.erase dim := by
      ext i; simp [hmem]
    rw [hfin]
    congr 1
    refine Finset.sum_congr rfl fun c hc => ?_
    simp only [corners, Finset.mem_filter] at hc
    have hcd : c dim = 0 := hc.2 dim (by simp)
    simp only [NDArr.diffAxis]
    congr 2
    funext j
    by_cases hj : j = dim
    · subst hj; simp [hcd]
    · simp [hj]

end grad

/-! ### positions within a bin -/

lemma intrabin_radicand_nonneg {loc g : ℝ} (h0 : 0 ≤ loc) (h1 : loc ≤ 1) :
    0 ≤ 2 * loc * g + (1 - g / 2) ^ 2 := by
  nlinarith [sq_nonneg (1 - g / 2), sq_nonneg (1 + g / 2), mul_nonneg h0 (sq_nonneg (1 + g/2)),
    mul_nonneg (sub_nonneg.mpr h1) (sq_nonneg (1 - g/2))]

/-- The position solves `F(x) = loc` for the cumulative function of the linear density
`1 - g/2 + g x`. -/
lemma intrabin_cdf {loc g : ℝ} (h0 : 0 ≤ loc) (h1 : loc ≤ 1) (hg : 1 / 10 ^ 16 < |g|) :
    (1 - g / 2) * intrabin loc g + g * intrabin loc g ^ 2 / 2 = loc := by
  have hne : g ≠ 0 := by
    rintro rfl; rw [abs_zero] at hg; norm_num at hg
  have hs := Real.sq_sqrt (intrabin_radicand_nonneg (g := g) h0 h1)
  simp only [intrabin, if_pos hg]
  set s := Real.sqrt (2 * loc * g + (1 - g / 2) ^ 2)
  have e : (1 - g / 2) * ((s - (1 - g / 2)) / g) + g * ((s - (1 - g / 2)) / g) ^ 2 / 2
      = (s ^ 2 - (1 - g / 2) ^ 2) / (2 * g) := by
    field_simp; ring
  rw [e, hs]
  field_simp
  ring

lemma intrabin_mem {loc g : ℝ} (h0 : 0 ≤ loc) (h1 : loc ≤ 1) :
    0 ≤ intrabin loc g ∧ intrabin loc g ≤ 1 := by
  by_cases hg : 1 / 10 ^ 16 < |g|
  · have hne : g ≠ 0 := by
      rintro rfl; rw [abs_zero] at hg; norm_num at hg
    have hr := intrabin_radicand_nonneg (g := g) h0 h1
    have hs0 := Real.sqrt_nonneg (2 * loc * g + (1 - g / 2) ^ 2)
    have hs := Real.sq_sqrt hr
    simp only [intrabin, if_pos hg]
    set s := Real.sqrt (2 * loc * g + (1 - g / 2) ^ 2)
    rcases lt_or_gt_of_ne hne with hneg | hpos
    · have hle : s ≤ 1 - g / 2 := abs_le_of_sq_le_sq' (by nlinarith) (by linarith) |>.2
      have hge : 1 + g / 2 ≤ s := by
        by_contra hc
        have hc := not_le.mp hc
        nlinarith
      constructor
      · exact div_nonneg_of_nonpos (by linarith) hneg.le
      · rw [div_le_one_of_neg hneg]; linarith
    · have hge : 1 - g / 2 ≤ s := by
        by_contra hc
        have hc := not_le.mp hc
        nlinarith
      have hle : s ≤ 1 + g / 2 := abs_le_of_sq_le_sq' (by nlinarith) (by linarith) |>.2
      constructor
      · exact div_nonneg (by linarith) hpos.le
      · rw [div_le_one hpos]; linarith
  · simp only [intrabin, if_neg hg]
    exact ⟨h0, h1⟩

end Kalepy
