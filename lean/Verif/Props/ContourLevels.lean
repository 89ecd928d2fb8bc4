import Verif.Model.Contours
import Verif.Props.Contour

/-!
# C142: contours that matplotlib accepts
-/

namespace Kalepy

open Spec

/-! ### specification -/

/-- What the cells of value `x` add up to. -/
noncomputable def Spec.tied (z : NDArr 2 ℝ) (x : ℝ) : ℝ := ∑ idx ∈ validIdx z.shape, if z.get idx = x then z.get idx else 0

/-- The fractions are at least `δ`, less than one, and differ by at least `δ` from each other. -/
def Spec.Separated (δ : ℝ) (qs : List ℝ) : Prop := (∀ q ∈ qs, δ ≤ q ∧ q < 1) ∧ qs.Pairwise fun p q => p + δ ≤ q ∨ q + δ ≤ p

/-! ### proofs -/

lemma take_succ_sum {K : Type*} [Field K] (r : List K) {k : ℕ} (hk : k < r.length) : (r.take (k + 1)).sum = (r.take k).sum + r[k] := by
  rw [List.take_add_one, List.getElem?_eq_getElem hk, Option.toList_some, List.sum_append, List.sum_singleton]

/-- Fractions that differ by more than the cells of any value hold have different levels. -/
lemma isLevel_ne {r : List ℝ} (h0 : ∀ x ∈ r, 0 ≤ x) (hr : r.Pairwise (· ≥ ·)) (ht : 0 < r.sum) {δ q q' x x' : ℝ} (hδ : 0 < δ) (hq : δ ≤ q)
    (hqq : q + δ ≤ q') (hq1 : q' < 1) (h : IsLevel r q x) (h' : IsLevel r q' x')
    (htie : ∀ v, 0 < v → (r.map fun y => if y = v then y else 0).sum ≤ δ * r.sum) : x ≠ x' := by
  rintro rfl
  obtain ⟨k, hk, hx, h1, -⟩ := h
  obtain ⟨k', hk', hx', h1', h2'⟩ := h'
  rw [List.getD_eq_getElem _ _ hk] at hx
  rw [List.getD_eq_getElem _ _ hk'] at hx'
  set T := r.sum with hT
  have hδT : 0 < δ * T := mul_pos hδ ht
  have hge : ∀ i j (hi : i < r.length) (hj : j < r.length), i ≤ j → r[j] ≤ r[i] := by
    intro i j hi hj hij
    rcases hij.lt_or_eq with h | h
    · exact List.pairwise_iff_getElem.mp hr i j hi hj h
    · subst h; exact le_rfl
  -- the cells of ranks `a` to `b`, all of value `x`
  have hcells : ∀ a b (ha : a < r.length) (hb : b < r.length), a ≤ b → r[a] = x → r[b] = x → 0 < x → (r.take (b + 1)).sum - (r.take a).sum ≤ δ * T := by
    intro a b ha hb hab ea eb hx0
    refine le_trans ?_ (htie x hx0)
    have hg0 : ∀ y ∈ r.map (fun y => if y = x then y else 0), 0 ≤ y := by
      intro y hy
      obtain ⟨w, hw, rfl⟩ := List.mem_map.mp hy
      have := h0 w hw
      split_ifs
      · exact this
      · exact le_rfl
    have e1 : ((r.map fun y => if y = x then y else 0).take (b + 1)).sum ≤ (r.map fun y => if y = x then y else 0).sum := by
      have := take_sum_mono hg0 (show b + 1 ≤ (r.map fun y => if y = x then y else 0).length by rw [List.length_map]; omega)
      rwa [List.take_length] at this
    refine le_trans ?_ e1
    obtain ⟨m, hm⟩ := Nat.exists_eq_add_of_le (show a ≤ b + 1 by omega)
    rw [hm, List.take_add, List.take_add, List.sum_append, List.sum_append]
    have e2 : 0 ≤ ((r.map fun y => if y = x then y else 0).take a).sum :=
      List.sum_nonneg fun y hy => hg0 y (List.mem_of_mem_take hy)
    have e3 : (((r.map fun y => if y = x then y else 0).drop a).take m) = (r.drop a).take m := by
      rw [← List.map_drop, ← List.map_take]
      conv_rhs => rw [← List.map_id ((r.drop a).take m)]
      refine List.map_congr_left fun y hy => ?_
      obtain ⟨i, hi, rfl⟩ := List.mem_iff_getElem.mp hy
      rw [List.getElem_take, List.getElem_drop]
      rw [List.length_take, List.length_drop] at hi
      refine if_pos (le_antisymm ?_ ?_)
      · exact (hge a (a + i) (by omega) (by omega) (by omega)).trans ea.le
      · exact eb.ge.trans (hge (a + i) b (by omega) hb (by omega))
    rw [e3]
    linarith
  have hx0' : 0 ≤ x := hx ▸ h0 _ (List.getElem_mem _)
  have hfirst : (r.take (k + 1)).sum ≤ q * T := by
    rcases h1 with h1 | ⟨rfl, h1⟩
    · exact h1
    · exfalso
      rw [List.getD_eq_getElem _ _ hk, hx] at h1
      have hqT : δ * T ≤ q * T := mul_le_mul_of_nonneg_right hq ht.le
      have := hcells 0 0 hk hk le_rfl hx hx (by linarith)
      rw [take_succ_sum r hk, List.take_zero, List.sum_nil, hx] at this
      linarith
  have hlast : k' + 1 < r.length := by
    by_contra hc
    have hlen : r.length = k' + 1 := by omega
    have hall : (r.take (k' + 1)).sum = T := by rw [← hlen, List.take_length]
    have hlt : q' * T < T := by nlinarith
    rcases h1' with h1' | ⟨rfl, h1'⟩
    · linarith
    · obtain rfl : k = 0 := by omega
      have hlt : q * T < T := by nlinarith
      rw [hall] at hfirst
      linarith
  have hqT : q * T + δ * T ≤ q' * T := by nlinarith
  have hnext := h2' hlast
  have hkk : k ≤ k' := by
    by_contra hc
    have := take_sum_mono h0 (show k' + 2 ≤ k + 1 by omega)
    linarith
  have e1 := take_succ_sum r hk
  have e2 := take_succ_sum r hlast
  have e3 := hge k' (k' + 1) hk' hlast (by omega)
  rw [hx'] at e3
  rw [hx] at e1
  have hmain : δ * T < (r.take (k' + 1)).sum - (r.take k).sum := by
    rw [show k' + 2 = k' + 1 + 1 from rfl, e2] at hnext
    linarith
  have hxpos : 0 < x := by
    rcases hx0'.eq_or_lt with h | h
    · exfalso
      have hz : ∀ y ∈ (r.drop k).take (k' + 1 - k), y = 0 := by
        intro y hy
        obtain ⟨i, hi, rfl⟩ := List.mem_iff_getElem.mp hy
        rw [List.getElem_take, List.getElem_drop]
        rw [List.length_take, List.length_drop] at hi
        exact le_antisymm ((hge k (k + i) hk (by omega) (by omega)).trans (hx.le.trans h.ge)) (h0 _ (List.getElem_mem _))
      have e4 : (r.take (k' + 1)).sum = (r.take k).sum := by
        rw [show k' + 1 = k + (k' + 1 - k) by omega, List.take_add, List.sum_append, List.sum_eq_zero hz, add_zero]
      rw [e4] at hmain
      linarith
    · exact h
  exact absurd (hcells k k' hk hk' hkk hx hx' hxpos) (not_le.mpr hmain)

lemma dfmLevels_quantiles {d : ℕ} {srt : List ℝ → List ℕ} {z : NDArr d ℝ} {qs sg : Option (List ℝ)} {s : List (Option ℝ)} {levels q : List ℝ}
    (h : dfmLevels srt .float z qs sg = .ok (s, levels, q)) : q = (defaultQuantiles qs sg).1 := by
  unfold dfmLevels at h
  simp only at h
  split at h
  · cases h
  · cases h; rfl

/-- The levels of separated fractions increase strictly. -/
lemma levels_strict {srt : List ℝ → List ℕ} (hs : ∀ l, IsArgsort (srt l) l) {z : NDArr 2 ℝ} (h0 : ∀ idx, ValidIdx z.shape idx → 0 ≤ z.get idx)
    (ht : 0 < z.sum) {qs sg : Option (List ℝ)} {s : List (Option ℝ)} {levels q : List ℝ} (h : dfmLevels srt .float z qs sg = .ok (s, levels, q))
    {δ : ℝ} (hδ : 0 < δ) (hsep : Separated δ (defaultQuantiles qs sg).1) (htie : ∀ v, 0 < v → tied z v ≤ δ * z.sum) : levels.Pairwise (· < ·) := by
  have hf0 : ∀ x ∈ z.flat, 0 ≤ x := by
    intro x hx
    obtain ⟨idx, hv, rfl⟩ := (NDArr.mem_flat z x).mp hx
    exact h0 idx hv
  have hft : 0 < z.flat.sum := by rw [NDArr.flat_sum]; exact ht
  have hr := argsort_ranking (hs z.flat)
  set r := (srt z.flat).reverse.map fun i => z.flat.getD i 0 with hrd
  obtain ⟨f, hf, hanti, hlev⟩ := C55_levels_partial z.flat r hf0 hft hr
  obtain ⟨levels', hl, h1, h2, h3⟩ := hlev srt (hs _) (defaultQuantiles qs sg).1
  have hll : levels' = levels := by
    unfold dfmLevels at h
    simp only [hl] at h
    cases h
    rfl
  subst hll
  have hr0 : ∀ x ∈ r, 0 ≤ x := fun x hx => hf0 x (hr.1.mem_iff.mp hx)
  have hrs : r.sum = z.sum := by rw [hr.1.sum_eq, NDArr.flat_sum]
  have hrt : 0 < r.sum := by rw [hrs]; exact ht
  have hties : ∀ v, 0 < v → (r.map fun y => if y = v then y else 0).sum ≤ δ * r.sum := by
    intro v hv
    rw [hrs, (hr.1.map _).sum_eq, NDArr.flat_map_sum]
    exact htie v hv
  have hne : ((defaultQuantiles qs sg).1.map f).Pairwise (· ≠ ·) := by
    rw [List.pairwise_map]
    refine hsep.2.imp_of_mem fun {p q} hp hq hpq => ?_
    rcases hpq with h | h
    · exact isLevel_ne hr0 hr.2 hrt hδ (hsep.1 p hp).1 h (hsep.1 q hq).2 (hf p).1 (hf q).1 hties
    · exact (isLevel_ne hr0 hr.2 hrt hδ (hsep.1 q hq).1 h (hsep.1 p hp).2 (hf q).1 (hf p).1 hties).symm
  have hnd : levels'.Pairwise (· ≠ ·) := (h3.pairwise_iff (fun h => h.symm)).mpr hne
  exact (h2.and hnd).imp fun ⟨a, b⟩ => lt_of_le_of_ne a b

lemma axContour_strict {C : ContourCmd} (h0 : 2 ≤ C.z.shape 0) (h1 : 2 ≤ C.z.shape 1) (h : C.levels.Pairwise (· < ·)) :
    ∃ L, axContour C = .ok L ∧ ((∃ l ∈ C.levels, InsideRange C.z l) → L = C.levels) := by
  unfold axContour
  rw [if_neg (by omega)]
  by_cases hin : ∀ l ∈ C.levels, ¬ InsideRange C.z l
  · rw [if_pos hin]
    cases hm : C.z.flat with
    | nil =>
      exfalso
      have := C.z.flat_length
      rw [hm, List.length_nil, NDArr.size] at this
      have h2 : 0 < ∏ i, C.z.shape i := by
        rw [Fin.prod_univ_two]
        exact Nat.mul_pos (by omega) (by omega)
      omega
    | cons a l => exact ⟨_, rfl, fun ⟨l, hl, hi⟩ => absurd hi (hin l hl)⟩
  · rw [if_neg hin, if_pos h]
    exact ⟨_, rfl, fun _ => rfl⟩

/-- The array of the contours is not negative and not everywhere zero. -/
lemma padded_facts {d n : ℕ} {v : ℝ} {a b : NDArr d ℝ} (h : PaddedBy n v a b) (ha : ∀ idx, ValidIdx a.shape idx → 0 ≤ a.get idx) (hv : 0 < n → 0 ≤ v)
    (hs : 0 < a.sum) : (∀ idx, ValidIdx b.shape idx → 0 ≤ b.get idx) ∧ 0 < b.sum := by
  have hb : ∀ idx, ValidIdx b.shape idx → 0 ≤ b.get idx := by
    intro idx hi
    by_cases ho : ∃ i, idx i < n ∨ n + a.shape i ≤ idx i
    · rw [h.outside idx hi ho]
      refine hv ?_
      by_contra h0
      obtain ⟨i, ho⟩ := ho
      have := hi i
      rw [h.shape] at this
      omega
    · push Not at ho
      have e : (fun i => n + (idx i - n)) = idx := by
        funext i
        have := ho i
        omega
      rw [← e, h.inside (fun i => idx i - n) fun i => by have := ho i; show idx i - n < _; omega]
      exact ha _ fun i => by have := ho i; omega
  refine ⟨hb, ?_⟩
  obtain ⟨idx, hi, hp⟩ : ∃ idx, ValidIdx a.shape idx ∧ 0 < a.get idx := by
    by_contra hc
    push Not at hc
    exact absurd hs (not_lt.mpr (Finset.sum_nonpos fun idx hi => hc idx (validIdx_mem.mp hi)))
  refine Finset.sum_pos' (fun idx hi => hb idx (validIdx_mem.mp hi)) ⟨fun i => n + idx i, ?_, ?_⟩
  · rw [validIdx_mem]
    intro i
    have := hi i
    rw [h.shape]
    show n + idx i < _
    omega
  · rw [h.inside idx hi]
    exact hp

lemma contour_facts {srt : List ℝ → List ℕ} (hs : ∀ l, IsArgsort (srt l) l) {data : List (Fin 2 → ℝ)} {edges : EdgeArg} {weights : Option (List ℝ)}
    (hw : ValidWeights data.length weights) {quantiles : Option (List ℝ)} {pad : PadArg} {C : ContourCmd}
    (h : contour srt data edges weights quantiles pad = .ok C) :
    (∀ idx, ValidIdx C.z.shape idx → 0 ≤ C.z.get idx) ∧ 0 < C.z.sum ∧ C.z.shape = ![C.x.length, C.y.length] ∧
      ∃ s q, dfmLevels srt .float C.z quantiles none = .ok (s, C.levels, q) := by
  obtain ⟨ex, ey, hist, v, s, q, h1, h2, h3, h4, h5, h6, -⟩ := contour_ok hs hw h
  obtain ⟨f1, f2⟩ := histogram2d_facts hw h2
  obtain ⟨g1, g2⟩ := padded_facts h3 f1 (fun hn => by
    obtain ⟨⟨idx, hi, e⟩, -⟩ := h4 hn
    rw [← e]
    exact f1 idx hi) f2
  exact ⟨g1, g2, h6, s, q, h5⟩

lemma drawContour2d_levels {srt : List ℝ → List ℕ} {edges : List (List ℝ)} {z : NDArr 2 ℝ} {qs : Option (List ℝ)} {pad : PadArg} {C : ContourCmd}
    (h : drawContour2d srt edges z qs pad = .ok C) : ∃ s q, dfmLevels srt .float C.z qs none = .ok (s, C.levels, q) := by
  unfold drawContour2d at h
  split at h
  · cases h
  · split at h
    · cases h
    · rename_i s levels q hl
      cases h
      exact ⟨s, q, hl⟩

/-! ### C142 -/

/-- **C142** as claimed: if `contour` finds levels for valid data, and the fractions (if given) increase strictly between zero and one, then
the contours are drawn. -/
def C142_Claim : Prop :=
  ∀ (srt : List ℝ → List ℕ) (data : List (Fin 2 → ℝ)) (edges : EdgeArg) (weights : Option (List ℝ)) (quantiles : Option (List ℝ)) (C : ContourCmd),
    (∀ l, IsArgsort (srt l) l) → ValidWeights data.length weights →
    (∀ qs, quantiles = some qs → qs.Pairwise (· < ·) ∧ ∀ q ∈ qs, 0 < q ∧ q < 1) →
    contour srt data edges weights quantiles .auto = .ok C → ∃ lines, axContour C = .ok lines

/-- **C142.** When contours are drawn: the array must have at least two rows and columns, and no two levels may be equal, unless no level lies strictly
between the smallest and the largest value of the array. -/
theorem C142_exact (srt : List ℝ → List ℕ) (hs : ∀ l, IsArgsort (srt l) l) (data : List (Fin 2 → ℝ)) (edges : EdgeArg)
    (weights : Option (List ℝ)) (hw : ValidWeights data.length weights) (quantiles : Option (List ℝ)) (pad : PadArg) (C : ContourCmd)
    (h : contour srt data edges weights quantiles pad = .ok C) :
    (∃ lines, axContour C = .ok lines) ↔ 2 ≤ C.x.length ∧ 2 ≤ C.y.length ∧
      (C.levels.Nodup ∨ ∀ l ∈ C.levels, (∀ idx, ValidIdx C.z.shape idx → l ≤ C.z.get idx) ∨ ∀ idx, ValidIdx C.z.shape idx → C.z.get idx ≤ l) := by
  obtain ⟨f0, ft, hsh, s, q, hl⟩ := contour_facts hs hw h
  have hs0 : C.z.shape 0 = C.x.length := by rw [hsh]; rfl
  have hs1 : C.z.shape 1 = C.y.length := by rw [hsh]; rfl
  have hsorted : C.levels.Pairwise (· ≤ ·) := by
    obtain ⟨levels, qs, s', f, h1, _, _, h2, _⟩ := C55_mass_partial C.z f0 ft srt hs quantiles none
    rw [hl] at h1
    cases h1
    exact h2
  have hin : ∀ l, ¬ InsideRange C.z l ↔ (∀ idx, ValidIdx C.z.shape idx → l ≤ C.z.get idx) ∨ ∀ idx, ValidIdx C.z.shape idx → C.z.get idx ≤ l := by
    intro l
    unfold InsideRange
    rw [not_and_or]
    push Not
    simp only [NDArr.mem_flat]
    constructor
    · rintro (h | h)
      · exact Or.inl fun idx hi => h _ ⟨idx, hi, rfl⟩
      · exact Or.inr fun idx hi => h _ ⟨idx, hi, rfl⟩
    · rintro (h | h)
      · exact Or.inl fun _ ⟨idx, hi, e⟩ => e ▸ h idx hi
      · exact Or.inr fun _ ⟨idx, hi, e⟩ => e ▸ h idx hi
  constructor
  · rintro ⟨L, hL⟩
    unfold axContour at hL
    by_cases h2 : C.z.shape 0 < 2 ∨ C.z.shape 1 < 2
    · rw [if_pos h2] at hL
      cases hL
    · rw [if_neg h2] at hL
      refine ⟨by omega, by omega, ?_⟩
      by_cases h3 : ∀ l ∈ C.levels, ¬ InsideRange C.z l
      · exact Or.inr fun l hl => (hin l).mp (h3 l hl)
      · rw [if_neg h3] at hL
        by_cases h4 : C.levels.Pairwise (· < ·)
        · exact Or.inl (h4.imp fun h => h.ne)
        · rw [if_neg h4] at hL
          cases hL
  · rintro ⟨h2, h3, h4⟩
    by_cases h5 : ∀ l ∈ C.levels, ¬ InsideRange C.z l
    · unfold axContour
      rw [if_neg (by omega), if_pos h5]
      cases hm : C.z.flat with
      | nil =>
        exfalso
        rw [← NDArr.flat_sum, hm] at ft
        simp at ft
      | cons a l => exact ⟨_, rfl⟩
    · rcases h4 with h4 | h4
      · obtain ⟨L, hL, -⟩ := axContour_strict (by omega) (by omega) ((hsorted.and h4).imp fun ⟨a, b⟩ => lt_of_le_of_ne a b)
        exact ⟨L, hL⟩
      · exact absurd (fun l hl => (hin l).mpr (h4 l hl)) h5

/-- **C142**, proved part: the contours are drawn, with the levels of `_dfm_levels`, if the fractions are at least `δ` and differ by at least `δ`, and the cells
that have the same value never hold more than the fraction `δ` of the total. -/
theorem C142_partial (srt : List ℝ → List ℕ) (hs : ∀ l, IsArgsort (srt l) l) (data : List (Fin 2 → ℝ)) (edges : EdgeArg)
    (weights : Option (List ℝ)) (hw : ValidWeights data.length weights) (quantiles : Option (List ℝ)) (pad : PadArg) (C : ContourCmd)
    (h : contour srt data edges weights quantiles pad = .ok C) (δ : ℝ) (hδ : 0 < δ) (hsep : Separated δ (defaultQuantiles quantiles none).1)
    (htie : ∀ v, 0 < v → tied C.z v ≤ δ * C.z.sum) (hx : 2 ≤ C.x.length) (hy : 2 ≤ C.y.length) :
    ∃ lines, axContour C = .ok lines ∧ ((∃ l ∈ C.levels, InsideRange C.z l) → lines = C.levels) := by
  obtain ⟨f0, ft, hsh, s, q, hl⟩ := contour_facts hs hw h
  refine axContour_strict ?_ ?_ (levels_strict hs f0 ft hl hδ hsep htie)
  · rw [hsh]; exact hx
  · rw [hsh]; exact hy

/-- **C142.** The same for the contours of a KDE drawn by `dist2d`. -/
theorem C142_dist2d_partial {d : ℕ} (E : Ext) (srt : List ℝ → List ℕ) (hs : ∀ l, IsArgsort (srt l) l) (sel : ℕ → ℕ → List ℕ) (k : KDE d)
    (data : List (Fin 2 → ℝ)) (weights : Option (List ℝ)) (a : Dist2dArgs) (out : Dist2dOut) (h : dist2dDraw E srt sel k data weights a = .ok out)
    (C : ContourCmd) (hC : out.contour = some C) (h0 : ∀ idx, ValidIdx C.z.shape idx → 0 ≤ C.z.get idx) (ht : 0 < C.z.sum) (δ : ℝ) (hδ : 0 < δ)
    (hsep : Separated δ (defaultQuantiles a.quantiles a.sigmas).1) (htie : ∀ v, 0 < v → tied C.z v ≤ δ * C.z.sum)
    (hx : 2 ≤ C.z.shape 0) (hy : 2 ≤ C.z.shape 1) :
    ∃ lines, axContour C = .ok lines ∧ ((∃ l ∈ C.levels, InsideRange C.z l) → lines = C.levels) := by
  obtain ⟨rows, hh, sg, levels, qs, mask, -, -, -, h4, -, -, h7, -⟩ := dist2dDraw_ok h
  rcases optional_ok h7 with ⟨-, e⟩ | ⟨C', -, hk, e⟩
  · rw [hC] at e
    cases e
  · rw [hC] at e
    cases e
    have hq := dfmLevels_quantiles h4
    have hdr : ∃ edges z, drawContour2d srt edges z (some qs) a.pad = .ok C := by
      unfold kdeContour at hk
      split at hk
      · cases hk
      · exact ⟨_, _, hk⟩
      · cases hk
    obtain ⟨edges, z, hdr⟩ := hdr
    obtain ⟨s, q, hl⟩ := drawContour2d_levels hdr
    refine axContour_strict hx hy (levels_strict hs h0 ht hl hδ ?_ htie)
    subst hq
    exact hsep

/-- The default fractions are at least a tenth, and differ by at least a tenth. -/
theorem C142_default : Separated (1 / 10) (defaultQuantiles none none).1 := by
  have e : (defaultQuantiles none none).1 = [1 - Real.exp (-(1 / 8)), 1 - Real.exp (-(1 / 2)), 1 - Real.exp (-(9 / 8)), 1 - Real.exp (-2)] := by
    simp only [defaultQuantiles, Option.getD_none, defSigmas, List.map_cons, List.map_nil]
    norm_num
  have hsq : ∀ x : ℝ, 0 ≤ x → 1 + x + x ^ 2 / 2 ≤ Real.exp x := fun x hx => Real.quadratic_le_exp_of_nonneg hx
  have p8 := Real.exp_pos (-(1 / 8))
  have m : ∀ a b : ℝ, Real.exp (-(a + b)) = Real.exp (-a) * Real.exp (-b) := by
    intro a b
    rw [← Real.exp_add]
    congr 1
    ring
  have inv : ∀ x : ℝ, 0 ≤ x → Real.exp (-x) * (1 + x + x ^ 2 / 2) ≤ 1 := by
    intro x hx
    have h1 : Real.exp (-x) * Real.exp x = 1 := by rw [← Real.exp_add]; simp
    calc _ ≤ Real.exp (-x) * Real.exp x := mul_le_mul_of_nonneg_left (hsq x hx) (Real.exp_pos _).le
      _ = 1 := h1
  have i8 := inv (1 / 8) (by norm_num)
  have i38 := inv (3 / 8) (by norm_num)
  have i58 := inv (5 / 8) (by norm_num)
  have i78 := inv (7 / 8) (by norm_num)
  have l8 : 7 / 8 < Real.exp (-(1 / 8)) := by have := Real.add_one_lt_exp (x := -(1 / 8)) (by norm_num); linarith
  have l2 : 1 / 2 < Real.exp (-(1 / 2)) := by have := Real.add_one_lt_exp (x := -(1 / 2)) (by norm_num); linarith
  have m2 := m (1 / 8) (3 / 8)
  have m9 := m (1 / 2) (5 / 8)
  have m20 := m (9 / 8) (7 / 8)
  have m1 := m (1 / 2) (1 / 2)
  have m98 := m 1 (1 / 8)
  norm_num at m1 m98
  norm_num at m2 m9 m20 i8 i38 i58 i78
  rw [e]
  have p2 := Real.exp_pos (-(1 / 2))
  have p9 := Real.exp_pos (-(9 / 8))
  have p20 := Real.exp_pos (-2)
  have l9 : 21 / 100 < Real.exp (-(9 / 8)) := by
    rw [m98, m1]
    norm_num at l8 l2 ⊢
    nlinarith
  have u2 : Real.exp (-(1 / 2)) ≤ 65 / 100 := by
    rw [m2]
    have : Real.exp (-(3 / 8)) ≤ 7 / 10 := by linarith
    have : Real.exp (-(1 / 8)) ≤ 89 / 100 := by linarith
    have := Real.exp_pos (-(3 / 8))
    nlinarith
  have u9 : Real.exp (-(9 / 8)) ≤ Real.exp (-(1 / 2)) - 1 / 10 := by
    rw [m9]
    have : Real.exp (-(5 / 8)) ≤ 6 / 10 := by linarith
    nlinarith
  have u20 : Real.exp (-2) ≤ Real.exp (-(9 / 8)) - 1 / 10 := by
    rw [m20]
    have : Real.exp (-(7 / 8)) ≤ 1 / 2 := by linarith
    nlinarith
  have u8 : Real.exp (-(1 / 8)) ≤ 9 / 10 := by linarith
  refine ⟨?_, ?_⟩
  · intro q hq
    simp only [List.mem_cons, List.not_mem_nil, or_false] at hq
    rcases hq with rfl | rfl | rfl | rfl <;> constructor <;> linarith
  · simp only [List.pairwise_cons, List.mem_cons, List.not_mem_nil, or_false]
    refine ⟨?_, ?_, ?_, by simp⟩
    · rintro q (rfl | rfl | rfl) <;> left <;> linarith
    · rintro q (rfl | rfl) <;> left <;> linarith
    · rintro q rfl
      left
      linarith

/-- **C142.** More fractions than different values: if a level lies inside the range of the array, `contour` raises `ValueError`. -/
theorem C142_toomany (srt : List ℝ → List ℕ) (hs : ∀ l, IsArgsort (srt l) l) (data : List (Fin 2 → ℝ)) (edges : EdgeArg)
    (weights : Option (List ℝ)) (hw : ValidWeights data.length weights) (quantiles : Option (List ℝ)) (pad : PadArg) (C : ContourCmd)
    (h : contour srt data edges weights quantiles pad = .ok C) (values : Finset ℝ) (hv : ∀ idx, ValidIdx C.z.shape idx → C.z.get idx ∈ values)
    (hcard : values.card < (defaultQuantiles quantiles none).1.length) (hx : 2 ≤ C.x.length) (hy : 2 ≤ C.y.length)
    (hin : ∃ l ∈ C.levels, InsideRange C.z l) : axContour C = .error .valueError := by
  obtain ⟨f0, ft, hsh, s, q, hl⟩ := contour_facts hs hw h
  have hq := dfmLevels_quantiles hl
  obtain ⟨levels, qs, s', f, h1, _, hlen, h2, hperm, -, hmem⟩ := C55_mass_partial C.z f0 ft srt hs quantiles none
  rw [hl] at h1
  cases h1
  have hs0 : C.z.shape 0 = C.x.length := by rw [hsh]; rfl
  have hs1 : C.z.shape 1 = C.y.length := by rw [hsh]; rfl
  unfold axContour
  rw [if_neg (by omega), if_neg (by push Not; exact hin), if_neg]
  intro hp
  have hnd : C.levels.Nodup := hp.imp fun h => h.ne
  have hsub : C.levels.toFinset ⊆ values := by
    intro x hx
    rw [List.mem_toFinset, hperm.mem_iff] at hx
    obtain ⟨q', _, rfl⟩ := List.mem_map.mp hx
    obtain ⟨idx, hi, e⟩ := (hmem q').1
    rw [← e]
    exact hv idx hi
  have := Finset.card_le_card hsub
  rw [List.toFinset_card_of_nodup hnd, hlen, hq] at this
  omega

lemma drawContour2d_default {srt : List ℝ → List ℕ} {edges : List (List ℝ)} {z : NDArr 2 ℝ} {qs : Option (List ℝ)} {pad : PadArg} :
    drawContour2d srt edges z (some (defaultQuantiles qs none).1) pad = drawContour2d srt edges z qs pad := by
  cases qs with
  | some q => rfl
  | none =>
    unfold drawContour2d
    cases prepHist edges z pad with
    | error e => rfl
    | ok r =>
      obtain ⟨ee, hh⟩ := r
      simp only [dfmLevels, defaultQuantiles]
      cases dfmLevelsOf srt .float hh.flat (List.map (fun x => 1 - Real.exp (-(1 / 2) * x ^ 2)) ((none : Option (List ℝ)).getD defSigmas)) <;> rfl

/-- Six points in four bins: 3, 2, 1 and none. -/
lemma six_contour {srt : List ℝ → List ℕ} (hs : ∀ l, IsArgsort (srt l) l) (quantiles : Option (List ℝ)) : ∃ (data : List (Fin 2 → ℝ)) (edges : EdgeArg) (C : ContourCmd),
    contour srt data edges none quantiles .auto = .ok C ∧ C.x.length = 4 ∧ C.y.length = 4 ∧
    C.z.flat = [0, 0, 0, 0, 0, 1 / 2, 1 / 3, 0, 0, 1 / 6, 0, 0, 0, 0, 0, 0] := by
  classical
  let data : List (Fin 2 → ℝ) := [![1 / 2, 1 / 2], ![1 / 2, 1 / 2], ![1 / 2, 1 / 2], ![1 / 2, 3 / 2], ![1 / 2, 3 / 2], ![3 / 2, 1 / 2]]
  let ex : List ℝ := [0, 1, 2]
  let edges : EdgeArg := .list [.arr ex, .arr ex]
  have hE : parseEdges srt data edges none none 5 1000 none 1 none = .ok [ex, ex] := by
    obtain ⟨dat, hdat⟩ : ∃ dat, parseExtremaOf data none = .ok dat := ⟨_, rfl⟩
    have hsp : edgeSpecs 2 edges = .ok [.arr ex, .arr ex] := by simp [edgeSpecs, edges, EdgeSpec.scalar]
    have hf : (finSeq fun i : Fin 2 => getEdges1d srt (([.arr ex, .arr ex] : List EdgeSpec).getD i .auto) (dataRow data i) (dat i)
        none 2 5 1000 1 1 none) = .ok ![ex, ex] := by
      rw [finSeq_ok]
      intro i
      fin_cases i <;> rfl
    simp only [parseEdges, hdat, hsp, Option.isNone_none, if_true, Option.getD_none, Option.map_none, hf]
    rfl
  have c0 : ∀ x, CountedIn ex 0 x ↔ 0 ≤ x ∧ x < 1 := by intro x; simp [CountedIn, ex]
  have c1 : ∀ x, CountedIn ex 1 x ↔ 1 ≤ x ∧ (x < 2 ∨ x = 2) := by intro x; simp [CountedIn, ex]
  have rx : ∀ x, InRangeOf ex x ↔ 0 ≤ x ∧ x ≤ 2 := by intro x; simp [InRangeOf, ex]
  have hT : weightWhere (fun p => InRangeOf ex (p 0) ∧ InRangeOf ex (p 1)) data none = 6 := by
    simp only [data, weightWhere_cons, weightWhere_nil, rx]
    norm_num
  have h00 : cellDensity data none ex ex 0 0 = 1 / 2 := by
    rw [cellDensity, hT]
    simp only [data, weightWhere_cons, weightWhere_nil, InCell, c0, cellArea, ex]
    norm_num
  have h01 : cellDensity data none ex ex 0 1 = 1 / 3 := by
    rw [cellDensity, hT]
    simp only [data, weightWhere_cons, weightWhere_nil, InCell, c0, c1, cellArea, ex]
    norm_num
  have h10 : cellDensity data none ex ex 1 0 = 1 / 6 := by
    rw [cellDensity, hT]
    simp only [data, weightWhere_cons, weightWhere_nil, InCell, c0, c1, cellArea, ex]
    norm_num
  have h11 : cellDensity data none ex ex 1 1 = 0 := by
    rw [cellDensity, hT]
    simp only [data, weightWhere_cons, weightWhere_nil, InCell, c1, cellArea, ex]
    norm_num
  obtain ⟨hist, hh⟩ := histogram2d_success (pts := data) (ex := ex) (ey := ex) (weights := none) (by simp) (by simp [ex])
    (by simp [ex]) (by simp [ex]) (by simp [ex]) (by rw [hT]; norm_num)
  have hw : ValidWeights data.length none := trivial
  obtain ⟨hx, hy, hxl, hyl, _, hsh, _⟩ := histogram2d_ok hh
  obtain ⟨C0, _, _, _, hC0, _⟩ := drawContour2d_success hs hx hy hxl hyl (histogram2d_facts hw hh).1 (Or.inr hsh) quantiles .auto
  have hcon0 : contour srt data edges none quantiles .auto = .ok C0 := by
    unfold contour
    rw [hE]
    simp only
    rw [show histogram2d data ([ex, ex].getD 0 []) ([ex, ex].getD 1 []) none = .ok hist from hh]
    exact hC0
  have hdef : contour srt data edges none (some (defaultQuantiles quantiles none).1) .auto = .ok C0 := by
    rw [← hcon0]
    unfold contour
    simp only [drawContour2d_default]
  obtain ⟨ex', ey', v, f, e1, e2, _, _, e5, e6, e7, e8, e9, _, e11, e12⟩ := C106_drawn srt hs data edges none hw _ .auto C0 hdef
  rw [hE] at e1
  cases e1
  have hn : padNumber .auto = 1 := rfl
  rw [hn] at e5 e6 e7 e8 e9
  have e5' : C0.x.length = 4 := e5
  have e6' : C0.y.length = 4 := e6
  refine ⟨data, edges, C0, hcon0, e5', e6', ?_⟩
  obtain ⟨⟨i, j, hi, hj, hv⟩, hmin⟩ := e9 (by norm_num)
  have hi' : i < 2 := by have : i + 1 < 3 := hi; omega
  have hj' : j < 2 := by have : j + 1 < 3 := hj; omega
  have hv4 : v = 0 := by
    refine le_antisymm ?_ ?_
    · rw [← h11]
      exact hmin 1 1 (by simp [ex]) (by simp [ex])
    · rw [← hv]
      interval_cases i <;> interval_cases j
      · rw [h00]; norm_num
      · rw [h01]; norm_num
      · rw [h10]; norm_num
      · rw [h11]
  rw [hv4] at e8
  have g0 : C0.z.get ![1, 1] = 1 / 2 := by rw [← h00]; exact (e7 0 0 (by simp [ex]) (by simp [ex])).2.2
  have g1 : C0.z.get ![1, 2] = 1 / 3 := by rw [← h01]; exact (e7 0 1 (by simp [ex]) (by simp [ex])).2.2
  have g2 : C0.z.get ![2, 1] = 1 / 6 := by rw [← h10]; exact (e7 1 0 (by simp [ex]) (by simp [ex])).2.2
  have g3 : C0.z.get ![2, 2] = 0 := by rw [← h11]; exact (e7 1 1 (by simp [ex]) (by simp [ex])).2.2
  rw [e5', e6'] at e2
  have e8' : ∀ m n, m < 4 → n < 4 → (m < 1 ∨ 4 ≤ m + 1 ∨ n < 1 ∨ 4 ≤ n + 1) → C0.z.get ![m, n] = 0 := by
    intro m n hm hn ho
    exact e8 m n (by omega) (by omega) (by omega)
  have hsz : C0.z.size = 16 := by rw [NDArr.size, e2]; rfl
  rw [NDArr.flat, hsz, e2]
  simp only [List.range_succ, List.range_zero, List.nil_append, List.cons_append, List.map_cons, List.map_nil]
  rw [show unravelIdx ![4, 4] 0 = ![0, 0] by decide, show unravelIdx ![4, 4] 1 = ![0, 1] by decide, show unravelIdx ![4, 4] 2 = ![0, 2] by decide,
    show unravelIdx ![4, 4] 3 = ![0, 3] by decide, show unravelIdx ![4, 4] 4 = ![1, 0] by decide, show unravelIdx ![4, 4] 5 = ![1, 1] by decide,
    show unravelIdx ![4, 4] 6 = ![1, 2] by decide, show unravelIdx ![4, 4] 7 = ![1, 3] by decide, show unravelIdx ![4, 4] 8 = ![2, 0] by decide,
    show unravelIdx ![4, 4] 9 = ![2, 1] by decide, show unravelIdx ![4, 4] 10 = ![2, 2] by decide, show unravelIdx ![4, 4] 11 = ![2, 3] by decide,
    show unravelIdx ![4, 4] 12 = ![3, 0] by decide, show unravelIdx ![4, 4] 13 = ![3, 1] by decide, show unravelIdx ![4, 4] 14 = ![3, 2] by decide,
    show unravelIdx ![4, 4] 15 = ![3, 3] by decide, g0, g1, g2, g3]
  rw [e8' 0 0, e8' 0 1, e8' 0 2, e8' 0 3, e8' 1 0, e8' 1 3, e8' 2 0, e8' 2 3, e8' 3 0, e8' 3 1, e8' 3 2, e8' 3 3] <;> norm_num

lemma six_sum (g : ℝ → ℝ) (hg : g 0 = 0) {z : NDArr 2 ℝ} (h : z.flat = [0, 0, 0, 0, 0, 1 / 2, 1 / 3, 0, 0, 1 / 6, 0, 0, 0, 0, 0, 0]) :
    ∑ idx ∈ validIdx z.shape, g (z.get idx) = g (1 / 2) + g (1 / 3) + g (1 / 6) := by
  rw [← NDArr.flat_map_sum, h]
  simp only [List.map_cons, List.map_nil, List.sum_cons, List.sum_nil, hg]
  ring

/-- **C142** fails with the default arguments for six points in four bins: the fullest bin holds half of the points, more than the fractions of both inner
contours, whose levels are therefore equal. -/
theorem C142_refuted : ¬ C142_Claim := by
  intro hc
  obtain ⟨srt, hs⟩ := exists_argsort
  obtain ⟨data, edges, C, hC, hx, hy, hflat⟩ := six_contour hs none
  have hw : ValidWeights data.length none := trivial
  have hok := hc srt data edges none none C hs hw (by simp) hC
  obtain ⟨-, -, h⟩ := (C142_exact srt hs data edges none hw none .auto C hC).mp hok
  obtain ⟨f0, ft, hsh, s, q, hl⟩ := contour_facts hs hw hC
  have hq := dfmLevels_quantiles hl
  obtain ⟨levels, qs, s', f, h1, _, hlen, h2, hperm, -, hmem⟩ := C55_mass_partial C.z f0 ft srt hs none none
  rw [hl] at h1
  cases h1
  have hsum : C.z.sum = 1 := by
    have := six_sum id rfl hflat
    simp only [id] at this
    rw [NDArr.sum, this]
    norm_num
  have hval : ∀ x, x ∈ C.z.flat ↔ x = 0 ∨ x = 1 / 2 ∨ x = 1 / 3 ∨ x = 1 / 6 := by
    intro x
    rw [hflat]
    simp only [List.mem_cons, List.not_mem_nil, or_false]
    tauto
  have hmemf : ∀ q, f q = 0 ∨ f q = 1 / 2 ∨ f q = 1 / 3 ∨ f q = 1 / 6 := fun q => (hval _).mp ((NDArr.mem_flat _ _).mpr (hmem q).1)
  have hlow : ∀ q, 0 ≤ q → q < 1 / 2 → f q = 1 / 2 := by
    intro q q0 q1
    have := ((hmem q).2 q0).1
    rw [six_sum (fun x => if f q < x then x else 0) (by simp) hflat, hsum] at this
    rcases hmemf q with h | h | h | h <;> rw [h] at this <;> norm_num at this <;> linarith
  have hhigh : ∀ q, 5 / 6 ≤ q → q < 1 → f q = 1 / 3 ∨ f q = 1 / 6 := by
    intro q q0 q1
    obtain ⟨a, b⟩ := (hmem q).2 (by linarith)
    rw [six_sum (fun x => if f q < x then x else 0) (by simp) hflat, hsum] at a
    rcases hmemf q with h | h | h | h
    · rw [h] at a
      norm_num at a
      linarith
    · exfalso
      obtain ⟨idx, hi, e⟩ := (NDArr.mem_flat C.z (1 / 3)).mp ((hval _).mpr (by tauto))
      have := b idx hi (by rw [e, h]; norm_num)
      rw [e, six_sum (fun x => if 1 / 3 ≤ x then x else 0) (by norm_num) hflat, hsum] at this
      norm_num at this
      linarith
    · exact Or.inl h
    · exact Or.inr h
  have e : (defaultQuantiles none none).1 = [1 - Real.exp (-(1 / 8)), 1 - Real.exp (-(1 / 2)), 1 - Real.exp (-(9 / 8)), 1 - Real.exp (-2)] := by
    simp only [defaultQuantiles, Option.getD_none, defSigmas, List.map_cons, List.map_nil]
    norm_num
  rw [hq, e] at hperm
  have b1 : f (1 - Real.exp (-(1 / 8))) = 1 / 2 := by
    have := Real.add_one_lt_exp (x := -(1 / 8)) (by norm_num)
    have := Real.exp_le_one_iff.mpr (show (-(1 / 8) : ℝ) ≤ 0 by norm_num)
    exact hlow _ (by linarith) (by linarith)
  have b2 : f (1 - Real.exp (-(1 / 2))) = 1 / 2 := by
    have := Real.add_one_lt_exp (x := -(1 / 2)) (by norm_num)
    have := Real.exp_le_one_iff.mpr (show (-(1 / 2) : ℝ) ≤ 0 by norm_num)
    exact hlow _ (by linarith) (by linarith)
  have b4 : f (1 - Real.exp (-2)) = 1 / 3 ∨ f (1 - Real.exp (-2)) = 1 / 6 := by
    have h1 : Real.exp (-2) * Real.exp 2 = 1 := by rw [← Real.exp_add]; simp
    have h2 : (6 : ℝ) < Real.exp 2 := by
      have : Real.exp 2 = Real.exp 1 * Real.exp 1 := by rw [← Real.exp_add]; norm_num
      have := Real.quadratic_le_exp_of_nonneg (x := 1) (by norm_num)
      norm_num at this
      nlinarith
    have h3 := Real.exp_pos (-2)
    exact hhigh _ (by nlinarith) (by linarith)
  rcases h with h | h
  · rw [hperm.nodup_iff] at h
    rw [List.map_cons, List.map_cons, b1, b2] at h
    simp at h
  · have hm : f (1 - Real.exp (-2)) ∈ C.levels := hperm.mem_iff.mpr (by simp)
    obtain ⟨i0, v0, z0⟩ := (NDArr.mem_flat C.z 0).mp ((hval _).mpr (by tauto))
    obtain ⟨i1, v1, z1⟩ := (NDArr.mem_flat C.z (1 / 2)).mp ((hval _).mpr (by tauto))
    rcases h _ hm with h | h
    · have := h i0 v0
      rw [z0] at this
      rcases b4 with b | b <;> rw [b] at this <;> norm_num at this
    · have := h i1 v1
      rw [z1] at this
      rcases b4 with b | b <;> rw [b] at this <;> norm_num at this

/-- Hypotheses of `C142_partial`: the median contour of the same points. -/
example : ∃ (srt : List ℝ → List ℕ) (data : List (Fin 2 → ℝ)) (edges : EdgeArg) (C : ContourCmd), (∀ l, IsArgsort (srt l) l) ∧
    contour srt data edges none (some [1 / 2]) .auto = .ok C ∧ Separated (1 / 2) (defaultQuantiles (some [1 / 2]) none).1 ∧
    (∀ v, 0 < v → tied C.z v ≤ 1 / 2 * C.z.sum) ∧ 2 ≤ C.x.length ∧ 2 ≤ C.y.length ∧ ∃ lines, axContour C = .ok lines := by
  obtain ⟨srt, hs⟩ := exists_argsort
  obtain ⟨data, edges, C, hC, hx, hy, hflat⟩ := six_contour hs (some [1 / 2])
  have hsum : C.z.sum = 1 := by
    have := six_sum id rfl hflat
    simp only [id] at this
    rw [NDArr.sum, this]
    norm_num
  have h1 : Separated (1 / 2) (defaultQuantiles (some [1 / 2]) none).1 := by
    refine ⟨?_, ?_⟩
    · intro q hq
      simp only [defaultQuantiles, List.mem_singleton] at hq
      subst hq
      norm_num
    · simp [defaultQuantiles]
  have h2 : ∀ v, 0 < v → tied C.z v ≤ 1 / 2 * C.z.sum := by
    intro v hv
    rw [hsum]
    unfold tied
    rw [six_sum (fun x => if x = v then x else 0) (by simp) hflat]
    split_ifs with a b c <;> norm_num
    all_goals linarith
  obtain ⟨L, hL, -⟩ := C142_partial srt hs data edges none trivial _ _ C hC _ (by norm_num) h1 h2 (by omega) (by omega)
  exact ⟨srt, data, edges, C, hs, hC, h1, h2, by omega, by omega, L, hL⟩

end Kalepy
