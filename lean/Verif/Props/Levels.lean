import Mathlib.Tactic.Linarith
import Mathlib.Tactic.FieldSimp
import Mathlib.Tactic.Ring
import Mathlib.Algebra.Order.BigOperators.Group.List
import Mathlib.Data.List.GetD
import Verif.Model.Plot
import Verif.Proofs.Np
import Verif.Proofs.NDArr
import Verif.Props.Sample
import Verif.Props.Minmax

/-!
# C55: contour levels
-/

namespace Kalepy

variable {K : Type*}

namespace Spec

/-- `r` lists the cells of a histogram from the largest value to the smallest. -/
def IsRanking [LE K] (r hist : List K) : Prop := r.Perm hist ∧ r.Pairwise (· ≥ ·)

/-- `lev` is the level for the fraction `q` of a histogram with ranked cells `r`: it is the value of the cell of
some rank `k`; the cells of rank at most `k` carry at most the fraction `q` of the total (or `k` is the
first rank and even that cell exceeds the fraction), and with the next-ranked cell they carry more. -/
def IsLevel [Field K] [LinearOrder K] (r : List K) (q lev : K) : Prop :=
  ∃ k < r.length, r.getD k 0 = lev ∧
    ((r.take (k + 1)).sum ≤ q * r.sum ∨ k = 0 ∧ q * r.sum < r.getD 0 0) ∧
    (k + 1 < r.length → q * r.sum < (r.take (k + 2)).sum)

end Spec

/-- Filtering by a predicate that holds on an initial segment only. -/
lemma filter_eq_take {α : Type*} (p : α → Bool) (l : List α)
    (h : l.Pairwise fun a b => p b = true → p a = true) :
    ∃ m ≤ l.length, l.filter p = l.take m ∧ (∀ i (hi : i < l.length), p l[i] = true ↔ i < m) := by
  induction l with
  | nil => exact ⟨0, le_rfl, rfl, by simp⟩
  | cons a l ih =>
    rw [List.pairwise_cons] at h
    obtain ⟨m, hm, h1, h2⟩ := ih h.2
    by_cases ha : p a = true
    · refine ⟨m + 1, by simpa using hm, by simp [ha, h1], ?_⟩
      intro i hi
      cases i with
      | zero => simp [ha]
      | succ i => simpa using h2 i (by simpa using hi)
    · have hall : ∀ b ∈ l, ¬ p b = true := fun b hb hp => ha (h.1 b hb hp)
      refine ⟨0, by simp, ?_, ?_⟩
      · simp only [List.take_zero, List.filter_eq_nil_iff, List.mem_cons]
        rintro b (rfl | hb)
        · exact ha
        · exact hall b hb
      · intro i hi
        simp only [Nat.not_lt_zero, iff_false]
        cases i with
        | zero => exact ha
        | succ i => exact hall _ (List.getElem_mem _)

section field

variable [Field K] [LinearOrder K] [IsStrictOrderedRing K]

lemma take_sum_mono {l : List K} (h : ∀ x ∈ l, 0 ≤ x) {i j : ℕ} (hij : i ≤ j) :
    (l.take i).sum ≤ (l.take j).sum := by
  obtain ⟨m, rfl⟩ := Nat.exists_eq_add_of_le hij
  rw [List.take_add, List.sum_append]
  have : 0 ≤ ((l.drop i).take m).sum :=
    List.sum_nonneg fun x hx => h x (List.mem_of_mem_drop (List.mem_of_mem_take hx))
  linarith

lemma isRanking_unique {r r' hist : List K} (h : Spec.IsRanking r hist) (h' : Spec.IsRanking r' hist) :
    r = r' :=
  (h.1.trans h'.1.symm).eq_of_pairwise (le := (· ≥ ·)) (fun _ _ _ _ h1 h2 => le_antisymm h2 h1) h.2 h'.2

lemma argsort_ranking {idx : List ℕ} {hist : List K} (h : IsArgsort idx hist) :
    Spec.IsRanking (idx.reverse.map fun i => hist.getD i 0) hist := by
  refine ⟨?_, ?_⟩
  · rw [List.map_reverse]
    exact (List.reverse_perm _).trans h.perm
  · rw [List.map_reverse, List.pairwise_reverse]
    exact h.2

lemma dfmLevel_spec {r : List K} (h0 : ∀ x ∈ r, 0 ≤ x) (ht : 0 < r.sum) (q : K) :
    Spec.IsLevel r q (dfmLevel r ((npCumsum r).map (· / r.sum)) q) := by
  have hlen : 0 < r.length := by
    rcases r with _ | ⟨a, l⟩
    · simp at ht
    · simp
  set sm := (npCumsum r).map (· / r.sum) with hsm
  have hsl : sm.length = r.length := by simp [hsm, npCumsum_length]
  have hsg : ∀ i (hi : i < sm.length), sm[i] = (r.take (i + 1)).sum / r.sum := by
    intro i hi
    simp only [hsm, List.getElem_map, npCumsum_getElem]
  have hzl : (r.zip sm).length = r.length := by simp [hsl]
  obtain ⟨m, hm, h1, h2⟩ := filter_eq_take (fun p : K × K => decide (p.2 ≤ q)) (r.zip sm) (by
    rw [List.pairwise_iff_getElem]
    intro i j hi hj hij
    simp only [List.getElem_zip, decide_eq_true_eq]
    intro h
    rw [hzl] at hi hj
    rw [hsg i (by omega)]
    rw [hsg j (by omega)] at h
    exact (div_le_div_of_nonneg_right (take_sum_mono h0 (by omega)) ht.le).trans h)
  rw [hzl] at hm
  have h3 : ∀ i, i < r.length → ((r.take (i + 1)).sum ≤ q * r.sum ↔ i < m) := by
    intro i hi
    rw [← h2 i (by omega)]
    simp only [List.getElem_zip, decide_eq_true_eq]
    rw [hsg i (by omega), div_le_iff₀ ht]
  unfold dfmLevel
  rw [h1]
  cases m with
  | zero =>
    simp only [List.take_zero, List.getLast?_nil]
    have hz := h3 0 hlen
    have ht1 : (r.take 1).sum = r.getD 0 0 := by
      rcases r with _ | ⟨a, l⟩
      · simp at hlen
      · simp
    refine ⟨0, hlen, rfl, Or.inr ⟨rfl, ?_⟩, ?_⟩
    · rw [← ht1]
      simp only [zero_add, lt_irrefl, iff_false, not_le] at hz
      exact hz
    · intro hl
      have := h3 1 hl
      simp only [Nat.not_lt_zero, iff_false, not_le] at this
      exact this
  | succ k =>
    have hk : k < (r.zip sm).length := by omega
    rw [List.getLast?_take, if_neg (by omega)]
    simp only [Nat.add_sub_cancel, List.getElem?_eq_getElem hk, Option.some_or, List.getElem_zip]
    refine ⟨k, by omega, List.getD_eq_getElem _ _ (by omega), Or.inl ((h3 k (by omega)).mpr (by omega)), ?_⟩
    intro hl
    have := h3 (k + 1) hl
    simp only [lt_irrefl, iff_false, not_le] at this
    exact this

/-- The rank, hence the level, is determined by the specification; larger fractions give lower levels. -/
lemma isLevel_antitone {r : List K} (h0 : ∀ x ∈ r, 0 ≤ x) (hr : r.Pairwise (· ≥ ·)) (ht : 0 < r.sum)
    {q q' lev lev' : K} (hq : q ≤ q') (h : Spec.IsLevel r q lev) (h' : Spec.IsLevel r q' lev') : lev' ≤ lev := by
  obtain ⟨k, hk, rfl, h1, h2⟩ := h
  obtain ⟨k', hk', rfl, h1', h2'⟩ := h'
  have hqq : q * r.sum ≤ q' * r.sum := mul_le_mul_of_nonneg_right hq ht.le
  have hkk : k ≤ k' := by
    by_contra hlt
    push Not at hlt
    rcases h1 with h1 | ⟨rfl, h1⟩
    · have := h2' (by omega)
      have := take_sum_mono h0 (show k' + 2 ≤ k + 1 by omega)
      linarith
    · omega
  rw [List.getD_eq_getElem _ _ hk, List.getD_eq_getElem _ _ hk']
  rcases hkk.lt_or_eq with h | h
  · exact List.pairwise_iff_getElem.mp hr k k' hk hk' h
  · subst h; exact le_rfl

/-- **C55.** For every histogram of nonnegative floats with positive total and every list of fractions, whatever
order `np.argsort` gives to equal cells: there is one level per fraction, in ascending order; they are a
rearrangement of `f q`, where `f q` is the level for the fraction `q` in the sense of `Spec.IsLevel` and a
value of the histogram, and larger fractions have lower levels. -/
theorem C55_levels_partial (hist r : List K) (h0 : ∀ x ∈ hist, 0 ≤ x) (ht : 0 < hist.sum)
    (hr : Spec.IsRanking r hist) :
    ∃ f : K → K, (∀ q, Spec.IsLevel r q (f q) ∧ f q ∈ hist) ∧ (∀ q q', q ≤ q' → f q' ≤ f q) ∧
      ∀ (srt : List K → List ℕ), IsArgsort (srt hist) hist → ∀ quantiles, ∃ levels,
        dfmLevelsOf srt .float hist quantiles = .ok levels ∧ levels.length = quantiles.length ∧
        levels.Pairwise (· ≤ ·) ∧ levels.Perm (quantiles.map f) := by
  have h0' : ∀ x ∈ r, 0 ≤ x := fun x hx => h0 x (hr.1.mem_iff.mp hx)
  have ht' : 0 < r.sum := by rw [hr.1.sum_eq]; exact ht
  refine ⟨fun q => dfmLevel r ((npCumsum r).map (· / r.sum)) q, fun q => ?_, fun q q' hq => ?_, ?_⟩
  · have := dfmLevel_spec h0' ht' q
    refine ⟨this, ?_⟩
    obtain ⟨k, hk, h, -⟩ := this
    beta_reduce
    rw [← h, List.getD_eq_getElem _ _ hk]
    exact hr.1.mem_iff.mp (List.getElem_mem _)
  · exact isLevel_antitone h0' hr.2 ht' hq (dfmLevel_spec h0' ht' q) (dfmLevel_spec h0' ht' q')
  · intro srt hs quantiles
    have hd : ((srt hist).reverse.map fun i => hist.getD i 0) = r := isRanking_unique (argsort_ranking hs) hr
    have hl : (npCumsum r).getLast? = some r.sum := by
      rw [npCumsum_getLast?]
      rw [if_neg]
      rintro rfl
      simp at ht'
    refine ⟨npSort (quantiles.map fun q => dfmLevel r ((npCumsum r).map (· / r.sum)) q), ?_, ?_,
      npSort_pairwise _, npSort_perm _⟩
    · unfold dfmLevelsOf
      simp only [hd, hl]
      rw [if_neg (by simp), if_neg ht'.ne']
    · rw [npSort_length, List.length_map]

/-- The cells above a level carry at most the fraction; down to any lower cell they carry more. -/
lemma isLevel_mass {r : List K} (h0 : ∀ x ∈ r, 0 ≤ x) (hr : r.Pairwise (· ≥ ·)) {q lev : K} (hq : 0 ≤ q)
    (h : Spec.IsLevel r q lev) :
    (r.map fun x => if lev < x then x else 0).sum ≤ q * r.sum ∧
    ∀ v ∈ r, v < lev → q * r.sum < (r.map fun x => if v ≤ x then x else 0).sum := by
  obtain ⟨k, hk, rfl, h1, h2⟩ := h
  have hs0 : 0 ≤ r.sum := List.sum_nonneg h0
  rw [List.getD_eq_getElem _ _ hk]
  have hge : ∀ i j (hi : i < r.length) (hj : j < r.length), i ≤ j → r[j] ≤ r[i] := by
    intro i j hi hj hij
    rcases hij.lt_or_eq with h | h
    · exact List.pairwise_iff_getElem.mp hr i j hi hj h
    · subst h; exact le_rfl
  have hsplit : ∀ (n : ℕ) (g : K → K), (r.map g).sum = ((r.take n).map g).sum + ((r.drop n).map g).sum := by
    intro n g
    rw [← List.sum_append, ← List.map_append, List.take_append_drop]
  constructor
  · rw [hsplit k]
    have e2 : ((r.drop k).map fun x => if r[k] < x then x else 0).sum = 0 := by
      apply List.sum_eq_zero
      intro y hy
      simp only [List.mem_map] at hy
      obtain ⟨x, hx, rfl⟩ := hy
      obtain ⟨i, hi, rfl⟩ := List.mem_iff_getElem.mp hx
      rw [List.getElem_drop]
      rw [List.length_drop] at hi
      exact if_neg (not_lt.mpr (hge k (k + i) hk (by omega) (by omega)))
    have e1 : ((r.take k).map fun x => if r[k] < x then x else 0).sum ≤ (r.take k).sum := by
      conv_rhs => rw [← List.map_id (r.take k)]
      apply List.sum_le_sum
      intro x hx
      have := h0 x (List.mem_of_mem_take hx)
      dsimp only [id]
      split_ifs
      · exact le_rfl
      · exact this
    rw [e2, add_zero]
    refine e1.trans ?_
    rcases h1 with h1 | ⟨rfl, h1⟩
    · exact (take_sum_mono h0 (Nat.le_succ k)).trans h1
    · simpa using mul_nonneg hq hs0
  · intro v hv hlt
    obtain ⟨j, hj, rfl⟩ := List.mem_iff_getElem.mp hv
    have hkj : k < j := by
      by_contra hc
      exact absurd (hge j k hj hk (by omega)) (not_le.mpr hlt)
    refine (h2 (by omega)).trans_le ((take_sum_mono h0 (show k + 2 ≤ j + 1 by omega)).trans ?_)
    rw [hsplit (j + 1)]
    have e1 : ((r.take (j + 1)).map fun x => if r[j] ≤ x then x else 0).sum = (r.take (j + 1)).sum := by
      congr 1
      conv_rhs => rw [← List.map_id (r.take (j + 1))]
      apply List.map_congr_left
      intro x hx
      obtain ⟨i, hi, rfl⟩ := List.mem_iff_getElem.mp hx
      rw [List.getElem_take]
      rw [List.length_take] at hi
      exact if_pos (hge i j (by omega) hj (by omega))
    rw [e1]
    have : 0 ≤ ((r.drop (j + 1)).map fun x => if r[j] ≤ x then x else 0).sum := by
      apply List.sum_nonneg
      intro y hy
      simp only [List.mem_map] at hy
      obtain ⟨x, hx, rfl⟩ := hy
      have := h0 x (List.mem_of_mem_drop hx)
      split_ifs
      · exact this
      · exact le_rfl
    linarith

end field

lemma NDArr.mem_flat {d : ℕ} (a : NDArr d K) (x : K) :
    x ∈ a.flat ↔ ∃ idx, ValidIdx a.shape idx ∧ a.get idx = x := by
  constructor
  · intro h
    obtain ⟨k, hk, rfl⟩ := List.mem_iff_getElem.mp h
    refine ⟨unravelIdx a.shape k, unravelIdx_valid ?_, (NDArr.flat_getElem a k hk).symm⟩
    rwa [NDArr.flat_length] at hk
  · rintro ⟨idx, h, rfl⟩
    have hl : ravelIdx a.shape idx < a.flat.length := by rw [NDArr.flat_length]; exact ravelIdx_lt h
    rw [← NDArr.flat_ravel a idx h hl]
    exact List.getElem_mem _

lemma NDArr.flat_map_sum {d : ℕ} (a : NDArr d ℝ) (g : ℝ → ℝ) :
    (a.flat.map g).sum = ∑ idx ∈ validIdx a.shape, g (a.get idx) := by
  have : a.flat.map g = (a.map g).flat := by
    simp [NDArr.flat, NDArr.map, NDArr.size, List.map_map, Function.comp_def]
  rw [this, NDArr.flat_sum]; rfl

open Classical in
/-- **C55 (in terms of the cells).** For every histogram (of any shape) of nonnegative floats with positive
total: `_dfm_levels` returns ascending levels, one for each quantile (given, or computed from the sigmas);
each is a value of the histogram, and in their order they belong to the quantiles through `f`: the cells
strictly above the level `f q` together carry at most the fraction `q`, and if any cell lies below the
level, then the cells at least as high as that cell carry more than the fraction `q`.  Larger quantiles have
lower levels. -/
theorem C55_mass_partial {d : ℕ} (hist : NDArr d ℝ) (h0 : ∀ idx, ValidIdx hist.shape idx → 0 ≤ hist.get idx)
    (ht : 0 < hist.sum) (srt : List ℝ → List ℕ) (hs : ∀ l, IsArgsort (srt l) l)
    (quantiles sigmas : Option (List ℝ)) :
    ∃ (levels qs : List ℝ) (s : List (Option ℝ)) (f : ℝ → ℝ),
      dfmLevels srt .float hist quantiles sigmas = .ok (s, levels, qs) ∧
      (∀ q, quantiles = some q → qs = q) ∧ levels.length = qs.length ∧ levels.Pairwise (· ≤ ·) ∧
      levels.Perm (qs.map f) ∧ (∀ q q', q ≤ q' → f q' ≤ f q) ∧
      ∀ q, (∃ idx, ValidIdx hist.shape idx ∧ hist.get idx = f q) ∧
        (0 ≤ q → (∑ idx ∈ validIdx hist.shape, if f q < hist.get idx then hist.get idx else 0) ≤ q * hist.sum ∧
          ∀ low, ValidIdx hist.shape low → hist.get low < f q →
            q * hist.sum < ∑ idx ∈ validIdx hist.shape,
              if hist.get low ≤ hist.get idx then hist.get idx else 0) := by
  have hf0 : ∀ x ∈ hist.flat, 0 ≤ x := by
    intro x hx
    obtain ⟨idx, h, rfl⟩ := (NDArr.mem_flat hist x).mp hx
    exact h0 idx h
  have hft : 0 < hist.flat.sum := by rw [NDArr.flat_sum]; exact ht
  have hr := argsort_ranking (hs hist.flat)
  set r := (srt hist.flat).reverse.map fun i => hist.flat.getD i 0
  obtain ⟨f, hf, hanti, hlev⟩ := C55_levels_partial hist.flat r hf0 hft hr
  obtain ⟨levels, hl, h1, h2, h3⟩ := hlev srt (hs _) (defaultQuantiles quantiles sigmas).1
  refine ⟨levels, (defaultQuantiles quantiles sigmas).1, (defaultQuantiles quantiles sigmas).2, f, ?_, ?_, h1, h2,
    h3, hanti, fun q => ⟨(NDArr.mem_flat hist _).mp (hf q).2, fun hq => ?_⟩⟩
  · unfold dfmLevels
    simp only [hl]
  · rintro q rfl
    cases sigmas <;> rfl
  · have hm := isLevel_mass (fun x hx => hf0 x (hr.1.mem_iff.mp hx)) hr.2 hq (hf q).1
    have hp : ∀ g : ℝ → ℝ, (r.map g).sum = ∑ idx ∈ validIdx hist.shape, g (hist.get idx) := by
      intro g
      rw [(hr.1.map g).sum_eq, NDArr.flat_map_sum]
    rw [hp, hr.1.sum_eq, NDArr.flat_sum] at hm
    refine ⟨hm.1, fun low hlow hlt => ?_⟩
    have := hm.2 (hist.get low) (hr.1.mem_iff.mpr ((NDArr.mem_flat hist _).mpr ⟨low, hlow, rfl⟩)) hlt
    rwa [hp] at this

/-- **C55.** An all-zero histogram has the level zero for every quantile. -/
theorem C55_zero [Field K] [LinearOrder K] [IsStrictOrderedRing K] (srt : List K → List ℕ) (n : ℕ)
    (quantiles : List K) (hs : IsArgsort (srt (List.replicate (n + 1) 0)) (List.replicate (n + 1) (0 : K))) :
    dfmLevelsOf srt .float (List.replicate (n + 1) 0) quantiles = .ok (List.replicate quantiles.length 0) := by
  have hr := argsort_ranking hs
  have hd : ((srt (List.replicate (n + 1) 0)).reverse.map fun i => (List.replicate (n + 1) (0 : K)).getD i 0)
      = List.replicate (n + 1) 0 := List.perm_replicate.mp hr.1
  unfold dfmLevelsOf
  simp only [hd, npCumsum_getLast?]
  rw [if_neg (by simp)]
  simp only [List.sum_replicate, smul_zero, if_true]
  rw [if_neg (by simp), if_pos (by intro x hx; exact List.eq_of_mem_replicate hx)]
  have : (quantiles.map fun _ => (List.replicate (n + 1) (0 : K)).getD 0 0) = List.replicate quantiles.length 0 := by
    simp [List.map_const']
  rw [this]
  congr 1
  exact List.perm_replicate.mp (npSort_perm _)

/-- **C55 (full statement, not true of the code)**: every nonnegative histogram with positive total, of floats
or integers, has one level per quantile. -/
def C55_Claim : Prop :=
  ∀ (dt : DType) (hist : List ℝ), (∀ x ∈ hist, dt.Holds x) → (∀ x ∈ hist, 0 ≤ x) →
    0 < hist.sum → ∀ srt : List ℝ → List ℕ, (∀ l, IsArgsort (srt l) l) → ∀ quantiles : List ℝ,
      ∃ levels, dfmLevelsOf srt dt hist quantiles = .ok levels ∧ levels.length = quantiles.length

/-- **C55 fails for integer histograms** (for example counts passed to `draw_contour2d`): the in-place
division raises `TypeError`. -/
theorem C55_refuted : ¬ C55_Claim := by
  intro h
  obtain ⟨srt, hs⟩ : ∃ srt : List ℝ → List ℕ, ∀ l, IsArgsort (srt l) l := exists_argsort
  obtain ⟨levels, hl, -⟩ := h .int [3, 1] (by
    intro x hx
    simp only [List.mem_cons, List.not_mem_nil, or_false] at hx
    rcases hx with rfl | rfl
    · exact ⟨3, by norm_num⟩
    · exact ⟨1, by norm_num⟩) (by simp) (by norm_num) srt hs [1 / 2]
  unfold dfmLevelsOf at hl
  simp only [if_true] at hl
  cases h' : (npCumsum ((srt [3, 1]).reverse.map fun i => ([3, 1] : List ℝ).getD i 0)).getLast? <;>
    rw [h'] at hl <;> cases hl

/-- A histogram with cells 1, 4, 3 (total 8): the level of the fraction 1/2 is 4, that of 7/8 is 3, and 1/4
(exceeded by the top cell) also gives 4. -/
example : Spec.IsRanking [4, 3, (1 : ℝ)] [1, 4, 3] ∧ Spec.IsLevel [4, 3, (1 : ℝ)] (1 / 2) 4 ∧
    Spec.IsLevel [4, 3, (1 : ℝ)] (7 / 8) 3 ∧ Spec.IsLevel [4, 3, (1 : ℝ)] (1 / 4) 4 := by
  refine ⟨⟨?_, by norm_num⟩, ⟨0, ?_⟩, ⟨1, ?_⟩, ⟨0, ?_⟩⟩
  · exact (List.Perm.swap 1 3 [] |>.cons 4).trans (List.Perm.swap 1 4 [3])
  all_goals norm_num

end Kalepy
