import Mathlib.Tactic.NormNum
import Mathlib.Data.List.Permutation
import Verif.Proofs.Interp
import Verif.Props.Minmax
import Verif.Props.Sample

/-!
# C35: quantiles
-/

namespace Kalepy

variable {K : Type*} [Field K] [LinearOrder K] [IsStrictOrderedRing K]

lemma IsArgsort.lt {srt : List ℕ} {l : List K} (h : IsArgsort srt l) : ∀ i ∈ srt, i < l.length :=
  fun i hi => by simpa using h.1.mem_iff.mp hi

/-- The sorted weights are a permutation of the weights. -/
lemma sorted_weights_perm {idx : List ℕ} {values ws : List K} (h : IsArgsort idx values)
    (hl : ws.length = values.length) : (idx.map fun i => ws.getD i 0).Perm ws := by
  have := h.1.map (fun i => ws.getD i 0)
  rwa [← hl, list_map_getD_range] at this

lemma quantiles_eq {srt : List K → List ℕ} {values ws percs : List K} (hs : IsArgsort (srt values) values)
    (hl : ws.length = values.length) (hne : values ≠ []) (h0 : ws.sum ≠ 0)
    (hp : ∀ p ∈ percs, 0 ≤ p ∧ p ≤ 1) :
    quantiles srt values percs (some ws) = .ok (percs.map fun p =>
      npInterp p (quantileGrid ((srt values).map fun i => ws.getD i 0)) ((srt values).map fun i => values.getD i 0)) := by
  unfold quantiles
  simp only [Option.getD_some]
  rw [if_neg (by simpa using hp), if_neg (by
    rintro ⟨_, h⟩; exact h fun i hi => hl ▸ hs.lt i hi)]
  simp only [Bool.false_eq_true, if_false]
  rw [(sorted_weights_perm hs hl).sum_eq, if_neg h0, if_neg]
  rintro (h | h)
  · simp at h
  · have := hs.perm.length_eq
    rw [h] at this
    simp at this
    exact hne (List.length_eq_zero_iff.mp this.symm)

lemma sorted_extrema {l : List K} (hs : l.Pairwise (· ≤ ·)) (h : 0 < l.length) :
    IsExtrema l l[0] l[l.length - 1] := by
  refine ⟨List.getElem_mem _, List.getElem_mem _, ?_⟩
  intro x hx
  obtain ⟨i, hi, rfl⟩ := List.getElem_of_mem hx
  exact ⟨pairwise_getElem_le hs (by omega) hi, pairwise_getElem_le hs (by omega) _⟩

lemma IsExtrema.unique' {data data' : List K} {a b a' b' : K} (hp : data.Perm data') (h : IsExtrema data a b)
    (h' : IsExtrema data' a' b') : a = a' ∧ b = b' :=
  ⟨le_antisymm (h.2.2 _ (hp.mem_iff.mpr h'.1)).1 (h'.2.2 _ (hp.mem_iff.mp h.1)).1,
   le_antisymm (h'.2.2 _ (hp.mem_iff.mp h.2.1)).2 (h.2.2 _ (hp.mem_iff.mpr h'.2.1)).2⟩

/-- Hypotheses on the arguments of `quantiles`: nonempty values, as many nonnegative weights with
positive sum. -/
structure QuantileArgs (values ws : List K) : Prop where
  ne : values ≠ []
  len : ws.length = values.length
  nonneg : ∀ w ∈ ws, 0 ≤ w
  pos : 0 < ws.sum

/-- **C35.** One quantile per requested fraction; each lies between the data minimum and maximum; they
are monotone in the requested fraction; the quantile for fraction 1 is the maximum.  For every sorting
of ties. -/
theorem C35_quantiles {srt : List K → List ℕ} {values ws percs : List K}
    (hs : IsArgsort (srt values) values) (ha : QuantileArgs values ws) (hp : ∀ p ∈ percs, 0 ≤ p ∧ p ≤ 1)
    (lo hi : K) (he : IsExtrema values lo hi) :
    ∃ r, quantiles srt values percs (some ws) = .ok r ∧ r.length = percs.length ∧
      (∀ q ∈ r, lo ≤ q ∧ q ≤ hi) ∧
      (∀ i j (h : i < percs.length) (h' : j < percs.length), percs[i] ≤ percs[j] → r.getD i 0 ≤ r.getD j 0) ∧
      (∀ i (h : i < percs.length), percs[i] = 1 → r.getD i 0 = hi) := by
  have hlen := ha.len
  set vs := (srt values).map fun i => values.getD i 0 with hvs
  set qs := (srt values).map fun i => ws.getD i 0 with hqs
  have hpv : vs.Perm values := hs.perm
  have hpq : qs.Perm ws := sorted_weights_perm hs hlen
  have hq0 : ∀ w ∈ qs, 0 ≤ w := fun w hw => ha.nonneg w (hpq.mem_iff.mp hw)
  have hqsum : 0 < qs.sum := by rw [hpq.sum_eq]; exact ha.pos
  have hpos : 0 < vs.length := by
    rw [hpv.length_eq]; exact List.length_pos_iff.mpr ha.ne
  have hgs := quantileGrid_sorted hq0 hqsum
  have hgl : (quantileGrid qs).length = vs.length := by rw [quantileGrid_length]; simp [hvs, hqs]
  obtain ⟨e1, e2⟩ := IsExtrema.unique' hpv (sorted_extrema hs.2 hpos) he
  refine ⟨_, quantiles_eq hs hlen ha.ne ha.pos.ne' hp, by simp, ?_, ?_, ?_⟩
  · intro q hq
    obtain ⟨p, _, rfl⟩ := List.mem_map.mp hq
    rw [← e1, ← e2]
    exact npInterp_bounds hgs hs.2 hgl hpos p
  · intro i j h h' hij
    rw [List.getD_eq_getElem _ _ (by simpa using h), List.getD_eq_getElem _ _ (by simpa using h'),
      List.getElem_map, List.getElem_map]
    exact npInterp_mono hgs hs.2 hgl hpos hij
  · intro i h h1
    rw [List.getD_eq_getElem _ _ (by simpa using h), List.getElem_map, h1, ← e2]
    apply npInterp_last hgl _ _ hpos
    rw [searchRight, List.countP_eq_length.mpr]
    · exact hgl
    · intro x hx; simpa using quantileGrid_le_one hq0 hqsum x hx

/-- **C35.** With positive weights the quantile for fraction 0 is the minimum.  Missing: weights that
vanish, see `C35_min_refuted`. -/
theorem C35_min_partial {srt : List K → List ℕ} {values ws : List K}
    (hs : IsArgsort (srt values) values) (ha : QuantileArgs values ws) (hw : ∀ w ∈ ws, 0 < w)
    (lo hi : K) (he : IsExtrema values lo hi) :
    quantiles srt values [0] (some ws) = .ok [lo] := by
  rw [quantiles_eq hs ha.len ha.ne ha.pos.ne' (by simp)]
  have hpq := sorted_weights_perm hs ha.len
  have hpos : 0 < ((srt values).map fun i => values.getD i 0).length := by
    rw [hs.perm.length_eq]; exact List.length_pos_iff.mpr ha.ne
  obtain ⟨e1, e2⟩ := IsExtrema.unique' hs.perm (sorted_extrema hs.2 hpos) he
  simp only [List.map_cons, List.map_nil]
  rw [npInterp_zero _ _ hpos, e1]
  rw [searchRight, List.countP_eq_zero]
  intro x hx
  have := quantileGrid_pos (fun w h => hw w (hpq.mem_iff.mp h)) (by rw [hpq.sum_eq]; exact ha.pos) x hx
  simpa using this

/-- **C35 (full statement for fraction 0, not true of the code).** -/
def C35_min_Claim : Prop :=
  ∀ (srt : List ℝ → List ℕ) (_ : ∀ l, IsArgsort (srt l) l) (values ws : List ℝ)
    (_ : QuantileArgs values ws) (lo hi : ℝ) (_ : IsExtrema values lo hi),
    quantiles srt values [0] (some ws) = .ok [lo]

lemma argsort_three {idx : List ℕ} {a b c : ℝ} (h : IsArgsort idx [a, b, c]) :
    idx ∈ [[0, 1, 2], [1, 0, 2], [2, 1, 0], [1, 2, 0], [2, 0, 1], [0, 2, 1]] := by
  have h1 : idx ∈ List.permutations ([0, 1, 2] : List ℕ) := List.mem_permutations.mpr h.1
  have e : List.permutations ([0, 1, 2] : List ℕ) = [[0, 1, 2], [1, 0, 2], [2, 1, 0], [1, 2, 0], [2, 0, 1], [0, 2, 1]] := by
    simp [List.permutations, List.permutationsAux, List.permutationsAux2, List.permutationsAux.rec]
  rwa [e] at h1

/-- **C35 fails at fraction 0 for leading zero weights**: values `[0, 1, 2]` with weights `[0, 0, 1]` give
the value 1 for fraction 0. -/
theorem C35_min_refuted : ¬ C35_min_Claim := by
  intro hC
  obtain ⟨srt, hs⟩ := exists_argsort
  have ha : QuantileArgs [(0 : ℝ), 1, 2] [0, 0, 1] := ⟨by simp, by simp, by simp, by simp⟩
  have he : IsExtrema [(0 : ℝ), 1, 2] 0 2 := by simp [IsExtrema]
  have := hC srt hs _ _ ha 0 2 he
  rw [quantiles_eq (hs _) ha.len ha.ne ha.pos.ne' (by simp)] at this
  have hi := argsort_three (hs [0, 1, 2])
  have hsort := (hs [0, 1, 2]).2
  have hid : srt [0, 1, 2] = [0, 1, 2] := by
    simp only [List.mem_cons, List.not_mem_nil, or_false] at hi
    rcases hi with h | h | h | h | h | h
    · exact h
    all_goals
      exfalso; rw [h] at hsort
      simp at hsort
      try linarith
  rw [hid] at this
  have h2 : ¬ (1 : ℝ) ≤ 2⁻¹ := by norm_num
  simp [npInterp, quantileGrid, npCumsum, searchRight, h2] at this

/-- **C35.** Rescaling the weights by a nonzero constant changes nothing. -/
theorem C35_rescale (srt : List K → List ℕ) (values percs ws : List K) (vsorted : Bool) {c : K} (hc : c ≠ 0) :
    quantiles srt values percs (some (ws.map (c * ·))) vsorted = quantiles srt values percs (some ws) vsorted := by
  have hmap : ∀ idx : List ℕ, (idx.map fun i => (ws.map (c * ·)).getD i 0)
      = (idx.map fun i => ws.getD i 0).map (c * ·) := by
    intro idx
    rw [List.map_map]
    apply List.map_congr_left
    intro i _
    by_cases h : i < ws.length
    · simp [h]
    · simp [not_lt.mp h]
  unfold quantiles
  simp only [Option.getD_some, List.length_map, hmap]
  have hif : (if vsorted then ws.map (c * ·) else ((srt values).map fun i => ws.getD i 0).map (c * ·))
      = (if vsorted then ws else (srt values).map fun i => ws.getD i 0).map (c * ·) := by
    split_ifs <;> rfl
  rw [hif]
  have hsum : ∀ l : List K, (l.map (c * ·)).sum = 0 ↔ l.sum = 0 := by
    intro l
    rw [List.sum_map_mul_left, List.map_id', mul_eq_zero]
    simp [hc]
  simp only [hsum, quantileGrid_scale _ hc, List.length_map]

/-- **C35.** The quantiles do not depend on the order in which the (value, weight) pairs are supplied,
nor on how ties are sorted, provided equal values carry equal weights (`g` gives the weight of a value).
This includes distinct values with arbitrary weights, and omitted weights.  Missing: ties with different
weights, see `C35_order_refuted`. -/
theorem C35_order_partial (srt srt' : List K → List ℕ) (values values' percs : List K) (g : K → K)
    (hs : IsArgsort (srt values) values) (hs' : IsArgsort (srt' values') values') (hp : values.Perm values') :
    quantiles srt values percs (some (values.map g)) = quantiles srt' values' percs (some (values'.map g)) ∧
    quantiles srt values percs = quantiles srt' values' percs := by
  have hv : ((srt values).map fun i => values.getD i 0) = ((srt' values').map fun i => values'.getD i 0) :=
    List.Perm.eq_of_pairwise' hs.2 hs'.2 (hs.perm.trans (hp.trans hs'.perm.symm))
  have hw : ∀ (idx : List ℕ) (l : List K) (g : K → K), (∀ i ∈ idx, i < l.length) →
      (idx.map fun i => (l.map g).getD i 0) = (idx.map fun i => l.getD i 0).map g := by
    intro idx l g h
    rw [List.map_map]
    apply List.map_congr_left
    intro i hi
    simp [h i hi]
  have main : ∀ g : K → K, quantiles srt values percs (some (values.map g))
      = quantiles srt' values' percs (some (values'.map g)) := by
    intro g
    unfold quantiles
    simp only [Option.getD_some, List.length_map]
    rw [if_neg (c := True ∧ ¬ ∀ i ∈ srt values, i < values.length) (by rintro ⟨_, h⟩; exact h hs.lt),
      if_neg (c := True ∧ ¬ ∀ i ∈ srt' values', i < values'.length) (by rintro ⟨_, h⟩; exact h hs'.lt)]
    simp only [Bool.false_eq_true, if_false]
    rw [hw _ _ g hs.lt, hw _ _ g hs'.lt, hv]
  exact ⟨main g, main fun _ => 1⟩

/-- **C35 (full statement for order independence, not true of the code).** -/
def C35_order_Claim : Prop :=
  ∀ (srt : List ℝ → List ℕ) (_ : ∀ l, IsArgsort (srt l) l) (values ws values' ws' percs : List ℝ)
    (_ : QuantileArgs values ws) (_ : QuantileArgs values' ws')
    (_ : (values.zip ws).Perm (values'.zip ws')),
    quantiles srt values percs (some ws) = quantiles srt values' percs (some ws')

/-- **C35: order independence fails for ties with different weights**, for every sorting function:
values `[0, 1, 1]` with weights `[1, 1, 3]` or `[1, 3, 1]` give different 0.2-quantiles. -/
theorem C35_order_refuted : ¬ C35_order_Claim := by
  intro hC
  obtain ⟨srt, hs⟩ := exists_argsort
  have ha : QuantileArgs [(0 : ℝ), 1, 1] [1, 1, 3] :=
    ⟨by simp, by simp, by norm_num, by norm_num⟩
  have ha' : QuantileArgs [(0 : ℝ), 1, 1] [1, 3, 1] :=
    ⟨by simp, by simp, by norm_num, by norm_num⟩
  have hp : ∀ p ∈ [(1 / 5 : ℝ)], 0 ≤ p ∧ p ≤ 1 := by norm_num
  have := hC srt hs [0, 1, 1] [1, 1, 3] [0, 1, 1] [1, 3, 1] [1 / 5] ha ha' (by
    simpa using List.Perm.swap ((1 : ℝ), (3 : ℝ)) (1, 1) [])
  rw [quantiles_eq (hs _) ha.len ha.ne ha.pos.ne' hp, quantiles_eq (hs _) ha'.len ha'.ne ha'.pos.ne' hp] at this
  have hi := argsort_three (hs [0, 1, 1])
  have hsort := (hs [0, 1, 1]).2
  simp only [List.mem_cons, List.not_mem_nil, or_false] at hi
  rcases hi with h | h | h | h | h | h
  · rw [h] at this
    simp [npInterp, quantileGrid, npCumsum, searchRight] at this
    norm_num at this
  · exfalso; rw [h] at hsort; simp at hsort; linarith
  · exfalso; rw [h] at hsort; simp at hsort; linarith
  · exfalso; rw [h] at hsort; simp at hsort; linarith
  · exfalso; rw [h] at hsort; simp at hsort; linarith
  · rw [h] at this
    simp [npInterp, quantileGrid, npCumsum, searchRight] at this
    norm_num at this

/-- **C35.** The interquartile range is the difference of the quantiles at 3/4 and 1/4, and is never
negative. -/
theorem C35_iqrange {srt : List K → List ℕ} {values ws : List K}
    (hs : IsArgsort (srt values) values) (ha : QuantileArgs values ws) :
    ∃ a b, quantiles srt values [3 / 4] (some ws) = .ok [a] ∧ quantiles srt values [1 / 4] (some ws) = .ok [b] ∧
      iqrange srt values (some ws) = .ok (a - b) ∧ 0 ≤ a - b := by
  have h34 : (0 : K) ≤ 3 / 4 ∧ (3 / 4 : K) ≤ 1 := by constructor <;> norm_num
  have h14 : (0 : K) ≤ 1 / 4 ∧ (1 / 4 : K) ≤ 1 := by constructor <;> norm_num
  refine ⟨_, _, quantiles_eq (percs := [3 / 4]) hs ha.len ha.ne ha.pos.ne' (by simpa using h34),
    quantiles_eq (percs := [1 / 4]) hs ha.len ha.ne ha.pos.ne' (by simpa using h14), ?_, ?_⟩
  · unfold iqrange
    rw [quantiles_eq (percs := [3 / 4, 1 / 4]) hs ha.len ha.ne ha.pos.ne' (by
      intro p hp; simp only [List.mem_cons, List.not_mem_nil, or_false] at hp
      rcases hp with rfl | rfl
      · exact h34
      · exact h14)]
    simp
  · have hpv := hs.perm
    have hpq := sorted_weights_perm hs ha.len
    rw [sub_nonneg]
    apply npInterp_mono (quantileGrid_sorted (fun w h => ha.nonneg w (hpq.mem_iff.mp h))
      (by rw [hpq.sum_eq]; exact ha.pos)) hs.2
    · rw [quantileGrid_length]; simp
    · rw [hpv.length_eq]; exact List.length_pos_iff.mpr ha.ne
    · norm_num

/-- Concrete arguments: unsorted values with a tie and a zero weight. -/
example : QuantileArgs [(3 : ℝ), 1, 2, 1] [1, 0, 2, 1 / 2] ∧ IsExtrema [(3 : ℝ), 1, 2, 1] 1 3 := by
  refine ⟨⟨by simp, by simp, by norm_num, by norm_num⟩, ?_⟩
  simp [IsExtrema]; norm_num

end Kalepy
