import Mathlib.Tactic.Linarith
import Mathlib.Tactic.FieldSimp
import Mathlib.Tactic.NormNum
import Mathlib.Algebra.BigOperators.Group.Finset.Basic
import Mathlib.Algebra.BigOperators.Ring.Finset
import Mathlib.Data.List.GetD
import Verif.Model.Utils
import Verif.Proofs.Np

/-!
# C44: histogram
-/

namespace Kalepy

open Finset

variable {K : Type*} [Field K] [LinearOrder K] [IsStrictOrderedRing K]

/-- Bin `j` contains `x`: half-open bins, except for the last one, which is closed. -/
def CountedIn (edges : List K) (j : ℕ) (x : K) : Prop :=
  ∃ a b, edges[j]? = some a ∧ edges[j + 1]? = some b ∧ a ≤ x ∧ (x < b ∨ (x = b ∧ j + 2 = edges.length))

/-- `x` is within the range of the edges. -/
def InRangeOf (edges : List K) (x : K) : Prop :=
  ∃ a b, edges.head? = some a ∧ edges.getLast? = some b ∧ a ≤ x ∧ x ≤ b

lemma inHistBin_iff (edges : List K) (j : ℕ) (x : K) (hj : j + 1 < edges.length) :
    inHistBin edges j x = true ↔ CountedIn edges j x := by
  unfold inHistBin CountedIn
  rw [List.getElem?_eq_getElem hj, List.getElem?_eq_getElem (by omega : j < edges.length),
    List.getD_eq_getElem _ _ (by omega : j < edges.length), List.getD_eq_getElem _ _ hj]
  simp only [Bool.and_eq_true, decide_eq_true_eq, Option.some.injEq, exists_eq_left', exists_and_left]
  by_cases h : j + 2 = edges.length
  · simp [h, le_iff_lt_or_eq]
  · simp [h]

lemma countedIn_unique {edges : List K} (hs : edges.Pairwise (· ≤ ·)) {i j : ℕ} {x : K}
    (hi : CountedIn edges i x) (hj : CountedIn edges j x) (hij : i < j) : False := by
  obtain ⟨a, b, ha, hb, h1, h2⟩ := hi
  obtain ⟨c, d, hc, hd, h3, h4⟩ := hj
  obtain ⟨hbl, rfl⟩ := List.getElem?_eq_some_iff.mp hb
  obtain ⟨hcl, rfl⟩ := List.getElem?_eq_some_iff.mp hc
  obtain ⟨hdl, rfl⟩ := List.getElem?_eq_some_iff.mp hd
  have hle : edges[i + 1] ≤ edges[j] := by
    rcases Nat.lt_or_ge (i + 1) j with h | h
    · exact List.pairwise_iff_getElem.mp hs _ _ _ _ h
    · have : i + 1 = j := by omega
      subst this; exact le_rfl
  rcases h2 with h2 | ⟨_, h2⟩
  · exact absurd (h2.trans_le (hle.trans h3)) (lt_irrefl _)
  · omega

lemma countedIn_exists {edges : List K} (hs : edges.Pairwise (· ≤ ·)) (hl : 2 ≤ edges.length) {x : K}
    (hx : InRangeOf edges x) : ∃ j, j + 1 < edges.length ∧ CountedIn edges j x := by
  obtain ⟨a, b, ha, hb, h1, h2⟩ := hx
  rw [List.head?_eq_getElem?] at ha
  rw [List.getLast?_eq_getElem?] at hb
  obtain ⟨hal, rfl⟩ := List.getElem?_eq_some_iff.mp ha
  obtain ⟨hbl, rfl⟩ := List.getElem?_eq_some_iff.mp hb
  have key : ∀ m (hm : m < edges.length), x < edges[m] → ∃ j, j + 1 ≤ m ∧ CountedIn edges j x := by
    intro m
    induction m with
    | zero => intro hm h; exact absurd (h.trans_le h1) (lt_irrefl _)
    | succ m ih =>
      intro hm h
      by_cases hc : x < edges[m]
      · obtain ⟨j, hj, hj2⟩ := ih (by omega) hc
        exact ⟨j, by omega, hj2⟩
      · exact ⟨m, le_rfl, _, _, List.getElem?_eq_getElem (by omega), List.getElem?_eq_getElem hm,
          not_lt.mp hc, Or.inl h⟩
  rcases h2.lt_or_eq with h | h
  · obtain ⟨j, hj, hj2⟩ := key _ hbl h
    exact ⟨j, by omega, hj2⟩
  · by_cases hc : x < edges[edges.length - 2]
    · obtain ⟨j, hj, hj2⟩ := key _ (by omega) hc
      exact ⟨j, by omega, hj2⟩
    · refine ⟨edges.length - 2, by omega, _, _, List.getElem?_eq_getElem (by omega), ?_, not_lt.mp hc,
        Or.inr ⟨h, by omega⟩⟩
      rw [show edges.length - 2 + 1 = edges.length - 1 by omega]
      exact List.getElem?_eq_getElem hbl

lemma countedIn_range {edges : List K} (hs : edges.Pairwise (· ≤ ·)) {j : ℕ} {x : K}
    (h : CountedIn edges j x) : InRangeOf edges x := by
  obtain ⟨a, b, ha, hb, h1, h2⟩ := h
  obtain ⟨hal, rfl⟩ := List.getElem?_eq_some_iff.mp ha
  obtain ⟨hbl, rfl⟩ := List.getElem?_eq_some_iff.mp hb
  refine ⟨edges[0], edges[edges.length - 1], ?_, ?_, ?_, ?_⟩
  · rw [List.head?_eq_getElem?]; exact List.getElem?_eq_getElem (by omega)
  · rw [List.getLast?_eq_getElem?]; exact List.getElem?_eq_getElem (by omega)
  · refine le_trans ?_ h1
    rcases Nat.eq_zero_or_pos j with h | h
    · subst h; exact le_rfl
    · exact List.pairwise_iff_getElem.mp hs _ _ _ _ h
  · have : edges[j + 1] ≤ edges[edges.length - 1] := by
      rcases Nat.lt_or_ge (j + 1) (edges.length - 1) with h | h
      · exact List.pairwise_iff_getElem.mp hs _ _ _ _ h
      · have e : j + 1 = edges.length - 1 := by omega
        simp only [e]; exact le_rfl
    rcases h2 with h | ⟨h, _⟩
    · exact h.le.trans this
    · exact h.le.trans this

/-- **C44.** Every value within the range of (nondecreasing) edges belongs to exactly one bin, and every
value of a bin is within the range. -/
theorem C44_counted_once (edges : List K) (hs : edges.Pairwise (· ≤ ·)) (hl : 2 ≤ edges.length) (x : K) :
    (InRangeOf edges x → ∃! j, CountedIn edges j x) ∧ (∀ j, CountedIn edges j x → InRangeOf edges x) := by
  refine ⟨fun hx => ?_, fun j h => countedIn_range hs h⟩
  obtain ⟨j, _, hj⟩ := countedIn_exists hs hl hx
  refine ⟨j, hj, fun i hi => ?_⟩
  rcases lt_trichotomy i j with h | h | h
  · exact (countedIn_unique hs hi hj h).elim
  · exact h
  · exact (countedIn_unique hs hj hi h).elim

open Classical in
/-- Total weight of the pairs (datum, weight) selected by a predicate. -/
noncomputable def weightOf (P : K → Prop) (data ws : List K) : K :=
  ((data.zip ws).map fun p => if P p.1 then p.2 else 0).sum

lemma weightOf_eq (edges : List K) (j : ℕ) (hj : j + 1 < edges.length) (data ws : List K) :
    (List.zipWith (fun x w => if inHistBin edges j x then w else 0) data ws).sum
      = weightOf (CountedIn edges j) data ws := by
  unfold weightOf
  rw [List.zip, List.map_zipWith]
  congr 1
  congr 1
  funext x w
  by_cases h : CountedIn edges j x
  · rw [if_pos h, if_pos ((inHistBin_iff edges j x hj).mpr h)]
  · rw [if_neg h, if_neg (fun h' => h ((inHistBin_iff edges j x hj).mp h'))]

lemma npHistogram_eq {data edges : List K} {weights : Option (List K)}
    (hs : edges.Pairwise (· ≤ ·)) (hw : ∀ w, weights = some w → w.length = data.length) :
    npHistogram data edges weights = .ok ((List.range (edges.length - 1)).map fun j =>
      weightOf (CountedIn edges j) data (weights.getD (data.map fun _ => 1))) := by
  have hlen : (weights.getD (data.map fun _ => 1)).length = data.length := by
    cases weights with
    | none => simp
    | some w => simpa using hw w rfl
  unfold npHistogram
  simp only
  rw [if_neg (by simpa using hlen), if_neg (by simpa using hs)]
  congr 1
  apply List.map_congr_left
  intro j hj
  rw [List.mem_range] at hj
  exact weightOf_eq edges j (by omega) _ _

/-- **C44.** With increasing edges, `histogram` returns the edges and for each bin the total weight of
the data in that bin (each datum counts 1 without weights). -/
theorem C44_counts (data edges : List K) (weights : Option (List K)) (hs : edges.Pairwise (· ≤ ·))
    (hw : ∀ w, weights = some w → w.length = data.length) :
    ∃ h, histogram data edges weights = .ok (h, edges) ∧ h.length = edges.length - 1 ∧
      ∀ j, j < edges.length - 1 →
        h[j]? = some (weightOf (CountedIn edges j) data (weights.getD (data.map fun _ => 1))) := by
  have e : histogram data edges weights = .ok ((List.range (edges.length - 1)).map fun j =>
      weightOf (CountedIn edges j) data (weights.getD (data.map fun _ => 1)), edges) := by
    unfold histogram; rw [npHistogram_eq hs hw]; simp
  refine ⟨_, e, by simp, ?_⟩
  intro j hj
  rw [List.getElem?_eq_getElem (by simpa using hj)]
  simp

lemma sum_weightOf {edges : List K} (hs : edges.Pairwise (· ≤ ·)) (hl : 2 ≤ edges.length) (data ws : List K) :
    ((List.range (edges.length - 1)).map fun j => weightOf (CountedIn edges j) data ws).sum
      = weightOf (InRangeOf edges) data ws := by
  classical
  unfold weightOf
  induction data.zip ws with
  | nil => simp
  | cons p l ih =>
    simp only [List.map_cons, List.sum_cons]
    rw [← ih, List.sum_map_add]
    congr 1
    by_cases h : InRangeOf edges p.1
    · rw [if_pos h]
      obtain ⟨j, hjl, hj⟩ := countedIn_exists hs hl h
      rw [← List.sum_toFinset _ List.nodup_range, List.toFinset_range]
      rw [Finset.sum_eq_single j]
      · convert if_pos hj
      · intro i _ hij
        convert if_neg (c := CountedIn edges i p.1) _
        intro hi
        rcases Nat.lt_or_gt_of_ne hij with h' | h'
        · exact countedIn_unique hs hi hj h'
        · exact countedIn_unique hs hj hi h'
      · intro h'; exact absurd (Finset.mem_range.mpr (by omega)) h'
    · rw [if_neg h]
      apply List.sum_eq_zero
      intro y hy
      obtain ⟨j, _, rfl⟩ := List.mem_map.mp hy
      convert if_neg (c := CountedIn edges j p.1) _
      exact fun h' => h (countedIn_range hs h')

omit [LinearOrder K] [IsStrictOrderedRing K] in
lemma weightOf_all (P : K → Prop) (data ws : List K) (hl : ws.length = data.length) (h : ∀ x ∈ data, P x) :
    weightOf P data ws = ws.sum := by
  classical
  unfold weightOf
  congr 1
  apply List.ext_getElem
  · simp [hl]
  intro i h1 h2
  simp only [List.getElem_map, List.getElem_zip]
  have : P (data[i]'(by omega)) := h _ (List.getElem_mem _)
  convert if_pos this

/-- **C44.** The total of the counts is the total weight of the data in range; with `probability=True` it
is the fraction of the weight that is in range, hence 1 if all data are in range. -/
theorem C44_total (data edges : List K) (weights : Option (List K)) (hs : edges.Pairwise (· ≤ ·))
    (hl : 2 ≤ edges.length) (hw : ∀ w, weights = some w → w.length = data.length)
    (ht : totalWeight data weights ≠ 0) :
    ∃ h p, histogram data edges weights = .ok (h, edges) ∧
      histogram data edges weights false true = .ok (p, edges) ∧
      h.sum = weightOf (InRangeOf edges) data (weights.getD (data.map fun _ => 1)) ∧
      p.sum = h.sum / totalWeight data weights ∧
      ((∀ x ∈ data, InRangeOf edges x) → p.sum = 1) := by
  have hsum := sum_weightOf hs hl data (weights.getD (data.map fun _ => 1))
  have hp : ∀ l : List K, (l.map (· / totalWeight data weights)).sum = l.sum / totalWeight data weights := by
    intro l
    simp only [div_eq_mul_inv]
    rw [List.sum_map_mul_right, List.map_id']
  have e2 : histogram data edges weights false true =
      .ok (((List.range (edges.length - 1)).map fun j => weightOf (CountedIn edges j) data
        (weights.getD (data.map fun _ => 1))).map (· / totalWeight data weights), edges) := by
    unfold histogram; rw [npHistogram_eq hs hw]
    simp only [Bool.false_eq_true, false_and, if_false, true_and, if_true]
    rw [if_neg ht]
  have e1 : histogram data edges weights = .ok ((List.range (edges.length - 1)).map fun j =>
      weightOf (CountedIn edges j) data (weights.getD (data.map fun _ => 1)), edges) := by
    unfold histogram; rw [npHistogram_eq hs hw]; simp
  refine ⟨_, _, e1, e2, hsum, hp _, ?_⟩
  intro hall
  rw [hp, hsum, weightOf_all _ _ _ _ hall]
  · have : (weights.getD (data.map fun _ => 1)).sum = totalWeight data weights := by
      cases weights with
      | none => simp [totalWeight]
      | some w => simp [totalWeight]
    rw [this, div_self ht]
  · cases weights with
    | none => simp
    | some w => simpa using hw w rfl

/-- **C44.** With `density=True` each count is divided by the width of its bin: multiplying by the widths
and adding up (the integral of the histogram) gives the weight in range, or with `probability=True` its
fraction of the total, which is 1 if all data are in range. -/
theorem C44_density (data edges : List K) (weights : Option (List K)) (hs : edges.Pairwise (· < ·))
    (hl : 2 ≤ edges.length) (hw : ∀ w, weights = some w → w.length = data.length)
    (ht : totalWeight data weights ≠ 0) :
    ∃ d p, histogram data edges weights true false = .ok (d, edges) ∧
      histogram data edges weights true true = .ok (p, edges) ∧
      d.length = edges.length - 1 ∧ p.length = edges.length - 1 ∧
      (∀ j, j < edges.length - 1 → d.getD j 0 * (edges.getD (j + 1) 0 - edges.getD j 0)
        = weightOf (CountedIn edges j) data (weights.getD (data.map fun _ => 1))) ∧
      (∑ j ∈ range (edges.length - 1), d.getD j 0 * (edges.getD (j + 1) 0 - edges.getD j 0))
        = weightOf (InRangeOf edges) data (weights.getD (data.map fun _ => 1)) ∧
      (∑ j ∈ range (edges.length - 1), p.getD j 0 * (edges.getD (j + 1) 0 - edges.getD j 0))
        = weightOf (InRangeOf edges) data (weights.getD (data.map fun _ => 1)) / totalWeight data weights ∧
      ((∀ x ∈ data, InRangeOf edges x) →
        (∑ j ∈ range (edges.length - 1), p.getD j 0 * (edges.getD (j + 1) 0 - edges.getD j 0)) = 1) := by
  have hs' : edges.Pairwise (· ≤ ·) := hs.imp fun h => h.le
  set ws := weights.getD (data.map fun _ => 1) with hws
  set cnt := (List.range (edges.length - 1)).map fun j => weightOf (CountedIn edges j) data ws with hcnt
  have hd : (npDiff edges).length = edges.length - 1 := by simp [npDiff]
  have hdget : ∀ j (h : j < edges.length - 1), (npDiff edges)[j]'(by omega)
      = edges.getD (j + 1) 0 - edges.getD j 0 := by
    intro j h
    rw [List.getD_eq_getElem _ _ (by omega), List.getD_eq_getElem _ _ (by omega)]
    simp [npDiff]
  have hpos : ∀ j, j < edges.length - 1 → 0 < edges.getD (j + 1) 0 - edges.getD j 0 := by
    intro j h
    rw [List.getD_eq_getElem _ _ (by omega), List.getD_eq_getElem _ _ (by omega), sub_pos]
    exact List.pairwise_iff_getElem.mp hs _ _ _ _ (by omega)
  have h0 : (0 : K) ∉ npDiff edges := by
    intro h
    obtain ⟨j, hj, e⟩ := List.getElem_of_mem h
    rw [hd] at hj
    rw [hdget j hj] at e
    exact (hpos j hj).ne' e
  have e1 : histogram data edges weights true false =
      .ok (List.zipWith (· / ·) cnt (npDiff edges), edges) := by
    unfold histogram; rw [npHistogram_eq hs' hw]
    simp only [true_and, if_neg h0, Bool.false_eq_true, false_and, if_false, if_true]
    rfl
  have e2 : histogram data edges weights true true =
      .ok ((List.zipWith (· / ·) cnt (npDiff edges)).map (· / totalWeight data weights), edges) := by
    unfold histogram; rw [npHistogram_eq hs' hw]
    simp only [true_and, if_neg h0, if_true]
    rw [if_neg ht]
  have hcl : cnt.length = edges.length - 1 := by simp [hcnt]
  have hdl : (List.zipWith (· / ·) cnt (npDiff edges)).length = edges.length - 1 := by
    rw [List.length_zipWith, hcl, hd, min_self]
  have hdj : ∀ j, j < edges.length - 1 → (List.zipWith (· / ·) cnt (npDiff edges)).getD j 0
      * (edges.getD (j + 1) 0 - edges.getD j 0) = weightOf (CountedIn edges j) data ws := by
    intro j hj
    rw [List.getD_eq_getElem _ _ (by omega)]
    simp only [List.getElem_zipWith]
    rw [hdget j hj, div_mul_cancel₀ _ (hpos j hj).ne']
    simp [hcnt]
  have hsum := sum_weightOf hs' hl data ws
  rw [← List.sum_toFinset _ List.nodup_range, List.toFinset_range] at hsum
  have hS : (∑ j ∈ range (edges.length - 1), (List.zipWith (· / ·) cnt (npDiff edges)).getD j 0
      * (edges.getD (j + 1) 0 - edges.getD j 0)) = weightOf (InRangeOf edges) data ws := by
    rw [← hsum]
    exact Finset.sum_congr rfl fun j hj => hdj j (Finset.mem_range.mp hj)
  have hP : (∑ j ∈ range (edges.length - 1),
      ((List.zipWith (· / ·) cnt (npDiff edges)).map (· / totalWeight data weights)).getD j 0
      * (edges.getD (j + 1) 0 - edges.getD j 0)) = weightOf (InRangeOf edges) data ws / totalWeight data weights := by
    rw [← hS, Finset.sum_div]
    refine Finset.sum_congr rfl fun j hj => ?_
    have hj' := Finset.mem_range.mp hj
    rw [List.getD_eq_getElem _ _ (by simp only [List.length_map]; omega), List.getElem_map,
      List.getD_eq_getElem (List.zipWith _ _ _) _ (by omega)]
    ring
  refine ⟨_, _, e1, e2, hdl, by rw [List.length_map, hdl], hdj, hS, hP, ?_⟩
  intro hall
  rw [hP, weightOf_all _ _ _ _ hall]
  · have : ws.sum = totalWeight data weights := by
      cases weights with
      | none => simp [hws, totalWeight]
      | some w => simp [hws, totalWeight]
    rw [this, div_self ht]
  · cases weights with
    | none => simp [hws]
    | some w => simpa [hws] using hw w rfl

example : histogram [(0 : ℚ), 1, 2, 1 / 2, 5] [0, 1, 2] none = .ok ([2, 2], [0, 1, 2]) := by
  have h5 : ¬ (5 : ℚ) ≤ 2 := by norm_num
  have h6 : (1 / 2 : ℚ) < 1 := by norm_num
  norm_num [histogram, npHistogram, inHistBin, List.range_succ]

end Kalepy
