import Verif.Model.QuantilesAxis
import Verif.Props.Quantiles

/-!
# C116: quantiles along an axis
-/

namespace Kalepy

variable {K : Type*} [Field K] [LinearOrder K] [IsStrictOrderedRing K]

/-! ## Specification -/

/-- Line `k` of a 2D array: its column `k` (`axis=0`) or its row `k` (`axis=1`). -/
def Spec.IsLine {m n : ℕ} {α : Type*} (first : Bool) (a : Fin m → Fin n → α) (k : ℕ) (l : List α) : Prop :=
  if first then ∃ h : k < n, l = List.ofFn fun i => a i ⟨k, h⟩ else ∃ h : k < m, l = List.ofFn fun j => a ⟨k, h⟩ j

/-- `r` are the quantiles of each line of the array, as `quantiles` of this line alone gives them. -/
def Spec.LineQuantiles {m n : ℕ} (srt : List K → List ℕ) (values weights : Fin m → Fin n → K) (percs : List K)
    (first : Bool) (r : List (List K)) : Prop :=
  r.length = (if first then n else m) ∧
  ∀ k v w, Spec.IsLine first values k v → Spec.IsLine first weights k w →
    ∃ q, r[k]? = some q ∧ quantiles srt v percs (some w) = .ok q

/-- Weights without a vanishing line. -/
def Spec.LineWeights {m n : ℕ} (weights : Fin m → Fin n → K) (first : Bool) : Prop :=
  ∀ k w, Spec.IsLine first weights k w → 0 < w.sum

/-! ## Proofs -/

lemma linesOf_length {m n : ℕ} {α : Type*} (first : Bool) (a : Fin m → Fin n → α) :
    (linesOf first a).length = if first then n else m := by
  cases first <;> simp [linesOf]

lemma linesOf_get {m n : ℕ} {α : Type*} {first : Bool} {a : Fin m → Fin n → α} {k : ℕ} {l : List α} :
    (linesOf first a)[k]? = some l ↔ Spec.IsLine first a k l := by
  cases first <;> simp only [linesOf, Spec.IsLine, Bool.false_eq_true, if_false, if_true] <;>
    rw [List.getElem?_eq_some_iff] <;> simp [eq_comm]

lemma isLine_length {m n : ℕ} {α : Type*} {first : Bool} {a : Fin m → Fin n → α} {k : ℕ} {l : List α}
    (h : Spec.IsLine first a k l) : l.length = if first then m else n := by
  cases first <;> simp only [Spec.IsLine, Bool.false_eq_true, if_false, if_true] at h <;> obtain ⟨_, rfl⟩ := h <;> simp

lemma quantileLine_replicate {srt : List K → List ℕ} {v w percs : List K} (hs : IsArgsort (srt v) v)
    (hl : w.length = v.length) (hne : v ≠ []) (h0 : w.sum ≠ 0) (hp : ∀ p ∈ percs, 0 ≤ p ∧ p ≤ 1) :
    quantiles srt v percs (some w) = .ok (quantileLine percs (sortLine srt false (v, w))
      (List.replicate v.length w.sum)) := by
  rw [quantiles_eq hs hl hne h0 hp]
  simp only [quantileLine, sortLine, Bool.false_eq_true, if_false]
  congr 2
  funext p
  congr 1
  have hlen : ((srt v).map fun i => w.getD i 0).length = v.length := by
    rw [(sorted_weights_perm hs hl).length_eq, hl]
  unfold quantileGrid
  rw [(sorted_weights_perm hs hl).sum_eq]
  apply List.ext_getElem
  · simp [npCumsum_length]
    simpa using hlen.le
  · intro i h1 h2
    simp

/-- **C116, full statement**: `quantiles(values, percs, weights, axis=...)` gives the quantiles of each line of
the array, for every 2D array with nonnegative weights that do not vanish along a line. -/
def C116_Claim : Prop :=
  ∀ (m n : ℕ) (srt : List ℝ → List ℕ), (∀ l, IsArgsort (srt l) l) → ∀ (values weights : Fin m → Fin n → ℝ)
    (percs : List ℝ) (first : Bool), 0 < m → 0 < n → (∀ i j, 0 ≤ weights i j) → Spec.LineWeights weights first →
    (∀ p ∈ percs, 0 ≤ p ∧ p ≤ 1) →
    ∃ r, quantilesAxis srt values percs (some weights) first = .ok r ∧
      Spec.LineQuantiles srt values weights percs first r

/-- **C116, as far as it holds** (the full statement is `C116_Claim`): along the last axis always; along the first
axis if there is a single column, or if the array is square and the weights of all columns have the same sum (for
example without weights). -/
theorem C116_partial {m n : ℕ} {srt : List K → List ℕ} (hs : ∀ l, IsArgsort (srt l) l)
    (values weights : Fin m → Fin n → K) (percs : List K) (first : Bool) (hm : 0 < m) (hn : 0 < n)
    (hw : Spec.LineWeights weights first) (hp : ∀ p ∈ percs, 0 ≤ p ∧ p ≤ 1)
    (hf : first = true → n = 1 ∨ (m = n ∧ ∃ s, ∀ k w, Spec.IsLine true weights k w → w.sum = s)) :
    ∃ r, quantilesAxis srt values percs (some weights) first = .ok r ∧
      Spec.LineQuantiles srt values weights percs first r := by
  have hline : ∀ k l, ((List.zip (linesOf first values) (linesOf first weights)).map (sortLine srt false))[k]? = some l ↔
      ∃ v w, Spec.IsLine first values k v ∧ Spec.IsLine first weights k w ∧ sortLine srt false (v, w) = l := by
    intro k l
    rw [List.getElem?_map, Option.map_eq_some_iff]
    constructor
    · rintro ⟨⟨v, w⟩, h, rfl⟩
      rw [List.getElem?_zip_eq_some] at h
      exact ⟨v, w, linesOf_get.mp h.1, linesOf_get.mp h.2, rfl⟩
    · rintro ⟨v, w, h1, h2, rfl⟩
      exact ⟨(v, w), by rw [List.getElem?_zip_eq_some]; exact ⟨linesOf_get.mpr h1, linesOf_get.mpr h2⟩, rfl⟩
  have hsum : ∀ v w, w.length = v.length → (sortLine srt false (v, w)).2.sum = w.sum := by
    intro v w h
    simp only [sortLine, Bool.false_eq_true, if_false]
    exact (sorted_weights_perm (hs v) h).sum_eq
  set lines := (List.zip (linesOf first values) (linesOf first weights)).map (sortLine srt false) with hlines
  have hlen : lines.length = if first then n else m := by
    simp [hlines, linesOf_length]
  have hdims : ∀ k v w, Spec.IsLine first values k v → Spec.IsLine first weights k w → w.length = v.length :=
    fun k v w h1 h2 => (isLine_length h2).trans (isLine_length h1).symm
  unfold quantilesAxis
  simp only [Option.getD_some]
  rw [if_neg (by simpa using hp), if_neg, if_neg, if_neg]
  · refine ⟨_, rfl, by rw [List.length_map]; exact hlen, ?_⟩
    intro k v w hv hw'
    have hk := (hline k _).mpr ⟨v, w, hv, hw', rfl⟩
    rw [List.getElem?_map, hk]
    refine ⟨_, rfl, ?_⟩
    have hvl := isLine_length hv
    have hne : v ≠ [] := by
      intro h
      rw [h] at hvl
      cases first <;> simp at hvl <;> omega
    rw [quantileLine_replicate (hs v) (hdims k v w hv hw') hne (hw k w hw').ne' hp, ← hlines]
    beta_reduce
    rw [hsum v w (hdims k v w hv hw'), hvl]
    congr 2
    cases hfirst : first with
    | false => simp
    | true =>
      subst hfirst
      simp only [if_true]
      rcases hf rfl with h1 | ⟨h1, s, hsm⟩
      · subst h1
        have hk0 : k = 0 := by
          simp only [Spec.IsLine, if_true] at hv
          obtain ⟨h, _⟩ := hv
          omega
        subst hk0
        have h0 : ((lines.map fun l => l.2.sum)).getD 0 0 = w.sum := by
          rw [List.getD_eq_getElem?_getD, List.getElem?_map, hk, Option.map_some, Option.getD_some]
          exact hsum v w (hdims 0 v w hv hw')
        by_cases hm1 : m = 1
        · subst hm1
          rw [if_pos rfl]
          have hl1 : (lines.map fun l => l.2.sum).length = 1 := by rw [List.length_map, hlen]; simp
          obtain ⟨x, hx⟩ := List.length_eq_one_iff.mp hl1
          rw [hx] at h0 ⊢
          simp only [List.getD_cons_zero] at h0
          simp [h0]
        · rw [if_neg hm1, h0]
      · subst h1
        rw [if_pos rfl, eq_comm, List.eq_replicate_iff]
        refine ⟨by rw [List.length_map, hlen]; simp, ?_⟩
        intro b hb
        rw [List.mem_map] at hb
        obtain ⟨l, hl, rfl⟩ := hb
        obtain ⟨j, hj, rfl⟩ := List.getElem_of_mem hl
        obtain ⟨v', w', hv', hw'', he⟩ := (hline j _).mp (List.getElem?_eq_getElem hj)
        rw [← he, hsum v' w' (hdims j v' w' hv' hw''), hsm j w' hw'', hsm k w hw']
  · rintro ⟨s, hs1, rfl⟩
    rw [List.mem_map] at hs1
    obtain ⟨l, hl, h0⟩ := hs1
    obtain ⟨j, hj, rfl⟩ := List.getElem_of_mem hl
    obtain ⟨v', w', hv', hw'', he⟩ := (hline j _).mp (List.getElem?_eq_getElem hj)
    rw [← he, hsum v' w' (hdims j v' w' hv' hw'')] at h0
    exact (hw j w' hw'').ne' h0
  · rintro ⟨_, h⟩
    cases first <;> simp at h <;> omega
  · rintro ⟨h1, h2, h3⟩
    rcases hf h1 with h | ⟨h, _⟩ <;> contradiction

/-- Along the first axis of an array that is neither square nor a single column, `quantiles` raises `ValueError`. -/
theorem C116_fails {m n : ℕ} (srt : List K → List ℕ) (values : Fin m → Fin n → K)
    (weights : Option (Fin m → Fin n → K)) (percs : List K) (hp : ∀ p ∈ percs, 0 ≤ p ∧ p ≤ 1) (h1 : m ≠ n)
    (h2 : n ≠ 1) (sorted : Bool) : quantilesAxis srt values percs weights true sorted = .error .valueError := by
  unfold quantilesAxis
  simp only
  rw [if_neg (by simpa using hp), if_pos (by simp [h1, h2])]

/-- **C116 is false of the code**: the medians of the columns of a 2 by 3 array. -/
theorem C116_refuted : ¬ C116_Claim := by
  intro h
  obtain ⟨srt, hs⟩ := exists_argsort
  obtain ⟨r, hr, _⟩ := h 2 3 srt hs (fun i j => i + j) (fun _ _ => 1) [1 / 2] true (by norm_num) (by norm_num)
    (by simp) (by
      intro k w hk
      simp only [Spec.IsLine, if_true] at hk
      obtain ⟨_, rfl⟩ := hk
      simp) (by norm_num)
  rw [C116_fails srt _ _ _ (by norm_num) (by norm_num) (by norm_num)] at hr
  cases hr

/-- A square array whose columns have weights of different sums gives wrong quantiles silently: the second column is
`0, 1` with weights `3, 3`, its median is `1/2`, and `quantiles` says `0`. -/
theorem C116_square_wrong :
    quantilesAxis (K := ℚ) (fun l => List.range l.length) (fun i _ : Fin 2 => (i : ℚ)) [1 / 2]
      (some fun _ j => if j = 0 then 1 else 3) true = .ok [[1], [0]] ∧
    quantiles (K := ℚ) (fun l => List.range l.length) [0, 1] [1 / 2] (some [1, 1]) = .ok [1 / 2] ∧
    quantiles (K := ℚ) (fun l => List.range l.length) [0, 1] [1 / 2] (some [3, 3]) = .ok [1 / 2] := by
  refine ⟨?_, ?_, ?_⟩
  · decide +kernel
  · decide +kernel
  · decide +kernel

/-- Without weights, a square array is fine. -/
example : ∃ (srt : List ℝ → List ℕ) (r : List (List ℝ)),
    quantilesAxis srt (fun i j : Fin 3 => (i : ℝ) * j) [1 / 4, 1 / 2] (some fun _ _ => 1) true = .ok r ∧
      Spec.LineQuantiles srt (fun i j : Fin 3 => (i : ℝ) * j) (fun _ _ => 1) [1 / 4, 1 / 2] true r := by
  obtain ⟨srt, hs⟩ := exists_argsort
  have hl : ∀ k w, Spec.IsLine true (fun _ _ : Fin 3 => (1 : ℝ)) k w → w.sum = 3 := by
    intro k w hk
    simp only [Spec.IsLine, if_true] at hk
    obtain ⟨_, rfl⟩ := hk
    norm_num [List.ofFn_succ]
  obtain ⟨r, hr⟩ := C116_partial hs (fun i j : Fin 3 => (i : ℝ) * j) (fun _ _ => 1) [1 / 4, 1 / 2] true (by norm_num)
    (by norm_num) (fun k w hk => by rw [hl k w hk]; norm_num) (by norm_num) fun _ => Or.inr ⟨rfl, 3, hl⟩
  exact ⟨srt, r, hr⟩

end Kalepy
