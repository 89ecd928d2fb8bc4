import Mathlib.Data.Fin.VecNotation
import Mathlib.Tactic.FinCases
import Verif.Props.Minmax
import Verif.Spec.Parse

/-!
# C20, C21, C64: the `reflect` argument
-/

namespace Kalepy

open Spec

lemma dataRow_eq {d : ℕ} (data : List (Fin d → ℝ)) (i : Fin d) : dataRow data i = data.map (· i) := rfl

lemma npMinR_eq {l : List ℝ} {lo hi : ℝ} (h : IsExtrema l lo hi) : npMinR l = .ok lo := by
  cases l with
  | nil => exact absurd h.1 (by simp)
  | cons a l =>
    have := npMin_spec a l
    simp only [npMinR, Except.ok.injEq]
    exact le_antisymm (this.2 _ h.1) (h.2.2 _ this.1).1

lemma npMaxR_eq {l : List ℝ} {lo hi : ℝ} (h : IsExtrema l lo hi) : npMaxR l = .ok hi := by
  cases l with
  | nil => exact absurd h.1 (by simp)
  | cons a l =>
    have := npMax_spec a l
    simp only [npMaxR, Except.ok.injEq]
    exact le_antisymm (h.2.2 _ this.1).2 (this.2 _ h.2.1)

lemma fillLo_iff {l : List ℝ} {lo hi : ℝ} (h : IsExtrema l lo hi) (v : RefVal) (o : Option ℝ) :
    fillLo l v = .ok o ↔ Boundary (lo * (1 - 1 / 10 ^ 8)) v o := by
  cases v <;> simp [fillLo, Boundary, npMinR_eq h, Except.map, numPad, eq_comm]

lemma fillHi_iff {l : List ℝ} {lo hi : ℝ} (h : IsExtrema l lo hi) (v : RefVal) (o : Option ℝ) :
    fillHi l v = .ok o ↔ Boundary (hi * (1 + 1 / 10 ^ 8)) v o := by
  cases v <;> simp [fillHi, Boundary, npMaxR_eq h, Except.map, numPad, eq_comm]

lemma fillLo_ok {l : List ℝ} {lo hi : ℝ} (h : IsExtrema l lo hi) (v : RefVal) : ∃ o, fillLo l v = .ok o := by
  cases v <;> simp [fillLo, npMinR_eq h, Except.map]

lemma fillHi_ok {l : List ℝ} {lo hi : ℝ} (h : IsExtrema l lo hi) (v : RefVal) : ∃ o, fillHi l v = .ok o := by
  cases v <;> simp [fillHi, npMaxR_eq h, Except.map]

lemma orderedPair_iff (p q : Option ℝ × Option ℝ) :
    orderedPair p = .ok q ↔ q = p ∧ Ordered p.1 p.2 := by
  obtain ⟨lo, hi⟩ := p
  cases lo <;> cases hi <;> simp only [orderedPair, Ordered]
  · simp [eq_comm]
  · simp [eq_comm]
  · simp [eq_comm]
  · split_ifs with h
    · simp [not_lt.mpr h]
    · simp [not_le.mp h, eq_comm]

lemma orderedPair_error {p : Option ℝ × Option ℝ} (h : ¬ Ordered p.1 p.2) :
    orderedPair p = .error .valueError := by
  obtain ⟨lo, hi⟩ := p
  cases lo <;> cases hi <;> simp_all [orderedPair, Ordered]

lemma map_some_ok {α : Type*} {x : Res α} {r : Option α} :
    x.map some = .ok r ↔ ∃ a, r = some a ∧ x = .ok a := by
  cases x with
  | error e => simp [Except.map]
  | ok a => simp [Except.map, eq_comm]

lemma seq_iff {l : List ℝ} {mn mx : ℝ} (h : IsExtrema l mn mx) (a b : RefVal) (r : ReflRow) :
    checkDim l (.seq [a, b]) = .ok r ↔ ∃ lo hi, r = some (lo, hi) ∧
      Boundary (mn * (1 - 1 / 10 ^ 8)) a lo ∧ Boundary (mx * (1 + 1 / 10 ^ 8)) b hi ∧ Ordered lo hi := by
  obtain ⟨lo, hlo⟩ := fillLo_ok h a
  obtain ⟨hi, hhi⟩ := fillHi_ok h b
  simp only [checkDim, hlo, hhi]
  rw [map_some_ok]
  constructor
  · rintro ⟨p, rfl, hp⟩
    obtain ⟨rfl, ho⟩ := (orderedPair_iff _ _).mp hp
    exact ⟨lo, hi, rfl, (fillLo_iff h _ _).mp hlo, (fillHi_iff h _ _).mp hhi, ho⟩
  · rintro ⟨lo', hi', rfl, h1, h2, h3⟩
    rw [← fillLo_iff h, hlo] at h1
    rw [← fillHi_iff h, hhi] at h2
    cases h1; cases h2
    exact ⟨_, rfl, (orderedPair_iff _ _).mpr ⟨rfl, h3⟩⟩

lemma seq_error {l : List ℝ} {mn mx : ℝ} (h : IsExtrema l mn mx) (a b : RefVal)
    (hn : ∀ r, checkDim l (.seq [a, b]) ≠ .ok r) : checkDim l (.seq [a, b]) = .error .valueError := by
  obtain ⟨lo, hlo⟩ := fillLo_ok h a
  obtain ⟨hi, hhi⟩ := fillHi_ok h b
  have := hn (some (lo, hi))
  rw [Ne, seq_iff h] at this
  have ho : ¬ Ordered lo hi := fun ho =>
    this ⟨lo, hi, rfl, (fillLo_iff h _ _).mp hlo, (fillHi_iff h _ _).mp hhi, ho⟩
  simp [checkDim, hlo, hhi, orderedPair_error (p := (lo, hi)) ho, Except.map]

lemma checkDim_true (l : List ℝ) : checkDim l .true = checkDim l (.seq [.true, .true]) := rfl

/-- `checkDim` decides `RowMeans`. -/
lemma checkDim_iff {l : List ℝ} {mn mx : ℝ} (h : IsExtrema l mn mx) (g : RefDim) (r : ReflRow) :
    checkDim l g = .ok r ↔ RowMeans mn mx g r := by
  cases g with
  | none => simp [checkDim, RowMeans, eq_comm]
  | num x => simp [checkDim, RowMeans]
  | «true» =>
    rw [checkDim_true, seq_iff h]
    simp only [RowMeans, Boundary, reduceCtorEq, false_and, false_or, true_and, exists_false, or_false]
    constructor
    · rintro ⟨lo, hi, rfl, rfl, rfl, ho⟩
      exact ⟨_, _, rfl, rfl, rfl, ho _ _ rfl rfl⟩
    · rintro ⟨lo, hi, rfl, rfl, rfl, ho⟩
      refine ⟨_, _, rfl, rfl, rfl, ?_⟩
      rintro a b ⟨⟩ ⟨⟩
      exact ho
  | seq s =>
    match s with
    | [] => simp [checkDim, RowMeans]
    | [a] => simp [checkDim, RowMeans]
    | [a, b] =>
      rw [seq_iff h]
      simp [RowMeans]
    | a :: b :: c :: s => simp [checkDim, RowMeans]

lemma checkDim_error {l : List ℝ} {mn mx : ℝ} (h : IsExtrema l mn mx) (g : RefDim)
    (hn : ∀ r, checkDim l g ≠ .ok r) : checkDim l g = .error .valueError := by
  cases g with
  | none => simp [checkDim] at hn
  | num x => rfl
  | «true» => rw [checkDim_true] at *; exact seq_error h _ _ hn
  | seq s =>
    match s with
    | [] => rfl
    | [a] => rfl
    | [a, b] => exact seq_error h _ _ hn
    | a :: b :: c :: s => rfl

lemma rowMeans_good {mn mx : ℝ} {g : RefDim} {r : ReflRow} (h : RowMeans mn mx g r) : g.good = true := by
  obtain ⟨rfl, _⟩ | ⟨rfl, _⟩ | ⟨a, b, lo, hi, rfl, _⟩ := h <;> simp [RefDim.good]

/-- The loop over the dimensions. -/
lemma checkDims_ok {d : ℕ} {data : List (Fin d → ℝ)} (hne : data ≠ []) : ∀ (l : List RefDim) (k : ℕ)
    (_ : k + l.length = d) (rows : List ReflRow),
    checkDims data k l = .ok rows ↔ rows.length = l.length ∧ ∀ (j : ℕ) (h : k + j < d) (g : RefDim)
      (r : ReflRow), l[j]? = some g → rows[j]? = some r → checkDim (dataRow data ⟨k + j, h⟩) g = .ok r := by
  intro l
  induction l with
  | nil =>
    intro k hk rows
    simp only [checkDims, Except.ok.injEq, List.length_nil, List.length_eq_zero_iff]
    constructor
    · rintro rfl; simp
    · exact fun h => h.1.symm
  | cons g l ih =>
    intro k hk rows
    simp only [List.length_cons] at hk
    have hk' : k < d := by omega
    simp only [checkDims, dif_pos hk']
    constructor
    · intro h
      split at h
      · cases h
      · rename_i r' hr'
        split at h
        · cases h
        · rename_i l' hl'
          cases h
          obtain ⟨h1, h2⟩ := (ih (k + 1) (by omega) l').mp hl'
          refine ⟨by simp [h1], ?_⟩
          intro j hj g' r hg hr
          cases j with
          | zero => simp at hg hr; subst hg hr; exact hr'
          | succ j =>
            have := h2 j (by omega) g' r (by simpa using hg) (by simpa using hr)
            simpa [Nat.add_comm, Nat.add_left_comm, Nat.add_assoc] using this
    · rintro ⟨h1, h2⟩
      cases rows with
      | nil => simp at h1
      | cons r' rows =>
        have e0 := h2 0 (by omega) g r' (by simp) (by simp)
        simp only [Nat.add_zero] at e0
        rw [e0]
        have e1 := (ih (k + 1) (by omega) rows).mpr ⟨by simpa using h1, by
          intro j hj g' r hg hr
          have := h2 (j + 1) (by omega) g' r (by simpa using hg) (by simpa using hr)
          simpa [Nat.add_comm, Nat.add_left_comm, Nat.add_assoc] using this⟩
        simp only [e1]

lemma checkDims_error {d : ℕ} {data : List (Fin d → ℝ)} (hne : data ≠ []) : ∀ (l : List RefDim) (k : ℕ)
    (_ : k + l.length = d), (∃ rows, checkDims data k l = .ok rows) ∨ checkDims data k l = .error .valueError := by
  intro l
  induction l with
  | nil => intro k _; exact Or.inl ⟨[], rfl⟩
  | cons g l ih =>
    intro k hk
    simp only [List.length_cons] at hk
    have hk' : k < d := by omega
    simp only [checkDims, dif_pos hk']
    obtain ⟨mn, mx, he⟩ := exists_extrema (data := dataRow data ⟨k, hk'⟩) (by simpa [dataRow] using hne)
    by_cases h : ∃ r, checkDim (dataRow data ⟨k, hk'⟩) g = .ok r
    · obtain ⟨r, hr⟩ := h
      rw [hr]
      obtain ⟨rows, hrows⟩ | he := ih (k + 1) (by omega)
      · exact Or.inl ⟨r :: rows, by simp [hrows]⟩
      · exact Or.inr (by simp [he])
    · push Not at h
      right
      rw [checkDim_error he g h]

/-- All rows of the argument have a meaning. -/
def RowsMean {d : ℕ} (data : List (Fin d → ℝ)) (l : List RefDim) (rows : List ReflRow) : Prop :=
  l.length = d ∧ rows.length = d ∧ ∀ (i : Fin d) (mn mx : ℝ), IsExtrema (data.map (· i)) mn mx →
    ∃ g r, l[(i : ℕ)]? = some g ∧ rows[(i : ℕ)]? = some r ∧ RowMeans mn mx g r

lemma checkDims_iff {d : ℕ} {data : List (Fin d → ℝ)} (hne : data ≠ []) (l : List RefDim)
    (hl : l.length = d) (rows : List ReflRow) : checkDims data 0 l = .ok rows ↔ RowsMean data l rows := by
  rw [checkDims_ok hne l 0 (by omega)]
  unfold RowsMean
  constructor
  · rintro ⟨h1, h2⟩
    refine ⟨hl, by omega, ?_⟩
    intro i mn mx he
    have a1 : l[(i : ℕ)]? = some (l[(i : ℕ)]'(by omega)) := by simp
    have a2 : rows[(i : ℕ)]? = some (rows[(i : ℕ)]'(by omega)) := by simp
    refine ⟨_, _, a1, a2, ?_⟩
    have := h2 i (by omega) _ _ a1 a2
    simp only [Nat.zero_add] at this
    exact (checkDim_iff (l := dataRow data i) he _ _).mp this
  · rintro ⟨_, h1, h2⟩
    refine ⟨by omega, ?_⟩
    intro j hj g r hg hr
    simp only [Nat.zero_add] at hj ⊢
    obtain ⟨mn, mx, he⟩ := exists_extrema (data := data.map (· (⟨j, hj⟩ : Fin d))) (by simpa using hne)
    obtain ⟨g', r', hg', hr', hm⟩ := h2 ⟨j, hj⟩ mn mx he
    simp only at hg' hr'
    rw [hg] at hg'; rw [hr] at hr'
    cases hg'; cases hr'
    exact (checkDim_iff (l := dataRow data ⟨j, hj⟩) he _ _).mpr hm

lemma RowsMean.all_good {d : ℕ} {data : List (Fin d → ℝ)} (hne : data ≠ []) {l : List RefDim}
    {rows : List ReflRow} (h : RowsMean data l rows) : l.all RefDim.good = true := by
  rw [List.all_eq_true]
  intro g hg
  obtain ⟨i, hi, rfl⟩ := List.getElem_of_mem hg
  have hid : i < d := by have := h.1; omega
  obtain ⟨mn, mx, he⟩ := exists_extrema (data := data.map (· (⟨i, hid⟩ : Fin d))) (by simpa using hne)
  obtain ⟨g', r', hg', hr', hm⟩ := h.2.2 ⟨i, hid⟩ mn mx he
  simp only [List.getElem?_eq_getElem hi, Option.some.injEq] at hg'
  rw [hg']
  exact rowMeans_good hm

lemma reflectRows_of_not {d : ℕ} {l : List RefDim} (h : ¬ (d = 1 ∧ l.length = 2)) :
    reflectRows d l = if l.length ≠ d then .error .valueError
      else if ¬ l.all RefDim.good then .error .valueError else .ok l := by
  unfold reflectRows
  match d, l with
  | 0, l => rfl
  | 1, [] => rfl
  | 1, [a] => rfl
  | 1, [a, b] => simp at h
  | 1, a :: b :: c :: l => rfl
  | d + 2, l => rfl

/-- **C20**, one entry per dimension.  For non-empty data, a list `l` is accepted exactly if it has one
entry per dimension and each entry is `None`, `True` or a list of two boundaries in increasing order; the
result then has one row per dimension with the stated meaning (numbers unchanged).  Every other list
raises `ValueError`.  (A list of two values for one-dimensional data is treated in `C20_flat`.) -/
theorem C20_list {d : ℕ} (data : List (Fin d → ℝ)) (hne : data ≠ []) (l : List RefDim)
    (h2 : ¬ (d = 1 ∧ l.length = 2)) :
    (∀ rows, checkReflect data (.rows l) = .ok (some rows) ↔ RowsMean data l rows) ∧
    (checkReflect data (.rows l) ≠ .ok none) ∧
    ((∀ rows, ¬ RowsMean data l rows) → checkReflect data (.rows l) = .error .valueError) := by
  simp only [checkReflect, reflectRows_of_not h2]
  by_cases hl : l.length = d
  · rw [if_neg (by simpa using hl)]
    by_cases hg : l.all RefDim.good = true
    · rw [if_neg (by simpa using hg)]
      refine ⟨?_, ?_, ?_⟩
      · intro rows
        rw [← checkDims_iff hne l hl, map_some_ok]
        simp
      · rw [Ne, map_some_ok]; simp
      · intro hn
        obtain ⟨rows, hr⟩ | he := checkDims_error hne l 0 (by omega)
        · exact absurd ((checkDims_iff hne l hl rows).mp hr) (hn rows)
        · simp only [he, Except.map]
    · rw [if_pos hg]
      refine ⟨?_, by simp, by simp⟩
      intro rows
      constructor
      · intro h; cases h
      · exact fun h => absurd (h.all_good hne) hg
  · rw [if_pos hl]
    refine ⟨?_, by simp, by simp⟩
    intro rows
    constructor
    · intro h; cases h
    · exact fun h => absurd h.1 hl

/-- **C20**, `None`, `False`, `True`: no reflection for the first two; `True` stands for `True` in every
dimension. -/
theorem C20_bool {d : ℕ} (data : List (Fin d → ℝ)) :
    checkReflect data .none = .ok none ∧ checkReflect data .false = .ok none ∧
    checkReflect data .true = checkReflect data (.rows (List.replicate d .true)) := by
  refine ⟨rfl, rfl, ?_⟩
  have : ¬ (d = 1 ∧ (List.replicate d RefDim.true).length = 2) := by simp; omega
  simp only [checkReflect, reflectRows_of_not this]
  rw [if_neg (by simp), if_neg (by simp [RefDim.good])]

open Classical in
/-- **C20**, one-dimensional data with a flat list of two boundaries: numbers and `None` are kept, and
must be in order. -/
theorem C20_flat (data : List (Fin 1 → ℝ)) (a b : Option ℝ) :
    checkReflect data (.rows [a.elim .none .num, b.elim .none .num]) =
      if (∃ x y, a = some x ∧ b = some y ∧ y ≤ x) then .error .valueError else .ok (some [some (a, b)]) := by
  cases a <;> cases b <;> simp [checkReflect, reflectRows, coerceRow, coerce2, Except.map, checkDims, checkDim,
    fillLo, fillHi, orderedPair, RefDim.good]
  split_ifs <;> simp_all

/-- Two flat values of which one is `None` and the other `True`. -/
theorem C20_flat_true (data : List (Fin 1 → ℝ)) (mn mx : ℝ) (he : IsExtrema (data.map (· 0)) mn mx) :
    checkReflect data (.rows [.true, .none]) = .ok (some [some (some (mn * (1 - 1 / 10 ^ 8)), none)]) ∧
    checkReflect data (.rows [.none, .true]) = .ok (some [some (none, some (mx * (1 + 1 / 10 ^ 8)))]) := by
  have h1 := npMinR_eq he
  have h2 := npMaxR_eq he
  constructor <;> simp [checkReflect, reflectRows, coerceRow, coerce2, Except.map, checkDims, checkDim,
    fillLo, fillHi, orderedPair, RefDim.good, dataRow, h1, h2, numPad]

/-- Two flat values of which one is `True` and the other a number: `True` stands for the number 1; and two `True` are refused,
although they are accepted as a row (`[[True, True]]`). -/
theorem C20_flat_mixed (data : List (Fin 1 → ℝ)) (x : ℝ) :
    checkReflect data (.rows [.true, .num x])
      = (if x ≤ 1 then .error .valueError else .ok (some [some (some 1, some x)])) ∧
    checkReflect data (.rows [.num x, .true])
      = (if 1 ≤ x then .error .valueError else .ok (some [some (some x, some 1)])) ∧
    checkReflect data (.rows [.true, .true]) = .error .valueError := by
  refine ⟨?_, ?_, ?_⟩ <;> simp [checkReflect, reflectRows, coerceRow, coerce2, Except.map, checkDims, checkDim,
    fillLo, fillHi, orderedPair, RefDim.good] <;> split_ifs <;> simp_all

/-- Two equally long sequences are not a valid argument for one-dimensional data. -/
theorem C20_flat_seq (data : List (Fin 1 → ℝ)) (a b : List RefVal) (h : a.length = b.length) :
    checkReflect data (.rows [.seq a, .seq b]) = .error .valueError := by
  simp [checkReflect, reflectRows, coerceRow, Except.map, h]

/-- **C20**, what a caller can rely on for every accepted argument: one row per dimension, boundaries in
increasing order. -/
theorem C20_result {d : ℕ} (data : List (Fin d → ℝ)) (hne : data ≠ []) (arg : Reflect) (rows : List ReflRow)
    (h : checkReflect data arg = .ok (some rows)) :
    rows.length = d ∧ ∀ lo hi, some (some lo, some hi) ∈ rows → lo < hi := by
  have key : ∀ l, RowsMean data l rows → rows.length = d ∧ ∀ lo hi, some (some lo, some hi) ∈ rows → lo < hi := by
    intro l hm
    refine ⟨hm.2.1, ?_⟩
    intro lo hi hmem
    obtain ⟨i, hi', e⟩ := List.getElem_of_mem hmem
    have hid : i < d := by have := hm.2.1; omega
    obtain ⟨mn, mx, he⟩ := exists_extrema (data := data.map (· (⟨i, hid⟩ : Fin d))) (by simpa using hne)
    obtain ⟨g', r', hg', hr', hmm⟩ := hm.2.2 ⟨i, hid⟩ mn mx he
    simp only [List.getElem?_eq_getElem hi', Option.some.injEq, e] at hr'
    subst hr'
    obtain ⟨_, h⟩ | ⟨_, lo', hi'', h, _, _, ho⟩ | ⟨a, b, lo', hi'', _, h, _, _, ho⟩ := hmm
    · cases h
    · cases h; exact ho
    · cases h; exact ho _ _ rfl rfl
  cases arg with
  | none => simp [checkReflect] at h
  | «false» => simp [checkReflect] at h
  | «true» =>
    rw [(C20_bool data).2.2] at h
    exact key _ (((C20_list data hne _ (by simp; omega)).1 rows).mp h)
  | rows l =>
    by_cases h2 : d = 1 ∧ l.length = 2
    · obtain ⟨rfl, hl⟩ := h2
      match l, hl with
      | [a, b], _ =>
        simp only [checkReflect, reflectRows] at h
        cases hc : coerceRow a b with
        | error e => simp [hc, Except.map] at h
        | ok r =>
          have e : checkReflect data (.rows [r]) = .ok (some rows) := by
            simpa [checkReflect, reflectRows, hc, Except.map] using h
          exact key _ (((C20_list data hne [r] (by simp)).1 rows).mp e)
    · exact key _ (((C20_list data hne l h2).1 rows).mp h)

/-- A list of rows with one row per dimension and increasing boundaries is accepted and unchanged. -/
lemma checkReflect_checked {d : ℕ} (data : List (Fin d → ℝ)) (hne : data ≠ []) (rows : List ReflRow)
    (h1 : rows.length = d) (h2 : ∀ lo hi, some (some lo, some hi) ∈ rows → lo < hi) :
    checkReflect data (Reflect.ofChecked (some rows)) = .ok (some rows) := by
  refine ((C20_list data hne _ (by simp; omega)).1 rows).mpr ⟨by simp [h1], h1, ?_⟩
  intro i mn mx he
  have hi : (i : ℕ) < rows.length := by omega
  refine ⟨ReflRow.toDim (rows[(i : ℕ)]), rows[(i : ℕ)], by simp [List.getElem?_eq_getElem hi], by simp, ?_⟩
  have hmem := List.getElem_mem hi
  generalize rows[(i : ℕ)] = r at hmem
  obtain _ | ⟨lo, hi⟩ := r
  · exact Or.inl ⟨rfl, rfl⟩
  · refine Or.inr (Or.inr ⟨_, _, lo, hi, rfl, rfl, ?_, ?_, ?_⟩)
    · cases lo <;> simp [Boundary]
    · cases hi <;> simp [Boundary]
    · rintro a b rfl rfl; exact h2 _ _ hmem

/-- **C20**, a checked argument is accepted again and unchanged, whatever the data (the stored, checked
`reflect` is checked again by `density` and `resample`). -/
theorem C20_idempotent {d : ℕ} (data : List (Fin d → ℝ)) (hne : data ≠ []) (arg : Reflect)
    (rows : List ReflRow) (h : checkReflect data arg = .ok (some rows)) (data' : List (Fin d → ℝ))
    (hne' : data' ≠ []) :
    checkReflect data' (Reflect.ofChecked (some rows)) = .ok (some rows) := by
  obtain ⟨h1, h2⟩ := C20_result data hne arg rows h
  exact checkReflect_checked data' hne' rows h1 h2

/-- Hypotheses of `C20_list` on a concrete two-dimensional case: `[[None, 5], True]`. -/
example : RowsMean [![1, 2], ![3, 4]] [.seq [.none, .num 5], .true]
    [some (none, some 5), some (some (2 * (1 - 1 / 10 ^ 8)), some (4 * (1 + 1 / 10 ^ 8)))] := by
  refine ⟨rfl, rfl, ?_⟩
  intro i mn mx he
  fin_cases i
  · refine ⟨_, _, rfl, rfl, Or.inr (Or.inr ⟨_, _, _, _, rfl, rfl, rfl, rfl, ?_⟩)⟩
    rintro a b ⟨⟩
  · have := he.unique (show IsExtrema _ 2 4 by simp [IsExtrema]; norm_num)
    obtain ⟨rfl, rfl⟩ := this
    refine ⟨_, _, rfl, rfl, Or.inr (Or.inl ⟨rfl, _, _, rfl, rfl, rfl, by norm_num⟩)⟩

/-! ### C21 -/

/-- **C21** as claimed: boundaries guessed with `reflect=True` enclose the data. -/
def C21_Claim : Prop :=
  ∀ (d : ℕ) (data : List (Fin d → ℝ)), data ≠ [] → ∀ rows, checkReflect data .true = .ok (some rows) →
    ∀ x ∈ data, ∀ i : Fin d, ∀ r, rows[(i : ℕ)]? = some r → Inside r (x i)

/-- **C21** fails: the padding is relative to the extrema, so for negative data (here `-3, -1`) the
boundary lies inside the range of the data. -/
theorem C21_refuted : ¬ C21_Claim := by
  intro h
  have e : checkReflect [![-3], ![-1]] .true =
      .ok (some [some (some (-3 * (1 - 1 / 10 ^ 8)), some (-1 * (1 + 1 / 10 ^ 8)))]) := by
    rw [(C20_bool _).2.2]
    refine ((C20_list _ (by simp) _ (by simp)).1 _).mpr ⟨rfl, rfl, ?_⟩
    intro i mn mx he
    fin_cases i
    have := he.unique (show IsExtrema _ (-3) (-1) by simp [IsExtrema])
    obtain ⟨rfl, rfl⟩ := this
    refine ⟨_, _, rfl, rfl, Or.inr (Or.inl ⟨rfl, _, _, rfl, rfl, rfl, by norm_num⟩)⟩
  have := (h 1 _ (by simp) _ e ![-3] (by simp) 0 _ rfl _ _ rfl).1 _ rfl
  norm_num at this

/-- **C21**, when it holds: wherever `True` is given (for the whole argument, for a dimension or for one
side), the lower boundary is at or below all data exactly if no data are negative, and the upper boundary is
at or above all data exactly if not all data are negative. -/
theorem C21_partial {d : ℕ} (data : List (Fin d → ℝ)) (hne : data ≠ []) (l : List RefDim)
    (h2 : ¬ (d = 1 ∧ l.length = 2)) (rows : List ReflRow) (h : checkReflect data (.rows l) = .ok (some rows))
    (i : Fin d) (g : RefDim) (hg : l[(i : ℕ)]? = some g) :
    ((g = .true ∨ ∃ b, g = .seq [.true, b]) → ∃ lo hi, rows[(i : ℕ)]? = some (some (some lo, hi)) ∧
      ((∀ x ∈ data, lo ≤ x i) ↔ ∀ x ∈ data, 0 ≤ x i)) ∧
    ((g = .true ∨ ∃ a, g = .seq [a, .true]) → ∃ lo hi, rows[(i : ℕ)]? = some (some (lo, some hi)) ∧
      ((∀ x ∈ data, x i ≤ hi) ↔ ∃ x ∈ data, 0 ≤ x i)) := by
  have hm := ((C20_list data hne l h2).1 rows).mp h
  obtain ⟨mn, mx, he⟩ := exists_extrema (data := data.map (· i)) (by simpa using hne)
  obtain ⟨g', r, hg', hr, hmm⟩ := hm.2.2 i mn mx he
  rw [hg] at hg'; cases hg'
  have hall : ∀ x ∈ data, mn ≤ x i ∧ x i ≤ mx := fun x hx => he.2.2 _ (List.mem_map_of_mem hx)
  obtain ⟨x0, hx0, e0⟩ := List.mem_map.mp he.1
  obtain ⟨x1, hx1, e1⟩ := List.mem_map.mp he.2.1
  have L : (∀ x ∈ data, mn * (1 - 1 / 10 ^ 8) ≤ x i) ↔ ∀ x ∈ data, 0 ≤ x i := by
    constructor
    · intro h x hx
      have := h x0 hx0
      have := (hall x hx).1
      nlinarith
    · intro h x hx
      have := h x0 hx0
      have := (hall x hx).1
      nlinarith
  have U : (∀ x ∈ data, x i ≤ mx * (1 + 1 / 10 ^ 8)) ↔ ∃ x ∈ data, 0 ≤ x i := by
    constructor
    · intro h
      refine ⟨x1, hx1, ?_⟩
      have := h x1 hx1
      nlinarith
    · rintro ⟨x, hx, h0⟩ y hy
      have := (hall x hx).2
      have := (hall y hy).2
      nlinarith
  obtain ⟨rfl, rfl⟩ | ⟨rfl, lo, hi, rfl, hlo, hhi, ho⟩ | ⟨a, b, lo, hi, rfl, rfl, hlo, hhi, ho⟩ := hmm
  · simp
  · subst hlo hhi
    exact ⟨fun _ => ⟨_, _, hr, L⟩, fun _ => ⟨_, _, hr, U⟩⟩
  · constructor
    · rintro (h | ⟨b', h⟩)
      · cases h
      · cases h
        simp only [Boundary] at hlo
        subst hlo
        exact ⟨_, _, hr, L⟩
    · rintro (h | ⟨b', h⟩)
      · cases h
      · cases h
        simp only [Boundary] at hhi
        subst hhi
        exact ⟨_, _, hr, U⟩

/-- **C21**, further failure: for one-dimensional data a flat list of `True` and a number takes `True` for
the number 1, whatever the data. -/
theorem C21_flat_refuted : ∀ (data : List (Fin 1 → ℝ)), checkReflect data (.rows [.true, .num 9]) =
    .ok (some [some (some 1, some 9)]) := by
  intro data
  simp [checkReflect, reflectRows, coerceRow, coerce2, Except.map, checkDims, checkDim,
    fillLo, fillHi, orderedPair, RefDim.good]

/-- Data that are all equal and not positive cannot be reflected with `True`: the guessed boundaries are
out of order (`ValueError`). -/
theorem C21_constant (c : ℝ) (hc : c ≤ 0) (n : ℕ) :
    checkReflect (List.replicate (n + 1) ![c]) .true = .error .valueError := by
  rw [(C20_bool _).2.2]
  refine (C20_list _ (by simp) _ (by simp)).2.2 ?_
  intro rows hm
  obtain ⟨g, r, hg, hr, hmm⟩ := hm.2.2 0 c c (by
    refine ⟨by simp, by simp, ?_⟩
    intro x hx
    simp at hx
    simp [hx])
  simp at hg
  subst hg
  obtain ⟨h, _⟩ | ⟨_, lo, hi, _, rfl, rfl, ho⟩ | ⟨a, b, lo, hi, h, _⟩ := hmm
  · cases h
  · nlinarith
  · cases h

/-! ### C64: the caller's argument -/

/-- **C64** as claimed: a list given as `reflect` can be used again, for other data. -/
def C64_Claim : Prop :=
  ∀ (d : ℕ) (data data' : List (Fin d → ℝ)) (arg : Reflect), data ≠ [] → data' ≠ [] →
    checkReflect data' (reflectAfter data arg) = checkReflect data' arg

/-- **C64** fails: `True` in the list is overwritten by the numbers found for the first dataset. -/
theorem C64_refuted : ¬ C64_Claim := by
  intro h
  have := h 1 [![1], ![2]] [![3], ![4]] (.rows [.true]) (by simp) (by simp)
  have e1 : ∀ a b : ℝ, 0 < a → a < b → checkReflect [![a], ![b]] (.rows [.true]) =
      .ok (some [some (some (a * (1 - 1 / 10 ^ 8)), some (b * (1 + 1 / 10 ^ 8)))]) := by
    intro a b ha hab
    refine ((C20_list _ (by simp) _ (by simp)).1 _).mpr ⟨rfl, rfl, ?_⟩
    intro i mn mx he
    fin_cases i
    have := he.unique (show IsExtrema _ a b by simp [IsExtrema, hab.le])
    obtain ⟨rfl, rfl⟩ := this
    refine ⟨_, _, rfl, rfl, Or.inr (Or.inl ⟨rfl, _, _, rfl, rfl, rfl, by nlinarith⟩)⟩
  have e2 : reflectAfter [![1], ![2]] (.rows [.true]) = Reflect.ofChecked (some
      [some (some (1 * (1 - 1 / 10 ^ 8)), some (2 * (1 + 1 / 10 ^ 8)))]) := by
    simp only [reflectAfter]
    rw [if_neg (by simp), e1 1 2 (by norm_num) (by norm_num)]
    rfl
  rw [e2, e1 3 4 (by norm_num) (by norm_num), C20_idempotent [![1], ![2]] (by simp) _ _
    (e1 1 2 (by norm_num) (by norm_num)) _ (by simp)] at this
  simp only [Except.ok.injEq, Option.some.injEq, List.cons.injEq, Prod.mk.injEq] at this
  norm_num at this

/-- No `True` in this boundary. -/
def RefVal.noTrue : RefVal → Prop
  | .true => False
  | _ => True

/-- No `True` in this row. -/
def RefDim.noTrue : RefDim → Prop
  | .true => False
  | .seq l => ∀ v ∈ l, v.noTrue
  | _ => True

/-- **C64**, proved part: an argument without `True` inside a list is left as it is. -/
theorem C64_partial {d : ℕ} (data : List (Fin d → ℝ)) (hne : data ≠ []) (arg : Reflect)
    (ha : ∀ l, arg = .rows l → ∀ r ∈ l, r.noTrue) : reflectAfter data arg = arg := by
  cases arg with
  | none => rfl
  | «true» => rfl
  | «false» => rfl
  | rows l =>
    simp only [reflectAfter]
    split_ifs with h2
    · rfl
    · split
      · rename_i rows h
        have hm := ((C20_list data hne l h2).1 rows).mp h
        congr 1
        apply List.ext_getElem
        · simp [hm.1, hm.2.1]
        · intro i h1 h2'
          have hid : i < d := by have := hm.1; omega
          obtain ⟨mn, mx, he⟩ := exists_extrema (data := data.map (· (⟨i, hid⟩ : Fin d))) (by simpa using hne)
          obtain ⟨g, r, hg, hr, hmm⟩ := hm.2.2 ⟨i, hid⟩ mn mx he
          have hi1 : i < rows.length := by have := hm.2.1; omega
          simp only [List.getElem?_eq_getElem h2', List.getElem?_eq_getElem hi1, Option.some.injEq] at hg hr
          have hnt := ha l rfl g (hg ▸ List.getElem_mem h2')
          simp only [List.getElem_map, hg, hr]
          obtain ⟨rfl, rfl⟩ | ⟨rfl, lo, hi, rfl, hlo, hhi, ho⟩ | ⟨a, b, lo, hi, rfl, rfl, hlo, hhi, ho⟩ := hmm
          · rfl
          · exact absurd hnt (by simp [RefDim.noTrue])
          · simp only [RefDim.noTrue, List.mem_cons, List.not_mem_nil, or_false, forall_eq_or_imp,
              forall_eq] at hnt
            cases a <;> cases b <;> simp_all [Boundary, RefVal.noTrue]
      · rfl

/-- The hypothesis of `C64_partial` on a concrete case. -/
example : ∀ l, Reflect.rows [.seq [.none, .num 5], .none] = .rows l → ∀ r ∈ l, r.noTrue := by
  rintro l ⟨⟩
  simp [RefDim.noTrue, RefVal.noTrue]

end Kalepy
