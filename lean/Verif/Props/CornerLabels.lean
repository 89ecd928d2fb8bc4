import Verif.Model.CornerLabels
import Verif.Proofs.Np

/-!
# C152: labels and ticks of corner plots
-/

namespace Kalepy

/-! ## Specification -/

/-- Specification: the parameter shown along the horizontal axis of the visible panel in row `ii` and column `jj` (see C104): that of the column,
except in the last panel if it is rotated. -/
def Spec.acrossParam {n : ℕ} (rotate : Bool) (ii jj : Fin n) : Option (Fin n) :=
  if ii = jj ∧ rotate = true ∧ (jj : ℕ) = n - 1 then none else some jj

/-- Specification: the parameter shown along the vertical axis: that of the row below the diagonal, none on the diagonal (where the density is
shown), except in the last panel if it is rotated. -/
def Spec.upParam {n : ℕ} (rotate : Bool) (ii jj : Fin n) : Option (Fin n) :=
  if ii = jj ∧ ¬ (rotate = true ∧ (jj : ℕ) = n - 1) then none else some ii

/-- Specification: the entry of a parameter, or `none'` if the axis shows no parameter. -/
def Spec.entry {n : ℕ} {α : Type*} (l : List α) (none' : α) : Option (Fin n) → α
  | some p => l.getD p none'
  | none => none'

/-! ## Proofs -/

lemma pyItem_lt {α : Type*} {l : List α} {k : ℕ} (h : k < l.length) (x : α) : pyItem l k = .ok (l.getD k x) := by
  simp [pyItem, h]

lemma pyItem_ge {α : Type*} {l : List α} {k : ℕ} (h : l.length ≤ k) : pyItem l k = .error .indexError := by
  simp [pyItem, h]

lemma pyItem_cases {α : Type*} (l : List α) (k : ℕ) : (∃ a, pyItem l k = .ok a) ∨ pyItem l k = .error .indexError := by
  unfold pyItem
  split <;> simp

lemma panelText_cases {n : ℕ} (origin : Bool × Bool) (rotate : Bool) (labels : List String) (ticks : List (Option (List ℝ)))
    (ii jj : Fin n) : (∃ p, panelText origin rotate labels ticks ii jj = .ok p) ∨
      panelText origin rotate labels ticks ii jj = .error .indexError := by
  unfold panelText
  split
  · exact Or.inl ⟨_, rfl⟩
  · have h1 : ∀ p, (∃ q, rowText origin rotate labels ii jj p = .ok q) ∨
        rowText origin rotate labels ii jj p = .error .indexError := by
      intro p
      unfold rowText
      obtain ⟨a, ha⟩ | ha := pyItem_cases labels jj <;> simp only [ha] <;> split <;> simp
    have h2 : ∀ p, (∃ q, columnText origin labels ii jj p = .ok q) ∨
        columnText origin labels ii jj p = .error .indexError := by
      intro p
      unfold columnText
      obtain ⟨a, ha⟩ | ha := pyItem_cases labels ii <;> simp only [ha, Except.map] <;> split <;>
        simp <;> by_cases h : (ii : ℕ) = 0 <;> simp [h]
    have h3 : ∀ p, (∃ q, tickText origin rotate ticks ii jj p = .ok q) ∨
        tickText origin rotate ticks ii jj p = .error .indexError := by
      intro p
      unfold tickText
      obtain ⟨a, ha⟩ | ha := pyItem_cases ticks jj <;> obtain ⟨b, hb⟩ | hb := pyItem_cases ticks ii <;>
        simp only [ha, hb] <;> split <;> simp
    obtain ⟨q, hq⟩ | hq := h1 {}
    · simp only [hq]
      obtain ⟨r, hr⟩ | hr := h2 q
      · simp only [hr]
        exact h3 r
      · simp [hr]
    · simp [hq]

/-- A sequence in which every element succeeds or gives the same error. -/
lemma finSeq_uniform_error {α : Type*} {e : PyErr} {d : ℕ} {f : Fin d → Res α} (h : ∀ i, (∃ a, f i = .ok a) ∨ f i = .error e) :
    (∃ g, finSeq f = .ok g) ∨ finSeq f = .error e := by
  induction d with
  | zero => exact Or.inl ⟨Fin.elim0, rfl⟩
  | succ d ih =>
    rw [finSeq]
    obtain ⟨a, ha⟩ | ha := h 0
    · obtain ⟨g, hg⟩ | hg := ih (f := fun i => f i.succ) fun i => h i.succ
      · simp only [ha, hg]; exact Or.inl ⟨_, rfl⟩
      · simp [ha, hg]
    · simp [ha]

/-- The panels on and below the diagonal. -/
lemma panelText_eq {n : ℕ} (origin : Bool × Bool) (rotate : Bool) (labels : List String) (ticks : List (Option (List ℝ)))
    (hl : n ≤ labels.length) (ht : n ≤ ticks.length) (ii jj : Fin n) (hle : jj ≤ ii) :
    panelText origin rotate labels ticks ii jj = .ok
      { visible := true
        xlabel := if (ii : ℕ) = n - 1 then Spec.entry labels "" (Spec.acrossParam rotate ii jj) else ""
        ylabel := if (jj : ℕ) = 0 then Spec.entry labels "" (Spec.upParam rotate ii jj) else ""
        xside := if (ii : ℕ) = n - 1 ∧ origin.1 = true then .top else .bottom
        yside := if ii = jj then (if (ii : ℕ) ≠ 0 ∧ origin.2 = false then .right else .left)
          else if (jj : ℕ) = 0 ∧ origin.2 = true then .right else .left
        xticks := Spec.entry ticks none (Spec.acrossParam rotate ii jj)
        yticks := Spec.entry ticks none (Spec.upParam rotate ii jj) } := by
  have e1 := pyItem_lt (show (jj : ℕ) < labels.length by omega) ""
  have e2 := pyItem_lt (show (ii : ℕ) < labels.length by omega) ""
  have e3 := pyItem_lt (show (jj : ℕ) < ticks.length by omega) none
  have e4 := pyItem_lt (show (ii : ℕ) < ticks.length by omega) none
  unfold panelText
  rw [if_neg (not_lt.mpr hle)]
  simp only [rowText, columnText, tickText, e1, e2, e3, e4, Except.map, Spec.acrossParam, Spec.upParam]
  by_cases hij : ii = jj
  · subst hij
    rcases Classical.propComplete ((ii : ℕ) = 0) with h0 | h0 <;>
      rcases Classical.propComplete ((ii : ℕ) = n - 1) with h1 | h1 <;> cases rotate <;> cases h5 : origin.1 <;>
      cases h6 : origin.2 <;> cases hx : ticks.getD ii none <;>
      simp [h0, h1, hx, h5, h6, Spec.entry, -List.getD_eq_getElem?_getD]
  · have h2 : (jj : ℕ) < ii := lt_of_le_of_ne hle fun h => hij (Fin.ext h.symm)
    have h3 : (jj : ℕ) ≠ n - 1 := by omega
    have h4 : (ii : ℕ) ≠ 0 := by omega
    rcases Classical.propComplete ((jj : ℕ) = 0) with h0 | h0 <;>
      rcases Classical.propComplete ((ii : ℕ) = n - 1) with h1 | h1 <;> cases h5 : origin.1 <;> cases h6 : origin.2 <;>
      cases hx : ticks.getD jj none <;> cases hy : ticks.getD ii none <;>
      simp [h0, h1, h3, h4, h5, h6, hij, hx, hy, Spec.entry, -List.getD_eq_getElem?_getD]

lemma cornerText_eq (n : ℕ) (origin : Bool × Bool) (rotate : Bool) (labels : List String) (ticks : List (Option (List ℝ)))
    (hl : n ≤ labels.length) (ht : n ≤ ticks.length) :
    ∃ t, cornerText n origin rotate (some labels) (some ticks) = .ok t ∧
      ∀ ii jj, panelText origin rotate labels ticks ii jj = .ok (t ii jj) := by
  have key : ∀ ii jj : Fin n, ∃ p, panelText origin rotate labels ticks ii jj = .ok p := by
    intro ii jj
    by_cases hlt : ii < jj
    · exact ⟨_, if_pos hlt⟩
    · exact ⟨_, panelText_eq origin rotate labels ticks hl ht ii jj (not_lt.mp hlt)⟩
  choose p hp using key
  exact ⟨p, finSeq_ok.mpr fun ii => finSeq_ok.mpr fun jj => hp ii jj, hp⟩

/-! ## The theorems -/

/-- **C152.** With a label and ticks for every parameter, `Corner` puts labels and ticks at the axes that show the parameter: the label of a
parameter is written along the last row and down the first column, wherever an axis there shows a parameter, and nowhere else; the ticks
of a parameter are set on every axis that shows it, and on no other. -/
theorem C152_labels (n : ℕ) (origin : Bool × Bool) (rotate : Bool) (labels : List String) (ticks : List (Option (List ℝ)))
    (hl : n ≤ labels.length) (ht : n ≤ ticks.length) :
    ∃ t, cornerText n origin rotate (some labels) (some ticks) = .ok t ∧ ∀ ii jj,
      (t ii jj).visible = decide (jj ≤ ii) ∧ (jj ≤ ii →
        (t ii jj).xlabel = (if (ii : ℕ) = n - 1 then Spec.entry labels "" (Spec.acrossParam rotate ii jj) else "") ∧
        (t ii jj).ylabel = (if (jj : ℕ) = 0 then Spec.entry labels "" (Spec.upParam rotate ii jj) else "") ∧
        (t ii jj).xticks = Spec.entry ticks none (Spec.acrossParam rotate ii jj) ∧
        (t ii jj).yticks = Spec.entry ticks none (Spec.upParam rotate ii jj)) := by
  obtain ⟨t, h, hp⟩ := cornerText_eq n origin rotate labels ticks hl ht
  refine ⟨t, h, fun ii jj => ⟨?_, fun hle => ?_⟩⟩
  · have := hp ii jj
    by_cases hlt : ii < jj
    · rw [panelText, if_pos hlt] at this
      injection this with this
      simp [← this, hlt]
    · rw [panelText_eq origin rotate labels ticks hl ht ii jj (not_lt.mp hlt)] at this
      injection this with this
      simp [← this, not_lt.mp hlt]
  · have := hp ii jj
    rw [panelText_eq origin rotate labels ticks hl ht ii jj hle] at this
    injection this with this
    simp [← this]

/-- **C152 (complete).** Every parameter is labelled, at an axis that shows it. -/
theorem C152_every_parameter (n : ℕ) (origin : Bool × Bool) (rotate : Bool) (labels : List String)
    (ticks : List (Option (List ℝ))) (hl : n ≤ labels.length) (ht : n ≤ ticks.length) (k : Fin n) :
    ∃ t, cornerText n origin rotate (some labels) (some ticks) = .ok t ∧ ∃ ii jj, jj ≤ ii ∧
      (Spec.acrossParam rotate ii jj = some k ∧ (t ii jj).xlabel = labels.getD k "" ∨
        Spec.upParam rotate ii jj = some k ∧ (t ii jj).ylabel = labels.getD k "") := by
  obtain ⟨t, h, hp⟩ := C152_labels n origin rotate labels ticks hl ht
  have hn : 0 < n := Fin.pos k
  refine ⟨t, h, ?_⟩
  by_cases hk : rotate = true ∧ (k : ℕ) = n - 1
  · refine ⟨k, ⟨0, hn⟩, Nat.zero_le _, Or.inr ?_⟩
    have := ((hp k ⟨0, hn⟩).2 (Nat.zero_le _)).2.1
    have e : Spec.upParam rotate k ⟨0, hn⟩ = some k := by
      rw [Spec.upParam, if_neg]
      rintro ⟨h1, h2⟩
      exact h2 ⟨hk.1, by rw [← h1]; exact hk.2⟩
    refine ⟨e, ?_⟩
    rw [this, e]
    simp [Spec.entry]
  · refine ⟨⟨n - 1, by omega⟩, k, Fin.mk_le_mk.mpr (by omega), Or.inl ?_⟩
    have := ((hp ⟨n - 1, by omega⟩ k).2 (Fin.mk_le_mk.mpr (by omega))).1
    have e : Spec.acrossParam rotate ⟨n - 1, by omega⟩ k = some k := by
      rw [Spec.acrossParam, if_neg]
      rintro ⟨-, h2⟩
      exact hk h2
    refine ⟨e, ?_⟩
    rw [this, e]
    simp [Spec.entry]

/-- **C152 (sides).** Labels are at the outside of the figure, whatever its origin: those of the last row of panels are at the top if this row
is the top row of the figure, and otherwise at the bottom of the bottom row; those of the first column at the left of the leftmost or at the right of the
rightmost column.  The ordinates on the diagonal never face a visible panel: beside the panel there is the edge of the figure or an
invisible one. -/
theorem C152_sides (n : ℕ) (origin : Bool × Bool) (rotate : Bool) (labels : List String) (ticks : List (Option (List ℝ)))
    (hl : n ≤ labels.length) (ht : n ≤ ticks.length) :
    ∃ t, cornerText n origin rotate (some labels) (some ticks) = .ok t ∧
      (∀ ii jj, jj ≤ ii → (t ii jj).xlabel ≠ "" →
        (t ii jj).xside = .top ∧ ((cellOf origin ii jj).1 : ℕ) = 0 ∨
        (t ii jj).xside = .bottom ∧ ((cellOf origin ii jj).1 : ℕ) = n - 1) ∧
      (∀ ii jj, jj ≤ ii → (t ii jj).ylabel ≠ "" →
        (t ii jj).yside = .left ∧ ((cellOf origin ii jj).2 : ℕ) = 0 ∨
        (t ii jj).yside = .right ∧ ((cellOf origin ii jj).2 : ℕ) = n - 1) ∧
      ∀ ii,
        ((t ii ii).yside = .left ∨ (t ii ii).yside = .right) ∧
        ((t ii ii).yside = .left → ∀ jj, ((cellOf origin ii jj).2 : ℕ) + 1 = (cellOf origin ii ii).2 →
          (t ii jj).visible = false) ∧
        ((t ii ii).yside = .right → ∀ jj, ((cellOf origin ii jj).2 : ℕ) = (cellOf origin ii ii).2 + 1 →
          (t ii jj).visible = false) := by
  obtain ⟨t, h, hp⟩ := cornerText_eq n origin rotate labels ticks hl ht
  obtain ⟨t', h', hp'⟩ := C152_labels n origin rotate labels ticks hl ht
  obtain rfl : t = t' := by rw [h] at h'; cases h'; rfl
  have side : ∀ ii jj : Fin n, jj ≤ ii →
      (t ii jj).xside = (if (ii : ℕ) = n - 1 ∧ origin.1 = true then PanelSide.top else .bottom) ∧
      (t ii jj).yside = (if ii = jj then (if (ii : ℕ) ≠ 0 ∧ origin.2 = false then .right else .left)
          else if (jj : ℕ) = 0 ∧ origin.2 = true then .right else .left) := by
    intro ii jj hle
    have := hp ii jj
    rw [panelText_eq origin rotate labels ticks hl ht ii jj hle] at this
    injection this with this
    simp only [← this, and_self]
  refine ⟨t, h, fun ii jj hle hx => ?_, fun ii jj hle hy => ?_, fun ii => ⟨?_, fun hs jj hc => ?_, fun hs jj hc => ?_⟩⟩
  · have hi : (ii : ℕ) = n - 1 := by
      by_contra hne
      rw [((hp' ii jj).2 hle).1, if_neg hne] at hx
      exact hx rfl
    have := ii.2
    rw [(side ii jj hle).1]
    cases ho : origin.1 <;> simp [hi, ho, cellOf, Fin.rev]
    omega
  · have hj : (jj : ℕ) = 0 := by
      by_contra hne
      rw [((hp' ii jj).2 hle).2.1, if_neg hne] at hy
      exact hy rfl
    have hj2 := jj.2
    rw [((hp' ii jj).2 hle).2.1, if_pos hj] at hy
    rw [(side ii jj hle).2]
    by_cases hij : ii = jj
    · subst hij
      have hn : (ii : ℕ) = n - 1 := by
        by_contra hne
        rw [Spec.upParam, if_pos ⟨rfl, fun hc => hne hc.2⟩] at hy
        exact hy rfl
      cases ho : origin.2 <;> simp [hj, ho, cellOf, Fin.rev]
      omega
    · cases ho : origin.2 <;> simp [hij, hj, ho, cellOf, Fin.rev]
  · rw [(side ii ii le_rfl).2, if_pos rfl]
    split <;> simp
  · rw [(side ii ii le_rfl).2, if_pos rfl] at hs
    rw [(hp' ii jj).1, decide_eq_false_iff_not, not_le, Fin.lt_def]
    have := ii.2
    have := jj.2
    cases ho : origin.2
    · rw [ho] at hs
      have h0 : (ii : ℕ) = 0 := by
        by_contra hne
        rw [if_pos ⟨hne, rfl⟩] at hs
        exact absurd hs (by decide)
      simp [cellOf, ho, h0] at hc
    · simp [cellOf, ho, Fin.rev] at hc
      omega
  · rw [(side ii ii le_rfl).2, if_pos rfl] at hs
    rw [(hp' ii jj).1, decide_eq_false_iff_not, not_le, Fin.lt_def]
    cases ho : origin.2
    · simp [cellOf, ho] at hc
      omega
    · rw [ho, if_neg (by simp)] at hs
      exact absurd hs (by decide)

/-- **C152 (errors).** Fewer labels or fewer ticks than parameters raise `IndexError`. -/
theorem C152_errors {n : ℕ} (origin : Bool × Bool) (rotate : Bool) (labels : List String) (ticks : List (Option (List ℝ)))
    (h : labels.length < n ∨ ticks.length < n) :
    cornerText n origin rotate (some labels) (some ticks) = .error .indexError := by
  have hn : 0 < n := by omega
  have hcases : (∃ t, cornerText n origin rotate (some labels) (some ticks) = .ok t) ∨
      cornerText n origin rotate (some labels) (some ticks) = .error .indexError :=
    finSeq_uniform_error fun ii => finSeq_uniform_error fun jj => panelText_cases origin rotate labels ticks ii jj
  refine hcases.resolve_left ?_
  rintro ⟨t, ht⟩
  have hp : ∀ ii jj, panelText origin rotate labels ticks ii jj = .ok (t ii jj) := fun ii jj =>
    finSeq_ok.mp (finSeq_ok.mp ht ii) jj
  rcases h with h | h
  · -- the label of the last row
    have := hp ⟨n - 1, by omega⟩ ⟨labels.length, h⟩
    rw [panelText, if_neg (by simp only [Fin.mk_lt_mk]; omega), rowText, if_pos rfl, pyItem_ge (le_refl _)] at this
    cases this
  · have := hp ⟨ticks.length, h⟩ ⟨ticks.length, h⟩
    rw [panelText, if_neg (lt_irrefl _)] at this
    revert this
    cases rowText origin rotate labels (⟨ticks.length, h⟩ : Fin n) ⟨ticks.length, h⟩ {} with
    | error e => simp
    | ok p =>
      simp only
      cases columnText origin labels (⟨ticks.length, h⟩ : Fin n) ⟨ticks.length, h⟩ p with
      | error e => simp
      | ok q => simp [tickText, pyItem_ge (le_refl _)]

/-- **C152 (defaults).** Labels and ticks can be left out, alone or together: then no panel has a label, or ticks of its own, while
the others are where they are if both are given. -/
theorem C152_defaults (n : ℕ) (origin : Bool × Bool) (rotate : Bool) (labels : Option (List String))
    (ticks : Option (List (Option (List ℝ)))) (hl : ∀ l ∈ labels, n ≤ l.length) (ht : ∀ t ∈ ticks, n ≤ t.length) :
    ∃ t, cornerText n origin rotate labels ticks = .ok t ∧ ∀ ii jj,
      (t ii jj).visible = decide (jj ≤ ii) ∧ (jj ≤ ii →
        (t ii jj).xlabel = (if (ii : ℕ) = n - 1 then Spec.entry (labels.getD []) "" (Spec.acrossParam rotate ii jj) else "") ∧
        (t ii jj).ylabel = (if (jj : ℕ) = 0 then Spec.entry (labels.getD []) "" (Spec.upParam rotate ii jj) else "") ∧
        (t ii jj).xticks = Spec.entry (ticks.getD []) none (Spec.acrossParam rotate ii jj) ∧
        (t ii jj).yticks = Spec.entry (ticks.getD []) none (Spec.upParam rotate ii jj)) := by
  have el : ∀ q : Option (Fin n), Spec.entry (labels.getD (List.replicate n "")) "" q = Spec.entry (labels.getD []) "" q := by
    intro q
    cases labels with
    | some l => rfl
    | none => cases q <;> simp [Spec.entry]
  have et : ∀ q : Option (Fin n), Spec.entry (ticks.getD (List.replicate n none)) none q = Spec.entry (ticks.getD []) none q := by
    intro q
    cases ticks with
    | some l => rfl
    | none => cases q <;> simp [Spec.entry]
  obtain ⟨t, h, hp⟩ := C152_labels n origin rotate (labels.getD (List.replicate n "")) (ticks.getD (List.replicate n none))
    (by cases labels with
      | some l => exact hl l rfl
      | none => simp)
    (by cases ticks with
      | some l => exact ht l rfl
      | none => simp)
  refine ⟨t, h, fun ii jj => ?_⟩
  have := hp ii jj
  rw [el, el, et, et] at this
  exact this

/-! ## Concrete cases -/

/-- Concrete case of `C152_defaults`: two parameters with ticks, but without labels. -/
example : ∃ t, cornerText 2 (false, false) false none (some [some [0, 1], none]) = .ok t ∧
    (t 1 0).xlabel = "" ∧ (t 1 0).xticks = some [0, 1] := by
  obtain ⟨t, h, hp⟩ := C152_defaults 2 (false, false) false none (some [some [0, 1], none]) (by simp) (by simp)
  refine ⟨t, h, ?_⟩
  rw [((hp 1 0).2 (by decide)).1, ((hp 1 0).2 (by decide)).2.2.1]
  simp [Spec.acrossParam, Spec.entry]

/-- Concrete case of `C152_labels`: three parameters, with the last panel rotated. -/
example : ∃ t, cornerText 3 (true, false) true (some ["a", "b", "c"]) (some [none, some [0, 1], none]) = .ok t ∧
    (t 2 0).xlabel = "a" ∧ (t 2 1).xlabel = "b" ∧ (t 2 2).xlabel = "" ∧ (t 0 0).ylabel = "" ∧ (t 1 0).ylabel = "b" ∧
    (t 2 0).ylabel = "c" ∧ (t 2 2).ylabel = "" ∧ (t 1 0).yticks = some [0, 1] ∧ (t 1 0).xticks = none := by
  obtain ⟨t, h, hp⟩ := C152_labels 3 (true, false) true ["a", "b", "c"] [none, some [0, 1], none] (by simp) (by simp)
  refine ⟨t, h, ?_⟩
  rw [((hp 2 0).2 (by decide)).1, ((hp 2 1).2 (by decide)).1, ((hp 2 2).2 (by decide)).1, ((hp 0 0).2 (by decide)).2.1,
    ((hp 1 0).2 (by decide)).2.1, ((hp 2 0).2 (by decide)).2.1, ((hp 2 2).2 (by decide)).2.1,
    ((hp 1 0).2 (by decide)).2.2.2, ((hp 1 0).2 (by decide)).2.2.1]
  simp [Spec.acrossParam, Spec.upParam, Spec.entry]

end Kalepy
