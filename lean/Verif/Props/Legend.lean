import Verif.Model.Legend
import Verif.Props.CornerTarget

/-!
# C120: position of the legend as requested; C121: code run depending on the environment
-/

namespace Kalepy

/-! ## C120 -/

/-- **C120, full statement**: a box given to `Corner.legend` (as `bbox_to_anchor` or `bbox`) is where the legend is
anchored, a given panel is where it is anchored otherwise, and a given `loc` is used. -/
def C120_Claim : Prop :=
  ∀ (A T : Type) (size : ℕ) (corner : ℕ → ℕ → A) (fig : T) (index : Option (ℤ × ℤ)) (loc : Option String)
    (bbox bboxToAnchor : Option A) (transform : Option T) (r : LegendCall A T),
    cornerLegend size corner fig index loc bbox bboxToAnchor transform = .ok r →
    (∀ b, bboxToAnchor = some b → r.anchor = some b) ∧
    (∀ b, bboxToAnchor = none → bbox = some b → r.anchor = some b) ∧
    (∀ l, loc = some l → r.loc = some l)

/-- **C120, as far as it holds** (the full statement is `C120_Claim`): with a box given the legend has no anchor at
all, whatever the box; without box, a given panel `(i, j)` (negative numbers count from the end) is the anchor, with
the given `loc`, and panels that do not exist raise `IndexError`; without panel, `loc` is replaced by the default. -/
theorem C120_partial {A T : Type*} (size : ℕ) (corner : ℕ → ℕ → A) (fig : T) (index : Option (ℤ × ℤ)) (loc : Option String)
    (bbox bboxToAnchor : Option A) (transform : Option T) :
    ((bbox ≠ none ∨ bboxToAnchor ≠ none) →
      cornerLegend size corner fig index loc bbox bboxToAnchor transform = .ok ⟨loc, none, transform⟩) ∧
    (∀ i j : Fin size, ∀ i' j' : ℤ, (i' = i ∨ i' = (i : ℤ) - size) → (j' = j ∨ j' = (j : ℤ) - size) →
      cornerLegend size corner fig (some (i', j')) loc none none transform
        = .ok ⟨loc, some (corner i j), some (transform.getD fig)⟩) ∧
    (∀ i' j' : ℤ, i' < -size ∨ (size : ℤ) ≤ i' ∨ j' < -size ∨ (size : ℤ) ≤ j' →
      cornerLegend size corner fig (some (i', j')) loc none none transform = .error .indexError) ∧
    (1 ≤ size → ∃ i j : Fin size, (2 ≤ size → i < j) ∧ cornerLegend size corner fig none loc none none transform
      = .ok ⟨some (if size = 1 then "upper right" else "lower left"), some (corner i j), some (transform.getD fig)⟩) := by
  have hidx : ∀ (i : Fin size) (i' : ℤ), (i' = i ∨ i' = (i : ℤ) - size) → npIndex size i' = .ok (i : ℕ) := by
    intro i i' h
    have := i.2
    unfold npIndex
    rcases h with rfl | rfl
    · rw [if_pos (by omega)]
      simp
    · rw [if_neg (by omega), if_pos (by omega)]
      congr 1
      omega
  refine ⟨fun h => ?_, fun i j i' j' hi hj => ?_, fun i' j' h => ?_, fun h => ?_⟩
  · cases bboxToAnchor with
    | some b => rfl
    | none =>
      cases bbox with
      | some b => rfl
      | none => simp at h
  · simp only [cornerLegend, Option.or_none]
    rw [hidx i i' hi, hidx j j' hj]
  · have hbad : ∀ k : ℤ, (k < -size ∨ (size : ℤ) ≤ k) → npIndex size k = .error .indexError := by
      intro k hk
      unfold npIndex
      rw [if_neg (by omega), if_neg (by omega)]
    have hcase : ∀ k : ℤ, (∃ n, npIndex size k = .ok n) ∨ npIndex size k = .error .indexError := by
      intro k
      unfold npIndex
      split_ifs
      · exact Or.inl ⟨_, rfl⟩
      · exact Or.inl ⟨_, rfl⟩
      · exact Or.inr rfl
    simp only [cornerLegend, Option.or_none]
    by_cases h1 : i' < -size ∨ (size : ℤ) ≤ i'
    · rw [hbad i' h1]
    · rw [hbad j' (by omega)]
      rcases hcase i' with ⟨n, hn⟩ | hn <;> rw [hn]
  · obtain ⟨i, j, h1, h2, h3⟩ := C70_legend size h none false [] (Corner.new none false) rfl
    refine ⟨i, j, ?_, ?_⟩
    · intro h4
      have h5 := h3 h4
      have := new_triangle (n := size) none false i j
      rw [← Bool.not_eq_true, this] at h5
      exact not_le.mp h5
    · simp only [cornerLegend, Option.or_none]
      rw [h1, h2]

/-- Panel `(-1, 0)` of three rows is the lower left one. -/
example : cornerLegend 3 (fun i j => (i, j)) () (some (-1, 0)) (some "center") none none none
    = .ok ⟨some "center", some (2, 0), some ()⟩ :=
  (C120_partial 3 _ () none (some "center") none none none).2.1 2 0 (-1) 0 (Or.inr rfl) (Or.inl rfl)

/-- **C120 is false of the code**: the box is forgotten. -/
theorem C120_refuted : ¬ C120_Claim := by
  intro h
  have := (h ℕ Unit 3 (fun i j => i + j) () none none none (some 7) none ⟨none, none, none⟩ rfl).1 7 rfl
  cases this

/-- `loc` alone refutes C120 as well: without `index` it is overwritten. -/
theorem C120_loc_refuted : ¬ C120_Claim := by
  intro h
  have := (h ℕ Unit 3 (fun i j => i + j) () none (some "center") none none none
    ⟨some "lower left", some 2, some ()⟩ rfl).2.2 "center" rfl
  simp at this

/-! ## C121 -/

/-- The shells that `_python_environment` knows. -/
def Spec.IsNotebook (ipy : Option String) : Prop := ∃ a b : List Char, ipy = some (String.ofList (a ++ "zmqshell".toList ++ b))

/-- **C121, full statement**: `run_if_notebook` runs `func` in a notebook and `otherwise` (or nothing) in any other
environment; `run_if_script` runs `func` if there is no IPython and `otherwise` in any other environment. -/
def C121_Claim : Prop :=
  ∀ (R : Type) (ipy : Option String) (func : Res (Option R)) (otherwise : Option (Res (Option R))),
    (Spec.IsNotebook ipy → runIfNotebook ipy func otherwise = func) ∧
    (¬ Spec.IsNotebook ipy → runIfNotebook ipy func otherwise = otherwise.getD (.ok none)) ∧
    (ipy = none → runIfScript ipy func otherwise = func) ∧
    (ipy ≠ none → runIfScript ipy func otherwise = otherwise.getD (.ok none))

lemma pyIn_notebook (s : String) : pyIn "zmqshell" s = true ↔ Spec.IsNotebook (some s) := by
  simp only [pyIn, decide_eq_true_eq, Spec.IsNotebook, Option.some.injEq]
  constructor
  · rintro ⟨a, b, h⟩
    exact ⟨a, b, by rw [h]; simp⟩
  · rintro ⟨a, b, rfl⟩
    exact ⟨a, b, by simp⟩

/-- **C121, as far as it holds** (the full statement is `C121_Claim`): in scripts, in notebooks and in terminal IPython;
in any other IPython shell every variant raises `AttributeError` and runs neither function. -/
theorem C121_partial {R : Type*} (ipy : Option String) (func : Res (Option R)) (otherwise : Option (Res (Option R))) :
    (Spec.IsNotebook ipy → runIfNotebook ipy func otherwise = func ∧
      runIfScript ipy func otherwise = otherwise.getD (.ok none)) ∧
    (ipy = none → runIfNotebook ipy func otherwise = otherwise.getD (.ok none) ∧ runIfScript ipy func otherwise = func) ∧
    (∀ s, ipy = some s → ¬ Spec.IsNotebook ipy → "terminal".toList <:+: s.toList →
      runIfNotebook ipy func otherwise = otherwise.getD (.ok none) ∧
      runIfScript ipy func otherwise = otherwise.getD (.ok none)) ∧
    (∀ s, ipy = some s → ¬ Spec.IsNotebook ipy → ¬ "terminal".toList <:+: s.toList →
      runIfNotebook ipy func otherwise = .error .attributeError ∧
      runIfScript ipy func otherwise = .error .attributeError) := by
  have e1 : pyStartsWith "notebook" "notebook" = true := by decide
  have e2 : pyStartsWith "script" "notebook" = false := by decide
  have e3 : pyStartsWith "notebook" "script" = false := by decide
  have e4 : pyStartsWith "script" "script" = true := by decide
  have e5 : pyStartsWith "notebook" "ipython" = false := by decide
  have e6 : pyStartsWith "script" "ipython" = false := by decide
  have ho : (match otherwise with | some g => g | none => .ok none) = otherwise.getD (.ok none) := by
    cases otherwise <;> rfl
  refine ⟨fun h => ?_, ?_, ?_, ?_⟩
  · have henv : pythonEnvironment ipy = some "notebook" := by
      obtain ⟨a, b, rfl⟩ := h
      simp only [pythonEnvironment]
      rw [if_pos ((pyIn_notebook _).mpr ⟨a, b, rfl⟩)]
    simp only [runIfNotebook, runIfScript, runIf, henv, e1, e2, if_true, Bool.false_eq_true, if_false]
    exact ⟨trivial, ho⟩
  · rintro rfl
    simp only [runIfNotebook, runIfScript, runIf, pythonEnvironment, e3, e4, if_true, Bool.false_eq_true, if_false]
    exact ⟨ho, trivial⟩
  · rintro s rfl h1 h2
    have henv : pythonEnvironment (some s) = some "ipython" := by
      simp only [pythonEnvironment]
      rw [if_neg (fun h => h1 ((pyIn_notebook s).mp h)), if_pos (show pyIn "terminal" s = true from decide_eq_true h2)]
    simp only [runIfNotebook, runIfScript, runIf, henv, e5, e6, Bool.false_eq_true, if_false]
    exact ⟨ho, ho⟩
  · rintro s rfl h1 h2
    have henv : pythonEnvironment (some s) = none := by
      simp only [pythonEnvironment]
      rw [if_neg (fun h => h1 ((pyIn_notebook s).mp h)), if_neg (show ¬ pyIn "terminal" s = true from fun h => h2 (of_decide_eq_true h))]
    simp only [runIfNotebook, runIfScript, runIf, henv]
    exact ⟨trivial, trivial⟩

/-- A notebook. -/
example : Spec.IsNotebook (some "<class 'ipykernel.zmqshell.ZMQInteractiveShell'>") :=
  (pyIn_notebook _).mp (by decide +kernel)

/-- The type of `get_ipython()` in a hosted notebook service. -/
def hostedShell : String := "<class 'google.colab._shell.shell'>"

lemma hosted_other : ¬ Spec.IsNotebook (some hostedShell) ∧ ¬ "terminal".toList <:+: hostedShell.toList := by
  rw [← pyIn_notebook]
  constructor <;> decide +kernel

/-- **C121 is false of the code**: `nbshow()` in a hosted notebook neither shows nor closes the figures. -/
theorem C121_refuted : ¬ C121_Claim := by
  intro h
  have h1 := (h Unit (some hostedShell) (.ok none) none).2.2.2 (by simp)
  rw [((C121_partial (some hostedShell) (.ok none) none).2.2.2 _ rfl hosted_other.1 hosted_other.2).2] at h1
  cases h1

/-- `nbshow()` there raises `AttributeError`. -/
theorem C121_nbshow {R : Type*} (show' close : Res (Option R)) : nbshow (some hostedShell) show' close = .error .attributeError :=
  ((C121_partial (some hostedShell) show' (some close)).2.2.2 _ rfl hosted_other.1 hosted_other.2).1

end Kalepy
