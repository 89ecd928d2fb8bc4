import Verif.Props.CornerTarget

/-!
# C69: which call's arguments are used in a program of plot calls

`C69_refuted` shows that a later call need not use its own arguments.  Here it is said whose arguments it uses.
-/

namespace Kalepy

variable {V : Type*}

/-- The two arguments of a call that are written into the dictionaries. -/
private def argOf (ls : Bool) (c : KwCall V) : V := if ls then c.ls else c.quantiles

/-- Their keys. -/
private def keyOf (ls : Bool) : String := if ls then "ls" else "quantiles"

private lemma kwStep_val1 (yes no : V) (st : KwStore V) (c : KwCall V) (b : Bool) :
    (kwStep yes no st c).1.1 (keyOf b) = some (((c.dist1d.getD (st c.method).1) (keyOf b)).getD (argOf b c)) := by
  obtain ⟨v1, _, v3, _⟩ := kwStep_vals yes no st c
  cases b
  · exact v1
  · exact v3

private lemma kwStep_val2 (yes no : V) (st : KwStore V) (c : KwCall V) (b : Bool) :
    (kwStep yes no st c).1.2 (keyOf b) = some (((c.dist2d.getD (st c.method).2) (keyOf b)).getD (argOf b c)) := by
  obtain ⟨_, v2, _, v4⟩ := kwStep_vals yes no st c
  cases b
  · exact v2
  · exact v4

private lemma kwStep_store1 (yes no : V) (st : KwStore V) (c : KwCall V) (m : CornerMethod) :
    ((kwStep yes no st c).2 m).1 =
      if m = c.method ∧ c.dist1d = none then (kwStep yes no st c).1.1 else (st m).1 := by
  simp only [kwStep]
  by_cases hm : m = c.method <;> cases e : c.dist1d <;> simp [hm]

private lemma kwStep_store2 (yes no : V) (st : KwStore V) (c : KwCall V) (m : CornerMethod) :
    ((kwStep yes no st c).2 m).2 =
      if m = c.method ∧ c.dist2d = none then (kwStep yes no st c).1.2 else (st m).2 := by
  simp only [kwStep]
  by_cases hm : m = c.method <;> cases e : c.dist2d <;> simp [hm]

/-- One of the two dictionaries of a call or of the store. -/
private def side {A : Type*} (two : Bool) (p : A × A) : A := if two then p.2 else p.1

/-- The dictionary given by a call, if any. -/
private def given (two : Bool) (c : KwCall V) : Option (KwDict V) := if two then c.dist2d else c.dist1d

private lemma step_val (two : Bool) (yes no : V) (st : KwStore V) (c : KwCall V) (b : Bool) :
    side two (kwStep yes no st c).1 (keyOf b) =
      some ((((given two c).getD (side two (st c.method))) (keyOf b)).getD (argOf b c)) := by
  cases two
  · exact kwStep_val1 yes no st c b
  · exact kwStep_val2 yes no st c b

private lemma step_store (two : Bool) (yes no : V) (st : KwStore V) (c : KwCall V) (m : CornerMethod) :
    side two ((kwStep yes no st c).2 m) =
      if m = c.method ∧ given two c = none then side two (kwStep yes no st c).1 else side two (st m) := by
  cases two
  · exact kwStep_store1 yes no st c m
  · exact kwStep_store2 yes no st c m

private lemma stays (two : Bool) (yes no : V) (b : Bool) (c : KwCall V) (hg : given two c = none) (v : V)
    (ds : KwDict V × KwDict V) : ∀ (calls : List (KwCall V)) (st : KwStore V) (k : ℕ), calls[k]? = some c →
      (kwRun yes no st calls)[k]? = some ds → side two (st c.method) (keyOf b) = some v →
      side two ds (keyOf b) = some v := by
  intro calls
  induction calls with
  | nil => intro st k hk; simp at hk
  | cons a as ih =>
    intro st k hk hd h
    cases k with
    | zero =>
      simp only [List.getElem?_cons_zero, Option.some.injEq] at hk
      subst hk
      simp only [kwRun, List.getElem?_cons_zero, Option.some.injEq] at hd
      subst hd
      rw [step_val, hg]
      simp [h]
    | succ k =>
      simp only [List.getElem?_cons_succ] at hk
      simp only [kwRun, List.getElem?_cons_succ] at hd
      refine ih _ k hk hd ?_
      rw [step_store]
      split_ifs with hm
      · rw [step_val, hm.2, ← hm.1]
        simp [h]
      · exact h

private lemma first (two : Bool) (yes no : V) (c : KwCall V) (hg : given two c = none)
    (ds : KwDict V × KwDict V) : ∀ (calls : List (KwCall V)) (st : KwStore V) (k : ℕ), calls[k]? = some c →
      (kwRun yes no st calls)[k]? = some ds → (∀ b, side two (st c.method) (keyOf b) = none) →
      ∃ j ≤ k, ∃ c', calls[j]? = some c' ∧ c'.method = c.method ∧ given two c' = none ∧
        (∀ i < j, ∀ c'', calls[i]? = some c'' → c''.method = c.method → given two c'' ≠ none) ∧
        ∀ b, side two ds (keyOf b) = some (argOf b c') := by
  intro calls
  induction calls with
  | nil => intro st k hk; simp at hk
  | cons a as ih =>
    intro st k hk hd h
    by_cases ha : c.method = a.method ∧ given two a = none
    · refine ⟨0, by omega, a, rfl, ha.1.symm, ha.2, by omega, fun b => ?_⟩
      have hv : side two (kwStep yes no st a).1 (keyOf b) = some (argOf b a) := by
        rw [step_val, ha.2, ← ha.1]; simp [h]
      cases k with
      | zero =>
        simp only [kwRun, List.getElem?_cons_zero, Option.some.injEq] at hd
        rw [← hd, hv]
      | succ k =>
        simp only [List.getElem?_cons_succ] at hk
        simp only [kwRun, List.getElem?_cons_succ] at hd
        refine stays two yes no b c hg _ ds as _ k hk hd ?_
        rw [step_store, if_pos ha, hv]
    · cases k with
      | zero =>
        simp only [List.getElem?_cons_zero, Option.some.injEq] at hk
        subst hk
        exact absurd ⟨rfl, hg⟩ ha
      | succ k =>
        simp only [List.getElem?_cons_succ] at hk
        simp only [kwRun, List.getElem?_cons_succ] at hd
        obtain ⟨j, hj, c', h1, h2, h3, h4, h5⟩ := ih _ k hk hd (by intro b; rw [step_store, if_neg ha]; exact h b)
        refine ⟨j + 1, by omega, c', by simpa using h1, h2, h3, ?_, h5⟩
        intro i hi c'' hc'' hm
        cases i with
        | zero =>
          simp only [List.getElem?_cons_zero, Option.some.injEq] at hc''
          subst hc''
          exact fun hn => ha ⟨hm.symm, hn⟩
        | succ i => exact h4 i (by omega) c'' (by simpa using hc'') hm

/-- **C69, what happens instead.** In every program, a call without `dist1d` draws its 1D panels with the `quantiles` and `ls`
of the first call in the program of the same method without `dist1d`: that call may be on another plot, and every later one
has its own arguments ignored.  The same holds of `dist2d` and the 2D panels. -/
theorem C69_actual (yes no : V) (calls : List (KwCall V)) (k : ℕ) (c : KwCall V) (ds : KwDict V × KwDict V)
    (hc : calls[k]? = some c) (hd : (kwRun yes no KwStore.empty calls)[k]? = some ds) :
    (c.dist1d = none → ∃ j ≤ k, ∃ c', calls[j]? = some c' ∧ c'.method = c.method ∧ c'.dist1d = none ∧
      (∀ i < j, ∀ c'', calls[i]? = some c'' → c''.method = c.method → c''.dist1d ≠ none) ∧
      ds.1 "quantiles" = some c'.quantiles ∧ ds.1 "ls" = some c'.ls) ∧
    (c.dist2d = none → ∃ j ≤ k, ∃ c', calls[j]? = some c' ∧ c'.method = c.method ∧ c'.dist2d = none ∧
      (∀ i < j, ∀ c'', calls[i]? = some c'' → c''.method = c.method → c''.dist2d ≠ none) ∧
      ds.2 "quantiles" = some c'.quantiles ∧ ds.2 "ls" = some c'.ls) := by
  constructor
  · intro hg
    obtain ⟨j, hj, c', h1, h2, h3, h4, h5⟩ := first false yes no c hg ds calls KwStore.empty k hc hd (fun _ => rfl)
    exact ⟨j, hj, c', h1, h2, h3, h4, h5 false, h5 true⟩
  · intro hg
    obtain ⟨j, hj, c', h1, h2, h3, h4, h5⟩ := first true yes no c hg ds calls KwStore.empty k hc hd (fun _ => rfl)
    exact ⟨j, hj, c', h1, h2, h3, h4, h5 false, h5 true⟩

/-- The third call of this program uses the quantiles 5 of the first one, not its own 9. -/
example : ∀ ds, (kwRun 1 0 KwStore.empty [⟨.plot, 5, 7, none, none⟩, ⟨.clean, 6, 8, none, none⟩,
    ⟨.plot, 9, 7, none, none⟩])[2]? = some ds → ds.1 "quantiles" = some 5 := by
  intro ds h
  obtain ⟨j, hj, c', h1, h2, h3, h4, h5, -⟩ := (C69_actual 1 0 _ 2 ⟨.plot, 9, 7, none, none⟩ ds rfl h).1 rfl
  have : j = 0 := by
    by_contra hne
    exact h4 0 (by omega) _ rfl rfl rfl
  subst this
  simp only [List.getElem?_cons_zero, Option.some.injEq] at h1
  subst h1
  exact h5

end Kalepy
