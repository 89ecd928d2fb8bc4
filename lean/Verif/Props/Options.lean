import Mathlib.Tactic.Linarith
import Verif.Model.Options

/-!
# C139: the dictionaries of plot options can be reused
-/

namespace Kalepy

variable {V : Type*}

/-! ## Specification -/

/-- Specification: the options of the panels on the diagonal that a method chooses if the caller does not. -/
def Spec.default1 (yes no q dq ls : V) : OptMethod → String → Option V
  | .clean, k => [("density", yes), ("confidence", no), ("carpet", no), ("hist", no), ("quantiles", q), ("ls", ls)].lookup k
  | .hist, k => [("density", no), ("confidence", no), ("carpet", no), ("hist", yes), ("quantiles", dq)].lookup k
  | .plot, k => [("density", yes), ("confidence", yes), ("carpet", yes), ("hist", no), ("quantiles", q), ("ls", ls)].lookup k
  | .plotKde, k =>
    [("density", yes), ("confidence", yes), ("carpet", no), ("hist", no), ("quantiles", q), ("ls", ls)].lookup k
  | .plotData, k => [("density", no), ("confidence", no), ("carpet", yes), ("hist", yes), ("quantiles", dq)].lookup k

/-- Specification: the same for the panels below the diagonal. -/
def Spec.default2 (yes no q dq ls : V) : OptMethod → String → Option V
  | .clean, k => [("hist", no), ("contour", yes), ("scatter", no), ("mask_dense", no), ("mask_below", no), ("quantiles", q),
      ("ls", ls)].lookup k
  | .hist, k => [("hist", yes), ("contour", no), ("scatter", no), ("mask_dense", no), ("mask_below", no),
      ("quantiles", dq)].lookup k
  | .plot, k => [("hist", yes), ("contour", yes), ("scatter", yes), ("mask_below", yes), ("quantiles", q),
      ("ls", ls)].lookup k
  | .plotKde, k => [("hist", no), ("contour", yes), ("scatter", no), ("mask_below", yes), ("quantiles", q),
      ("ls", ls)].lookup k
  | .plotData, k => [("hist", yes), ("contour", no), ("scatter", yes), ("mask_dense", yes), ("mask_below", yes),
      ("quantiles", dq)].lookup k

/-- Specification: the two calls are given a common dictionary. -/
def Spec.ShareDict (c c' : OptCall V) : Prop :=
  c'.ref1 = c.ref1 ∨ c'.ref1 = c.ref2 ∨ c'.ref2 = c.ref1 ∨ c'.ref2 = c.ref2

/-- **C139 (full statement, not true of the code).** In every program, a call that is given dictionaries of options draws with
the options that these dictionaries had at the start of the program. -/
def C139_Claim : Prop :=
  ∀ (m : KwMem ℕ) (calls : List (OptCall ℕ)) (k : ℕ) (c : OptCall ℕ), calls[k]? = some c →
    c.dist1d ≠ none → c.dist2d ≠ none →
    (optProgram 1 0 id m calls)[k]? = some (c.run 1 0 id m).1

/-! ## `setdefault` -/

/-- A dictionary entry after a sequence of `setdefault`s. -/
lemma setdefaults_apply (ops : List (DictRef × String × V)) (m : KwMem V) (r : DictRef) (k : String) :
    ops.foldl KwMem.setdefault m r k
      = (m r k).or ((ops.find? fun o => o.1 = r ∧ o.2.1 = k).map fun o => o.2.2) := by
  induction ops generalizing m with
  | nil => simp
  | cons o ops ih =>
    rw [List.foldl_cons, ih, List.find?_cons]
    by_cases h1 : o.1 = r
    · subst h1
      have e : KwMem.setdefault m o o.1 k = if k = o.2.1 then some ((m o.1 o.2.1).getD o.2.2) else m o.1 k := by
        simp only [KwMem.setdefault, Function.update_self]
        rfl
      rw [e]
      by_cases h2 : o.2.1 = k
      · subst h2
        cases h : m o.1 o.2.1 <;> simp
      · have h3 : ¬ k = o.2.1 := fun e => h2 e.symm
        simp [h2, h3]
    · have e : KwMem.setdefault m o r = m r := Function.update_of_ne (fun e => h1 e.symm) _ _
      simp [e, h1]

lemma setdefaults_some {ops : List (DictRef × String × V)} {m : KwMem V} {r : DictRef} {k : String} {v : V}
    (h : m r k = some v) : ops.foldl KwMem.setdefault m r k = some v := by
  rw [setdefaults_apply, h]; rfl

/-- Repeating the calls changes nothing. -/
lemma setdefaults_idem (ops : List (DictRef × String × V)) (m : KwMem V) :
    ops.foldl KwMem.setdefault (ops.foldl KwMem.setdefault m) = ops.foldl KwMem.setdefault m := by
  funext r k
  rw [setdefaults_apply ops (ops.foldl KwMem.setdefault m), setdefaults_apply ops m]
  cases h : m r k <;> simp

/-- Only the dictionary itself matters. -/
lemma setdefaults_congr (ops : List (DictRef × String × V)) {m m' : KwMem V} {r : DictRef} (h : m r = m' r) :
    ops.foldl KwMem.setdefault m r = ops.foldl KwMem.setdefault m' r := by
  funext k
  rw [setdefaults_apply, setdefaults_apply, h]

lemma setdefaults_other {ops : List (DictRef × String × V)} (m : KwMem V) {r : DictRef} (h : ∀ o ∈ ops, o.1 ≠ r) :
    ops.foldl KwMem.setdefault m r = m r := by
  funext k
  rw [setdefaults_apply, List.find?_eq_none.mpr]
  · simp
  · intro o ho
    simp [h o ho]

lemma ops_refs (yes no : V) (c : OptCall V) : ∀ o ∈ c.ops yes no, o.1 = c.ref1 ∨ o.1 = c.ref2 := by
  intro o ho
  unfold OptCall.ops at ho
  revert ho
  cases c.method <;> simp only [List.cons_append, List.nil_append, List.mem_cons, List.not_mem_nil, or_false] <;>
    · intro ho
      aesop

/-- The outcome of a call depends only on its dictionaries. -/
lemma run_congr (yes no : V) (dq : V → V) (c : OptCall V) {m m' : KwMem V}
    (h1 : (c.ops yes no).foldl KwMem.setdefault m c.ref1 = (c.ops yes no).foldl KwMem.setdefault m' c.ref1)
    (h2 : (c.ops yes no).foldl KwMem.setdefault m c.ref2 = (c.ops yes no).foldl KwMem.setdefault m' c.ref2) :
    (c.run yes no dq m).1 = (c.run yes no dq m').1 := by
  simp only [OptCall.run, h1, h2]

/-! ## C139 -/

/-- **C139 (partial).** A call draws with the options that its dictionaries had at the start of the program if each earlier call
that was given one of them was the same call, or a call of `plot_data` (which changes no dictionary).  Missing: dictionaries that
were given to other calls before, to which these have added their own defaults. -/
theorem C139_partial (yes no : V) (dq : V → V) (m : KwMem V) (calls : List (OptCall V)) (k : ℕ) (c : OptCall V)
    (hc : calls[k]? = some c)
    (h : ∀ j < k, ∀ c', calls[j]? = some c' → Spec.ShareDict c c' → c' = c ∨ c'.method = .plotData) :
    (optProgram yes no dq m calls)[k]? = some (c.run yes no dq m).1 := by
  have key : ∀ (calls : List (OptCall V)) (m' : KwMem V) (k : ℕ), calls[k]? = some c →
      (∀ j < k, ∀ c', calls[j]? = some c' → Spec.ShareDict c c' → c' = c ∨ c'.method = .plotData) →
      ((m' c.ref1 = m c.ref1 ∧ m' c.ref2 = m c.ref2) ∨
        (m' c.ref1 = (c.ops yes no).foldl KwMem.setdefault m c.ref1 ∧
          m' c.ref2 = (c.ops yes no).foldl KwMem.setdefault m c.ref2)) →
      (optProgram yes no dq m' calls)[k]? = some (c.run yes no dq m).1 := by
    intro calls
    induction calls with
    | nil => intro m' k hk; simp at hk
    | cons a as ih =>
      intro m' k hk h hm
      cases k with
      | zero =>
        simp only [List.getElem?_cons_zero, Option.some.injEq] at hk
        subst hk
        simp only [optProgram, List.getElem?_cons_zero, Option.some.injEq]
        rcases hm with ⟨h1, h2⟩ | ⟨h1, h2⟩
        · exact run_congr yes no dq a (setdefaults_congr _ h1) (setdefaults_congr _ h2)
        · refine run_congr yes no dq a ?_ ?_
          · rw [setdefaults_congr _ h1, setdefaults_idem]
          · rw [setdefaults_congr _ h2, setdefaults_idem]
      | succ k =>
        simp only [List.getElem?_cons_succ] at hk
        simp only [optProgram, List.getElem?_cons_succ]
        refine ih _ k hk (fun j hj c' hc' => h (j + 1) (by omega) c' (by simpa using hc')) ?_
        have h0 := h 0 (by omega) a rfl
        simp only [OptCall.run]
        by_cases hs : Spec.ShareDict c a
        · rcases h0 hs with rfl | hpd
          · right
            rcases hm with ⟨h1, h2⟩ | ⟨h1, h2⟩
            · exact ⟨setdefaults_congr _ h1, setdefaults_congr _ h2⟩
            · exact ⟨by
                show (a.ops yes no).foldl KwMem.setdefault m' a.ref1 = _
                rw [setdefaults_congr _ h1, setdefaults_idem], by
                show (a.ops yes no).foldl KwMem.setdefault m' a.ref2 = _
                rw [setdefaults_congr _ h2, setdefaults_idem]⟩
          · have : a.ops yes no = [] := by simp [OptCall.ops, hpd]
            simpa only [this, List.foldl_nil] using hm
        · have hs' := hs
          simp only [Spec.ShareDict, not_or] at hs'
          have e1 : (a.ops yes no).foldl KwMem.setdefault m' c.ref1 = m' c.ref1 := setdefaults_other _ fun o ho => by
            rcases ops_refs yes no a o ho with e | e <;> rw [e]
            · exact hs'.1
            · exact hs'.2.2.1
          have e2 : (a.ops yes no).foldl KwMem.setdefault m' c.ref2 = m' c.ref2 := setdefaults_other _ fun o ho => by
            rcases ops_refs yes no a o ho with e | e <;> rw [e]
            · exact hs'.2.1
            · exact hs'.2.2.2
          rw [e1, e2]
          exact hm
  exact key calls m k hc h (Or.inl ⟨rfl, rfl⟩)

/-- A concrete case: `plot_kde` with the caller's dictionaries 0 and 1, `hist` with its defaults, `plot_data` with 0 and 2, and
`plot_kde` with 0 and 1 again: the last draws as the first. -/
example (m : KwMem ℕ) :
    (optProgram 1 0 id m [⟨.plotKde, 5, 7, some 0, some 1⟩, ⟨.hist, 5, 7, none, none⟩, ⟨.plotData, 5, 7, some 0, some 2⟩,
      ⟨.plotKde, 5, 7, some 0, some 1⟩])[3]? = some (OptCall.run 1 0 id m ⟨.plotKde, 5, 7, some 0, some 1⟩).1 := by
  refine C139_partial 1 0 id m _ 3 _ rfl fun j hj c' hc' hs => ?_
  have : j = 0 ∨ j = 1 ∨ j = 2 := by omega
  rcases this with rfl | rfl | rfl <;> simp only [List.getElem?_cons_succ, List.getElem?_cons_zero, Option.some.injEq] at hc' <;>
    subst hc'
  · exact Or.inl rfl
  · simp [Spec.ShareDict, OptCall.ref1, OptCall.ref2] at hs
  · exact Or.inr rfl

/-- **C139: what the caller has chosen stays.** No call changes or removes an entry of a dictionary. -/
theorem C139_kept (yes no : V) (dq : V → V) (m : KwMem V) (calls : List (OptCall V)) (r : DictRef) (k : String) (v : V)
    (h : m r k = some v) : calls.foldl (fun m c => (c.run yes no dq m).2) m r k = some v := by
  induction calls generalizing m with
  | nil => exact h
  | cons c cs ih => exact ih _ (setdefaults_some h)

lemma ops_reserved (yes no : V) (c : OptCall V) (hne : c.ref1 ≠ c.ref2) :
    ∀ o ∈ c.ops yes no, o.1 = c.ref1 → o.2.1 ∉ reserved1 c.method.ofData := by
  have hne' := hne.symm
  cases h : c.method <;>
    simp only [OptCall.ops, h, List.cons_append, List.nil_append, List.forall_mem_cons] <;>
    (repeat' apply And.intro) <;>
    first | exact fun _ => by decide | exact fun e => absurd e hne' | (intro o ho; simp at ho)

lemma ops_accepted (yes no : V) (c : OptCall V) (hne : c.ref1 ≠ c.ref2) :
    ∀ o ∈ c.ops yes no, o.1 = c.ref2 → o.2.1 ∈ accepted2 c.method.ofData := by
  cases h : c.method <;>
    simp only [OptCall.ops, h, List.cons_append, List.nil_append, List.forall_mem_cons] <;>
    (repeat' apply And.intro) <;>
    first | exact fun _ => by decide | exact fun e => absurd e hne | (intro o ho; simp at ho)

lemma setdefault_or (d : KwDict V) (k : String) (v : V) (j : String) :
    d.setdefault k v j = (d j).or (if j = k then some v else none) := by
  unfold KwDict.setdefault
  by_cases h : j = k
  · subst h
    cases h2 : d j <;> simp
  · simp [h]

lemma options_fst (yes no : V) (dq : V → V) (m : KwMem V) (c : OptCall V) (hne : c.ref1 ≠ c.ref2) (k : String) :
    (c.options yes no dq ((c.ops yes no).foldl KwMem.setdefault m c.ref1)
      ((c.ops yes no).foldl KwMem.setdefault m c.ref2)).1 k
      = (m c.ref1 k).or (Spec.default1 yes no c.quantiles (dq c.quantiles) c.ls c.method k) := by
  have hne' := hne.symm
  have e := setdefaults_apply (c.ops yes no) m c.ref1
  generalize List.foldl KwMem.setdefault m (c.ops yes no) c.ref1 = d1 at *
  generalize List.foldl KwMem.setdefault m (c.ops yes no) c.ref2 = d2 at *
  by_cases hk : k ∈ ["density", "confidence", "carpet", "hist", "quantiles", "ls"]
  · simp only [List.mem_cons, List.not_mem_nil, or_false] at hk
    cases h : c.method <;> rcases hk with rfl | rfl | rfl | rfl | rfl | rfl <;>
      simp [OptCall.options, OptCall.ops, OptMethod.ofData, h, setdefault_or, e, Spec.default1, hne, hne',
        List.find?_cons, List.lookup]
  · simp only [List.mem_cons, List.not_mem_nil, or_false, not_or] at hk
    obtain ⟨k1, k2, k3, k4, k5, k6⟩ := hk
    have b1 := beq_eq_false_iff_ne.mpr k1
    have b2 := beq_eq_false_iff_ne.mpr k2
    have b3 := beq_eq_false_iff_ne.mpr k3
    have b4 := beq_eq_false_iff_ne.mpr k4
    have b5 := beq_eq_false_iff_ne.mpr k5
    have b6 := beq_eq_false_iff_ne.mpr k6
    cases h : c.method <;>
      simp [OptCall.options, OptCall.ops, OptMethod.ofData, h, setdefault_or, e, Spec.default1, hne, hne',
        List.find?_cons, List.lookup, k1, k2, k3, k4, k5, k6, Ne.symm k1, Ne.symm k2, Ne.symm k3, Ne.symm k4, Ne.symm k5,
        Ne.symm k6, b1, b2, b3, b4, b5, b6]

lemma options_snd (yes no : V) (dq : V → V) (m : KwMem V) (c : OptCall V) (hne : c.ref1 ≠ c.ref2) (k : String) :
    (c.options yes no dq ((c.ops yes no).foldl KwMem.setdefault m c.ref1)
      ((c.ops yes no).foldl KwMem.setdefault m c.ref2)).2 k
      = (m c.ref2 k).or (Spec.default2 yes no c.quantiles (dq c.quantiles) c.ls c.method k) := by
  have hne' := hne.symm
  have e := setdefaults_apply (c.ops yes no) m c.ref2
  generalize List.foldl KwMem.setdefault m (c.ops yes no) c.ref1 = d1 at *
  generalize List.foldl KwMem.setdefault m (c.ops yes no) c.ref2 = d2 at *
  by_cases hk : k ∈ ["hist", "contour", "scatter", "mask_dense", "mask_below", "quantiles", "ls"]
  · simp only [List.mem_cons, List.not_mem_nil, or_false] at hk
    cases h : c.method <;> rcases hk with rfl | rfl | rfl | rfl | rfl | rfl | rfl <;>
      simp [OptCall.options, OptCall.ops, OptMethod.ofData, h, setdefault_or, e, Spec.default2, hne, hne',
        List.find?_cons, List.lookup]
  · simp only [List.mem_cons, List.not_mem_nil, or_false, not_or] at hk
    obtain ⟨k1, k2, k3, k4, k5, k6, k7⟩ := hk
    have b1 := beq_eq_false_iff_ne.mpr k1
    have b2 := beq_eq_false_iff_ne.mpr k2
    have b3 := beq_eq_false_iff_ne.mpr k3
    have b4 := beq_eq_false_iff_ne.mpr k4
    have b5 := beq_eq_false_iff_ne.mpr k5
    have b6 := beq_eq_false_iff_ne.mpr k6
    have b7 := beq_eq_false_iff_ne.mpr k7
    cases h : c.method <;>
      simp [OptCall.options, OptCall.ops, OptMethod.ofData, h, setdefault_or, e, Spec.default2, hne, hne',
        List.find?_cons, List.lookup, k1, k2, k3, k4, k5, k6, k7, Ne.symm k1, Ne.symm k2, Ne.symm k3, Ne.symm k4, Ne.symm k5,
        Ne.symm k6, Ne.symm k7, b1, b2, b3, b4, b5, b6, b7]

/-- **C139: the options of a call.** If `dist1d` and `dist2d` are two dictionaries and have no keys that collide with other
arguments or that `dist2d` does not know, the panels are drawn with the entries of the dictionaries, and with the defaults of
the method for what is not in them. -/
theorem C139_options (yes no : V) (dq : V → V) (m : KwMem V) (c : OptCall V) (hne : c.ref1 ≠ c.ref2)
    (h1 : ∀ k ∈ reserved1 c.method.ofData, m c.ref1 k = none)
    (h2 : ∀ k, m c.ref2 k ≠ none → k ∈ accepted2 c.method.ofData) :
    ∃ o, (c.run yes no dq m).1 = .ok o ∧
      ∀ k, o.1 k = (m c.ref1 k).or (Spec.default1 yes no c.quantiles (dq c.quantiles) c.ls c.method k) ∧
        o.2 k = (m c.ref2 k).or (Spec.default2 yes no c.quantiles (dq c.quantiles) c.ls c.method k) := by
  have hne' : c.ref2 ≠ c.ref1 := hne.symm
  have e1 : ∀ k, (c.ops yes no).foldl KwMem.setdefault m c.ref1 k
      = (m c.ref1 k).or (((c.ops yes no).find? fun o => o.1 = c.ref1 ∧ o.2.1 = k).map fun o => o.2.2) :=
    setdefaults_apply _ _ _
  have e2 : ∀ k, (c.ops yes no).foldl KwMem.setdefault m c.ref2 k
      = (m c.ref2 k).or (((c.ops yes no).find? fun o => o.1 = c.ref2 ∧ o.2.1 = k).map fun o => o.2.2) :=
    setdefaults_apply _ _ _
  refine ⟨c.options yes no dq ((c.ops yes no).foldl KwMem.setdefault m c.ref1)
    ((c.ops yes no).foldl KwMem.setdefault m c.ref2), ?_, fun k => ?_⟩
  · simp only [OptCall.run, OptCall.outcome]
    rw [if_neg, if_neg]
    · rintro ⟨k, hk, hk'⟩
      have hn : m c.ref2 k = none := by
        by_contra hcon
        exact hk (h2 k hcon)
      apply hk'
      rw [e2, hn, Option.none_or, Option.map_eq_none_iff, List.find?_eq_none]
      intro o ho
      simp only [decide_eq_true_eq, not_and]
      rintro ho1 rfl
      apply hk
      exact ops_accepted yes no c hne o ho ho1
    · rintro ⟨k, hk, hk'⟩
      apply hk'
      rw [e1, h1 k hk, Option.none_or, Option.map_eq_none_iff, List.find?_eq_none]
      intro o ho
      simp only [decide_eq_true_eq, not_and]
      rintro ho1 rfl
      exact ops_reserved yes no c hne o ho ho1 hk
  · exact ⟨options_fst yes no dq m c hne k, options_snd yes no dq m c hne k⟩

/-- A concrete case: `plot` with `dist1d=dict(carpet=False)` and `dist2d=dict(sigmas=[1, 2])` (the value 9). -/
example : ∃ o : Options ℕ, (OptCall.run 1 0 id
      (fun r k => if r = .user 0 ∧ k = "carpet" then some 0 else if r = .user 1 ∧ k = "sigmas" then some 9 else none)
      ⟨.plot, 5, 7, some 0, some 1⟩).1 = .ok o ∧ o.1 "carpet" = some 0 ∧ o.1 "density" = some 1 ∧ o.2 "sigmas" = some 9 ∧
      o.2 "quantiles" = some 5 ∧ o.2 "mask_dense" = none := by
  obtain ⟨o, ho, h⟩ := C139_options 1 0 id
    (fun r k => if r = .user 0 ∧ k = "carpet" then some 0 else if r = .user 1 ∧ k = "sigmas" then some 9 else none)
    ⟨.plot, 5, 7, some 0, some 1⟩ (by simp [OptCall.ref1, OptCall.ref2])
    (by
      intro k hk
      have : k ≠ "carpet" := by
        rintro rfl
        exact absurd hk (by decide)
      simp [OptCall.ref1, this])
    (by
      intro k hk
      have : k = "sigmas" := by
        by_contra hne
        simp [OptCall.ref2, hne] at hk
      subst this
      decide)
  refine ⟨o, ho, ?_, ?_, ?_, ?_, ?_⟩
  · simp [(h "carpet").1, OptCall.ref1]
  · simp [(h "density").1, OptCall.ref1, Spec.default1, List.lookup]
  · simp [(h "sigmas").2, OptCall.ref2]
  · simp [(h "quantiles").2, OptCall.ref2, Spec.default2, List.lookup]
  · simp [(h "mask_dense").2, OptCall.ref2, Spec.default2, List.lookup]

/-- **C139: one dictionary for both arguments** cannot be given to `clean`, `hist` or `plot`: their default for the diagonal is
then also passed to the panels below, which do not know it. -/
theorem C139_one_dict (yes no : V) (dq : V → V) (m : KwMem V) (c : OptCall V) (he : c.ref1 = c.ref2)
    (hm : c.method = .clean ∨ c.method = .hist ∨ c.method = .plot) : (c.run yes no dq m).1 = .error .typeError := by
  simp only [OptCall.run, OptCall.outcome]
  split_ifs with h1 h2
  · rfl
  · rfl
  · refine absurd ⟨"density", ?_, ?_⟩ h2
    · rcases hm with h | h | h <;> rw [h] <;> decide
    · rw [← he, setdefaults_apply]
      have : ((c.ops yes no).find? fun o => o.1 = c.ref1 ∧ o.2.1 = "density").isSome := by
        rw [List.find?_isSome]
        rcases hm with h | h | h <;> simp only [OptCall.ops, h] <;>
          simp
      intro hcon
      rw [Option.or_eq_none_iff, Option.map_eq_none_iff] at hcon
      rw [hcon.2] at this
      cases this

/-- A concrete case: `style = dict(); corner.clean(dist1d=style, dist2d=style)`. -/
example : (OptCall.run 1 0 id (fun _ _ => none) (⟨.clean, 5, 7, some 0, some 0⟩ : OptCall ℕ)).1 = .error .typeError :=
  C139_one_dict 1 0 id _ _ rfl (Or.inl rfl)

/-- **C139 fails**: `plot_kde` adds the key `quantiles` to the dictionary it is given, and `plot_data`, given the same dictionary
next, raises `TypeError`. -/
theorem C139_refuted : ¬ C139_Claim := by
  intro h
  have := h (fun _ _ => none) [⟨.plotKde, 5, 7, some 0, some 1⟩, ⟨.plotData, 5, 7, some 0, some 1⟩] 1
    ⟨.plotData, 5, 7, some 0, some 1⟩ rfl (by simp) (by simp)
  obtain ⟨o, ho, -⟩ := C139_options 1 0 id (fun _ _ => (none : Option ℕ)) ⟨.plotData, 5, 7, some 0, some 1⟩
    (by simp [OptCall.ref1, OptCall.ref2]) (fun _ _ => rfl) (fun _ h => absurd rfl h)
  rw [ho] at this
  simp only [optProgram, List.getElem?_cons_succ, List.getElem?_cons_zero, Option.some.injEq] at this
  simp only [OptCall.run, OptCall.outcome] at this
  rw [if_pos] at this
  · cases this
  · refine ⟨"quantiles", by decide, ?_⟩
    have e := setdefaults_apply (V := ℕ) (OptCall.ops 1 0 ⟨.plotKde, 5, 7, some 0, some 1⟩) (fun _ _ => none) (.user 0)
      "quantiles"
    simp only [OptCall.ops, OptCall.ref1, OptCall.ref2, List.foldl_nil] at e ⊢
    rw [e]
    simp

end Kalepy
