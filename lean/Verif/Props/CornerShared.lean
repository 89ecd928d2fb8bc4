import Verif.Model.CornerShared
import Verif.Props.CornerLimits
import Mathlib.Tactic.IntervalCases

/-!
# C153: corner plots do not influence each other
-/

namespace Kalepy

variable {n : ℕ}

/-! ## Specification -/

/-- Specification: the calls of the plotting methods of one corner plot. -/
def Spec.callsOf (c : ℕ) : List (CornerOp n) → List (CornerCall n)
  | [] => []
  | .plot c' p :: os => if c' = c then p :: Spec.callsOf c os else Spec.callsOf c os
  | _ :: os => Spec.callsOf c os

/-- Specification: the values of the limits a constructor is given. -/
def Spec.Given (w : CornerWorld n) (limits : Option ℕ) (given : Option (Fin n → ℝ × ℝ)) : Prop :=
  match limits with
  | none => given = none
  | some a => ∃ l, given = some l ∧ ∀ i, (w.objs a).value i = some (l i)

/-- Specification: in any program, the limits shown in a corner plot are those of a program with this corner plot alone: they depend on the values
of the limits it was given and on what was plotted in it. -/
def C153_Claim (n : ℕ) (ok : CornerWorld n → Option ℕ → CornerWorld n → Prop) : Prop :=
  ∀ (before after : List (CornerOp n)) (limits : Option ℕ) (rotate : Bool) (w w1 w2 : CornerWorld n)
    (given : Option (Fin n → ℝ × ℝ)),
    (CornerWorld.start n).run before = .ok w → w.step (.corner limits rotate) = .ok w1 → w1.run after = .ok w2 →
    Spec.Given w limits given → ok w limits w2 →
    ∃ c, (Corner.new given rotate).calls (Spec.callsOf w.numCorners after) = .ok c ∧
      (w2.corners w.numCorners).axes = c.axes

/-- Specification: no two corner plots have been given the same object, and this one has not been given an array of integers. -/
def Spec.Unshared (w : CornerWorld n) (limits : Option ℕ) (w2 : CornerWorld n) : Prop :=
  (∀ c c', c < w2.numCorners → c' < w2.numCorners → (w2.corners c).limits = (w2.corners c').limits → c = c') ∧
    ∀ a, limits = some a → ∀ l, w.objs a ≠ .array .int l

/-! ## Proofs -/

/-- The addresses of the limits of all corner plots are in use. -/
def CornerWorld.Valid (w : CornerWorld n) : Prop := ∀ c < w.numCorners, (w.corners c).limits < w.numObjs

/-- The corner plot `k` is in the same state as the corner plot `c` alone. -/
structure Mirrors (w : CornerWorld n) (k : ℕ) (c : Corner n) : Prop where
  exists' : k < w.numCorners
  axes : (w.corners k).axes = c.axes
  rotate : (w.corners k).rotate = c.rotate
  auto : (w.corners k).auto = c.auto
  limits : ∀ i, (w.objs (w.corners k).limits).value i = c.limits i
  floats : ∀ l, w.objs (w.corners k).limits ≠ .array .int l

/-- What a step leaves as it was. -/
structure Keeps (w w' : CornerWorld n) : Prop where
  corners : w.numCorners ≤ w'.numCorners
  objs : w.numObjs ≤ w'.numObjs
  addr : ∀ c < w.numCorners, (w'.corners c).limits = (w.corners c).limits
  valid : w.Valid → w'.Valid

lemma Keeps.trans {w w' w'' : CornerWorld n} (h : Keeps w w') (h' : Keeps w' w'') : Keeps w w'' :=
  ⟨h.corners.trans h'.corners, h.objs.trans h'.objs,
    fun c hc => (h'.addr c (hc.trans_le h.corners)).trans (h.addr c hc), fun hv => h'.valid (h.valid hv)⟩

lemma keeps_newObj (w : CornerWorld n) (o : LimitsObj n) : Keeps w (w.newObj o) :=
  ⟨le_rfl, Nat.le_succ _, fun _ _ => rfl, fun hv c hc => (hv c hc).trans (Nat.lt_succ_self _)⟩

lemma keeps_newCorner (w : CornerWorld n) {a : ℕ} (ha : a < w.numObjs) (g : Option (Fin n → ℝ × ℝ)) (r : Bool) :
    Keeps w (w.newCorner a g r) := by
  refine ⟨Nat.le_succ _, le_rfl, fun c hc => ?_, fun hv c hc => ?_⟩
  · simp [CornerWorld.newCorner, Function.update_of_ne hc.ne]
  · by_cases h : c = w.numCorners
    · subst h
      simpa [CornerWorld.newCorner] using ha
    · have : c < w.numCorners := lt_of_le_of_ne (Nat.lt_succ_iff.mp hc) h
      simpa [CornerWorld.newCorner, Function.update_of_ne h] using hv c this

lemma step_keeps {w w' : CornerWorld n} {o : CornerOp n} (h : w.step o = .ok w') : Keeps w w' := by
  cases o with
  | limits o => simp only [CornerWorld.step] at h; cases h; exact keeps_newObj _ _
  | corner a r =>
    cases a with
    | none =>
      simp only [CornerWorld.step] at h
      cases h
      exact (keeps_newObj _ _).trans (keeps_newCorner _ (Nat.lt_succ_self _) _ _)
    | some a =>
      simp only [CornerWorld.step] at h
      split at h
      · rename_i hc
        cases h
        exact keeps_newCorner _ hc.1 _ _
      · cases h
  | plot c p =>
    simp only [CornerWorld.step] at h
    split at h
    · split at h
      · split at h
        · cases h
        · split at h
          · cases h
          · cases h
            refine ⟨le_rfl, le_rfl, fun c' _ => ?_, fun hv c' hc' => ?_⟩
            · by_cases e : c' = c
              · subst e; simp
              · simp [Function.update_of_ne e]
            · by_cases e : c' = c
              · subst e; simpa using hv c' hc'
              · simpa [Function.update_of_ne e] using hv c' hc'
      · cases h
        exact ⟨le_rfl, le_rfl, fun _ _ => rfl, id⟩
    · cases h

lemma run_keeps {w w' : CornerWorld n} {os : List (CornerOp n)} (h : w.run os = .ok w') : Keeps w w' := by
  induction os generalizing w with
  | nil => cases h; exact ⟨le_rfl, le_rfl, fun _ _ => rfl, id⟩
  | cons o os ih =>
    simp only [CornerWorld.run] at h
    split at h
    · cases h
    · rename_i w1 h1
      exact (step_keeps h1).trans (ih h)

/-- One step, for a corner plot that does not share its limits. -/
lemma step_mirrors {w w' : CornerWorld n} {o : CornerOp n} (h : w.step o = .ok w') (hv : w.Valid) {k : ℕ} {c : Corner n}
    (hm : Mirrors w k c) (hu : ∀ c < w.numCorners, (w.corners c).limits = (w.corners k).limits → c = k) :
    ∃ c', c.calls (Spec.callsOf k [o]) = .ok c' ∧ Mirrors w' k c' := by
  obtain ⟨h1, h2, h3, h4, h5, h6⟩ := hm
  have hk := hv k h1
  cases o with
  | limits o =>
    simp only [CornerWorld.step] at h
    cases h
    refine ⟨c, rfl, h1, h2, h3, h4, ?_, ?_⟩ <;> simpa [CornerWorld.newObj, Function.update_of_ne hk.ne]
  | corner a r =>
    refine ⟨c, rfl, ?_⟩
    cases a with
    | none =>
      simp only [CornerWorld.step] at h
      cases h
      refine ⟨Nat.lt_succ_of_lt h1, ?_, ?_, ?_, ?_, ?_⟩ <;>
        simpa [CornerWorld.newObj, CornerWorld.newCorner, Function.update_of_ne h1.ne, Function.update_of_ne hk.ne]
    | some a =>
      simp only [CornerWorld.step] at h
      split at h
      · cases h
        refine ⟨Nat.lt_succ_of_lt h1, ?_, ?_, ?_, ?_, ?_⟩ <;>
          simpa [CornerWorld.newCorner, Function.update_of_ne h1.ne]
      · cases h
  | plot c' p =>
    simp only [CornerWorld.step] at h
    split at h
    swap
    · cases h
    rename_i hc'
    by_cases hck : c' = k
    · subst hck
      simp only [Spec.callsOf, if_true, Corner.calls, Corner.call]
      rw [h4] at h
      split at h
      · rename_i hl
        rw [if_pos hl]
        have e : (fun i => cornerLimit (p.dt i) (p.vals i) ((w.objs (w.corners c').limits).value i))
            = fun i => cornerLimit (p.dt i) (p.vals i) (c.limits i) := funext fun i => by rw [h5]
        rw [e] at h
        cases hf : finSeq fun i => cornerLimit (p.dt i) (p.vals i) (c.limits i) with
        | error e => rw [hf] at h; cases h
        | ok l =>
          rw [hf] at h
          simp only at h ⊢
          have ho : ∃ o, (w.objs (w.corners c').limits).assign l = .ok o ∧ (∀ i, o.value i = some (l i)) ∧
              ∀ v, o ≠ .array .int v := by
            cases hobj : w.objs (w.corners c').limits with
            | list v => exact ⟨_, rfl, fun _ => rfl, fun _ => by simp⟩
            | array dt v =>
              cases dt with
              | float => exact ⟨_, rfl, fun _ => rfl, fun _ => by simp⟩
              | int => exact absurd hobj (h6 v)
            | tuple v =>
              rw [hobj] at h
              by_cases hn : n = 0
              · subst hn
                exact ⟨.tuple v, by simp [LimitsObj.assign], fun i => i.elim0, fun _ => by simp⟩
              · simp [LimitsObj.assign, hn] at h
          obtain ⟨o, ho1, ho2, ho3⟩ := ho
          rw [ho1] at h
          simp only at h
          cases h
          refine ⟨_, rfl, h1, ?_, ?_, ?_, ?_, ?_⟩
          · simp [ho2, h3, h2]
          · simp [h3]
          · simp [h4]
          · intro i; simp [ho2]
          · intro v; simpa using ho3 v
      · rename_i hl
        rw [if_neg hl]
        cases h
        exact ⟨c, rfl, h1, h2, h3, h4, h5, h6⟩
    · simp only [Spec.callsOf, if_neg hck, Corner.calls]
      refine ⟨c, rfl, ?_⟩
      have hne : (w.corners k).limits ≠ (w.corners c').limits := fun e => hck (hu c' hc' e.symm)
      split at h
      · split at h
        · cases h
        · split at h
          · cases h
          · cases h
            refine ⟨h1, ?_, ?_, ?_, ?_, ?_⟩ <;>
              simpa [Function.update_of_ne (Ne.symm hck), Function.update_of_ne hne]
      · cases h
        exact ⟨h1, h2, h3, h4, h5, h6⟩

lemma callsOf_cons (k : ℕ) (o : CornerOp n) (os : List (CornerOp n)) :
    Spec.callsOf k (o :: os) = Spec.callsOf k [o] ++ Spec.callsOf k os := by
  cases o <;> simp only [Spec.callsOf, List.nil_append]
  split <;> simp

lemma calls_append (c : Corner n) (ps qs : List (CornerCall n)) {c' : Corner n} (h : c.calls ps = .ok c') :
    c.calls (ps ++ qs) = c'.calls qs := by
  induction ps generalizing c with
  | nil => cases h; rfl
  | cons p ps ih =>
    simp only [List.cons_append, Corner.calls] at h ⊢
    cases hp : c.call p with
    | error e => rw [hp] at h; cases h
    | ok c1 =>
      rw [hp] at h
      exact ih c1 h

lemma run_mirrors {w w' : CornerWorld n} {os : List (CornerOp n)} (h : w.run os = .ok w') (hv : w.Valid) {k : ℕ}
    {c : Corner n} (hm : Mirrors w k c)
    (hu : ∀ c < w'.numCorners, (w'.corners c).limits = (w'.corners k).limits → c = k) :
    ∃ c', c.calls (Spec.callsOf k os) = .ok c' ∧ Mirrors w' k c' := by
  induction os generalizing w c with
  | nil => cases h; exact ⟨c, rfl, hm⟩
  | cons o os ih =>
    have hk := run_keeps h
    simp only [CornerWorld.run] at h
    split at h
    · cases h
    · rename_i w1 h1
      obtain ⟨c1, e1, m1⟩ := step_mirrors h1 hv hm fun c hc e =>
        hu c (hc.trans_le hk.corners) (by rw [hk.addr c hc, hk.addr k hm.exists', e])
      obtain ⟨c2, e2, m2⟩ := ih h ((step_keeps h1).valid hv) m1
      exact ⟨c2, by rw [callsOf_cons, calls_append c _ _ e1, e2], m2⟩

/-! ## The theorems -/

/-- **C153 (partial).** If no two corner plots are given the same object as limits and it is no array of integers, the limits shown in a corner plot
are those of the same calls on a corner plot alone, whatever else the program does.  Missing: shared objects and arrays of integers
(`C153_shared_refuted`, `C153_integers_refuted`). -/
theorem C153_alone_partial (n : ℕ) : C153_Claim n Spec.Unshared := by
  intro before after limits rotate w w1 w2 given h0 h1 h2 hg hu
  have hstart : (CornerWorld.start n).Valid := fun c hc => absurd hc (Nat.not_lt_zero _)
  have hv : w.Valid := (run_keeps h0).valid hstart
  have hv1 : w1.Valid := (step_keeps h1).valid hv
  have hm : Mirrors w1 w.numCorners (Corner.new given rotate) := by
    cases limits with
    | none =>
      simp only [CornerWorld.step] at h1
      cases h1
      cases hg
      refine ⟨Nat.lt_succ_self _, ?_, ?_, ?_, ?_, ?_⟩ <;>
        simp [CornerWorld.newCorner, CornerWorld.newObj, LimitsObj.value, Corner.new]
    | some a =>
      obtain ⟨l, rfl, hl⟩ := hg
      simp only [CornerWorld.step] at h1
      split at h1
      swap
      · cases h1
      cases h1
      have e : (fun i => ((w.objs a).value i).get (by simp [hl i])) = l := funext fun i => by simp [hl i]
      refine ⟨Nat.lt_succ_self _, ?_, ?_, ?_, ?_, ?_⟩
      · simp [CornerWorld.newCorner, e]
      · simp [CornerWorld.newCorner, Corner.new]
      · simp [CornerWorld.newCorner, Corner.new]
      · simp [CornerWorld.newCorner, Corner.new, hl]
      · intro v
        simpa [CornerWorld.newCorner] using hu.2 a rfl v
  obtain ⟨c, hc, hm'⟩ := run_mirrors h2 hv1 hm fun c hc e =>
    hu.1 c w.numCorners hc (hm.exists'.trans_le (run_keeps h2).corners) e
  exact ⟨c, hc, hm'.axes⟩

/-- **C153 (objects of the caller).** Plotting changes the object given as limits only in a call that asks for new limits; all other objects
of the caller stay as they are. -/
theorem C153_caller_partial {w w' : CornerWorld n} {o : CornerOp n} (h : w.step o = .ok w') {a : ℕ} (ha : a < w.numObjs)
    (hne : ∀ c p, o = .plot c p → (w.corners c).limits = a → p.limit.getD (w.corners c).auto = false) :
    w'.objs a = w.objs a := by
  cases o with
  | limits o => simp only [CornerWorld.step] at h; cases h; simp [CornerWorld.newObj, Function.update_of_ne ha.ne]
  | corner b r =>
    cases b with
    | none =>
      simp only [CornerWorld.step] at h
      cases h
      simp [CornerWorld.newCorner, CornerWorld.newObj, Function.update_of_ne ha.ne]
    | some b =>
      simp only [CornerWorld.step] at h
      split at h
      · cases h; rfl
      · cases h
  | plot c p =>
    have h3 := hne c p rfl
    simp only [CornerWorld.step] at h
    split at h
    swap
    · cases h
    split at h
    · rename_i hl
      split at h
      · cases h
      · split at h
        · cases h
        · cases h
          have : a ≠ (w.corners c).limits := fun e => by
            rw [h3 e.symm] at hl
            exact absurd hl (by simp)
          simp [Function.update_of_ne this]
    · cases h; rfl

/-! ### What goes wrong -/

/-- The limits of two floats. -/
lemma cornerLimit_pair {x y : ℝ} (h : x ≤ y) (prev : ℝ × ℝ) :
    cornerLimit .float [x, y] (some prev) =
      .ok (min ((x + y) / 2 - 11 / 10 * ((y - x) / 2)) prev.1, max ((x + y) / 2 + 11 / 10 * ((y - x) / 2)) prev.2) := by
  have he : IsExtrema [x, y] x y := by
    refine ⟨by simp, by simp, fun z hz => ?_⟩
    simp only [List.mem_cons, List.not_mem_nil, or_false] at hz
    rcases hz with rfl | rfl
    · exact ⟨le_rfl, h⟩
    · exact ⟨h, le_rfl⟩
  rw [cornerLimit_eq .float he (fun _ _ => trivial)]
  simp only [applyPrev, Option.map_some, DType.store, Spec.range, Spec.margin]
  congr 3 <;> ring

lemma step_plot {w : CornerWorld n} {c : ℕ} {p : CornerCall n} (hc : c < w.numCorners) (hl : p.limit = some true)
    {l : Fin n → ℝ × ℝ} (hf : ∀ i, cornerLimit (p.dt i) (p.vals i) ((w.objs (w.corners c).limits).value i) = .ok (l i))
    {o : LimitsObj n} (ho : (w.objs (w.corners c).limits).assign l = .ok o) :
    w.step (.plot c p) = .ok { w with
      objs := Function.update w.objs (w.corners c).limits o
      corners := Function.update w.corners c
        { w.corners c with
          axes := setExtrema (w.corners c).rotate (fun i => (o.value i).getD (0, 0)) (w.corners c).axes } } := by
  simp only [CornerWorld.step, if_pos hc, hl, Option.getD_some, if_true, finSeq_ok.mpr hf, ho]

lemma run_one {w w' : CornerWorld n} {o : CornerOp n} (h : w.step o = .ok w') : w.run [o] = .ok w' := by
  simp only [CornerWorld.run, h]

/-- **C153 fails** for an array of integers: the new limits are rounded towards zero, so that data are cut off.  Here the limits 0 and 1 are given
and the data -0.5 and 0.5 are plotted: the limits shown are still 0 and 1. -/
theorem C153_integers_refuted : ¬ C153_Claim 1 fun _ _ w2 => ∀ c c', c < w2.numCorners → c' < w2.numCorners →
    (w2.corners c).limits = (w2.corners c').limits → c = c' := by
  intro h
  have e0 : (CornerWorld.start 1).run [.limits (.array .int fun _ => (0, 1))]
      = .ok ((CornerWorld.start 1).newObj (.array .int fun _ => (0, 1))) := rfl
  obtain ⟨w, hw⟩ : ∃ w, w = (CornerWorld.start 1).newObj (.array .int fun _ => (0, 1)) := ⟨_, rfl⟩
  have hobj : w.objs 0 = .array .int fun _ => (0, 1) := by simp [hw, CornerWorld.newObj, CornerWorld.start]
  have hnc : w.numCorners = 0 := by rw [hw]; rfl
  rw [← hw] at e0
  have e1 : w.step (.corner (some 0) false) = .ok (w.newCorner 0 (some fun _ => (0, 1)) false) := by
    have : (0 < w.numObjs ∧ ∀ i, ((w.objs 0).value i).isSome = true) := ⟨by rw [hw]; exact Nat.zero_lt_one, by
      intro i; rw [hobj]; rfl⟩
    simp only [CornerWorld.step, dif_pos this]
    simp [hobj, LimitsObj.value]
  obtain ⟨w1, hw1⟩ : ∃ w1, w1 = w.newCorner 0 (some fun _ => (0, 1)) false := ⟨_, rfl⟩
  rw [← hw1] at e1
  have e2 := step_plot (w := w1) (c := 0) (p := .plotData .float (fun _ => [-1 / 2, 1 / 2]) (some true))
    (by rw [hw1]; exact Nat.succ_pos _) rfl
    (l := fun _ => (min ((-1 / 2 + 1 / 2) / 2 - 11 / 10 * ((1 / 2 - -1 / 2) / 2)) 0, max ((-1 / 2 + 1 / 2) / 2 + 11 / 10 * ((1 / 2 - -1 / 2) / 2)) 1))
    (fun i => by
      rw [hw1]
      simp only [CornerWorld.newCorner, hnc, Function.update_self, hobj, LimitsObj.value, CornerCall.dt, CornerCall.vals]
      rw [cornerLimit_pair (by norm_num)])
    (o := .array .int fun _ => (0, 1))
    (by
      rw [hw1]
      simp only [CornerWorld.newCorner, hnc, Function.update_self, hobj, LimitsObj.assign, DType.store, pyInt]
      norm_num)
  have e3 := run_one e2
  obtain ⟨c, hc, hax⟩ := h _ _ _ _ _ _ _ (some fun _ => (0, 1)) e0 e1 e3 ⟨_, rfl, fun i => by rw [hobj]; rfl⟩ (by
    intro c c' hc hc'
    rw [hw1] at hc hc'
    simp [CornerWorld.newCorner, hnc] at hc hc'
    omega)
  rw [hnc] at hc hax
  have hf := finSeq_ok.mpr fun _ : Fin 1 => cornerLimit_pair (x := -1 / 2) (y := 1 / 2) (by norm_num) (0, 1)
  simp only [Spec.callsOf, if_true, Corner.calls, Corner.call, CornerCall.limit, Option.getD_some, CornerCall.dt,
    CornerCall.vals, Corner.new, hf] at hc
  cases hc
  have := congrArg Panel.xlim (congrFun (congrFun hax 0) 0)
  rw [hw1] at this
  simp [setExtrema, CornerWorld.newCorner, hnc, LimitsObj.value] at this
  norm_num at this

/-- **C153 fails** for shared limits: two corner plots are given the same list of limits, and what is plotted in one of them with
`limit=True` changes the limits that the other one shows after its next plot. -/
theorem C153_shared_refuted : ¬ C153_Claim 1 fun w limits _ => ∀ a, limits = some a → ∀ l, w.objs a ≠ .array .int l := by
  intro h
  obtain ⟨w, hw⟩ : ∃ w, w = (CornerWorld.start 1).newObj (.list fun _ => some (0, 1)) := ⟨_, rfl⟩
  have hcorner : ∀ w : CornerWorld 1, 0 < w.numObjs → w.objs 0 = .list (fun _ => some (0, 1)) →
      w.step (.corner (some 0) false) = .ok (w.newCorner 0 (some fun _ => (0, 1)) false) := by
    intro w h0 hobj
    have : (0 < w.numObjs ∧ ∀ i, ((w.objs 0).value i).isSome = true) := ⟨h0, by intro i; rw [hobj]; rfl⟩
    simp only [CornerWorld.step, dif_pos this]
    simp [hobj, LimitsObj.value]
  have hobj : w.objs 0 = .list fun _ => some (0, 1) := by simp [hw, CornerWorld.newObj, CornerWorld.start]
  have hno : 0 < w.numObjs := by rw [hw]; exact Nat.zero_lt_one
  have hnc : w.numCorners = 0 := by rw [hw]; rfl
  obtain ⟨w0, hw0⟩ : ∃ w0, w0 = w.newCorner 0 (some fun _ => (0, 1)) false := ⟨_, rfl⟩
  have e0 : (CornerWorld.start 1).run [.limits (.list fun _ => some (0, 1)), .corner (some 0) false] = .ok w0 := by
    have := hcorner w hno hobj
    rw [hw] at this
    simp only [CornerWorld.run, CornerWorld.step] at this ⊢
    rw [this, hw0, hw]
  have hobj0 : w0.objs 0 = .list fun _ => some (0, 1) := by rw [hw0]; exact hobj
  have hnc0 : w0.numCorners = 1 := by rw [hw0]; simp [CornerWorld.newCorner, hnc]
  have e1 := hcorner w0 (by rw [hw0]; exact hno) hobj0
  obtain ⟨w1, hw1⟩ : ∃ w1, w1 = w0.newCorner 0 (some fun _ => (0, 1)) false := ⟨_, rfl⟩
  rw [← hw1] at e1
  have a0 : (w1.corners 0).limits = 0 := by simp [hw1, hw0, CornerWorld.newCorner, hnc]
  have a1 : (w1.corners 1).limits = 0 := by simp [hw1, CornerWorld.newCorner, hnc0]
  have r1 : (w1.corners 1).rotate = false := by simp [hw1, CornerWorld.newCorner, hnc0]
  have hobj1 : w1.objs 0 = .list fun _ => some (0, 1) := by rw [hw1]; exact hobj0
  have hnc1 : w1.numCorners = 2 := by simp [hw1, CornerWorld.newCorner, hnc0]
  obtain ⟨w2, hw2⟩ : ∃ w2, w1.step (.plot 0 (.plotData .float (fun _ => [4, 6]) (some true))) = .ok w2 ∧
      w2.objs 0 = .list (fun _ => some (0, 61 / 10)) ∧ w2.corners 1 = w1.corners 1 ∧ w2.numCorners = 2 := by
    refine ⟨_, step_plot (by omega) rfl
      (l := fun _ => (min ((4 + 6) / 2 - 11 / 10 * ((6 - 4) / 2)) 0, max ((4 + 6) / 2 + 11 / 10 * ((6 - 4) / 2)) 1))
      (fun i => ?_) (by rw [a0, hobj1]; rfl), ?_, ?_, ?_⟩
    · simp only [a0, hobj1, LimitsObj.value, CornerCall.dt, CornerCall.vals]
      rw [cornerLimit_pair (by norm_num)]
    · simp only [a0, Function.update_self]
      norm_num
    · simp
    · exact hnc1
  obtain ⟨e2, hobj2, hc2, hnc2⟩ := hw2
  obtain ⟨w3, e3, hc3⟩ : ∃ w3, w2.step (.plot 1 (.plotData .float (fun _ => [0, 1]) (some true))) = .ok w3 ∧
      ((w3.corners 1).axes 0 0).xlim = some (-1 / 20, 61 / 10) := by
    refine ⟨_, step_plot (by omega) rfl
      (l := fun _ => (min ((0 + 1) / 2 - 11 / 10 * ((1 - 0) / 2)) 0, max ((0 + 1) / 2 + 11 / 10 * ((1 - 0) / 2)) (61 / 10)))
      (fun i => ?_) (by rw [hc2, a1, hobj2]; rfl), ?_⟩
    · simp only [hc2, a1, hobj2, LimitsObj.value, CornerCall.dt, CornerCall.vals]
      rw [cornerLimit_pair (by norm_num)]
    · simp only [Function.update_self, hc2, r1, setExtrema, LimitsObj.value]
      norm_num
  have e4 : w1.run [.plot 0 (.plotData .float (fun _ => [4, 6]) (some true)),
      .plot 1 (.plotData .float (fun _ => [0, 1]) (some true))] = .ok w3 := by
    simp only [CornerWorld.run, e2, e3]
  obtain ⟨c, hc, hax⟩ := h _ _ _ _ _ _ _ (some fun _ => (0, 1)) e0 e1 e4 ⟨_, rfl, fun i => by rw [hobj0]; rfl⟩ (by
    rintro a ⟨⟩ l
    rw [hobj0]
    simp)
  rw [hnc0] at hc hax
  have hf := finSeq_ok.mpr fun _ : Fin 1 => cornerLimit_pair (x := 0) (y := 1) (by norm_num) (0, 1)
  simp only [Spec.callsOf, if_true, Corner.calls, Corner.call, CornerCall.limit, Option.getD_some, CornerCall.dt,
    CornerCall.vals, Corner.new, hf, zero_ne_one, if_false] at hc
  cases hc
  have := congrArg Panel.xlim (congrFun (congrFun hax 0) 0)
  rw [hc3] at this
  simp [setExtrema] at this
  norm_num at this

/-- Concrete case of `C153_alone_partial`: two corner plots, one with a list of limits, one with automatic limits. -/
example : ∃ w w1 w2, (CornerWorld.start 2).run [.limits (.list fun _ => some (0, 1))] = .ok w ∧
    w.step (.corner (some 0) true) = .ok w1 ∧
    w1.run [.corner none true, .plot 1 (.plotData .float (fun _ => [4, 6]) (some true)),
      .plot 0 (.plotData .float (fun _ => [4, 6]) (some true))] = .ok w2 ∧
    Spec.Given w (some 0) (some fun _ => (0, 1)) ∧ Spec.Unshared w (some 0) w2 := by
  obtain ⟨w, hw⟩ : ∃ w, w = (CornerWorld.start 2).newObj (.list fun _ => some (0, 1)) := ⟨_, rfl⟩
  have e0 : (CornerWorld.start 2).run [.limits (.list fun _ => some (0, 1))] = .ok w := by rw [hw]; rfl
  have hobj : w.objs 0 = .list fun _ => some (0, 1) := by simp [hw, CornerWorld.newObj, CornerWorld.start]
  have hno : w.numObjs = 1 := by rw [hw]; rfl
  have hnc : w.numCorners = 0 := by rw [hw]; rfl
  have e1 : w.step (.corner (some 0) true) = .ok (w.newCorner 0 (some fun _ => (0, 1)) true) := by
    have : (0 < w.numObjs ∧ ∀ i, ((w.objs 0).value i).isSome = true) := ⟨by omega, by intro i; rw [hobj]; rfl⟩
    simp only [CornerWorld.step, dif_pos this]
    simp [hobj, LimitsObj.value]
  obtain ⟨w1, hw1⟩ : ∃ w1, w1 = w.newCorner 0 (some fun _ => (0, 1)) true := ⟨_, rfl⟩
  rw [← hw1] at e1
  obtain ⟨w2, hw2⟩ : ∃ w2, w2 = (w1.newObj (.list fun _ => none)).newCorner w1.numObjs none true := ⟨_, rfl⟩
  have e2 : w1.step (.corner none true) = .ok w2 := by rw [hw2]; rfl
  have no1 : w1.numObjs = 1 := by simp [hw1, CornerWorld.newCorner, hno]
  have nc1 : w1.numCorners = 1 := by simp [hw1, CornerWorld.newCorner, hnc]
  have o0 : w2.objs 0 = .list fun _ => some (0, 1) := by
    simp [hw2, CornerWorld.newCorner, CornerWorld.newObj, hno, hw1, hobj]
  have o1 : w2.objs 1 = .list fun _ => none := by simp [hw2, CornerWorld.newCorner, CornerWorld.newObj, no1]
  have c0 : (w2.corners 0).limits = 0 := by
    simp [hw2, CornerWorld.newCorner, CornerWorld.newObj, nc1, hw1, hnc]
  have c1 : (w2.corners 1).limits = 1 := by
    simp [hw2, CornerWorld.newCorner, CornerWorld.newObj, nc1, no1]
  have nc2 : w2.numCorners = 2 := by simp [hw2, CornerWorld.newCorner, CornerWorld.newObj, nc1]
  have he : IsExtrema [(4 : ℝ), 6] 4 6 := by
    refine ⟨by simp, by simp, fun z hz => ?_⟩
    simp only [List.mem_cons, List.not_mem_nil, or_false] at hz
    rcases hz with rfl | rfl <;> norm_num
  have e3 := step_plot (w := w2) (c := 1) (p := .plotData .float (fun _ => [4, 6]) (some true)) (by omega) rfl
    (fun i => by
      simp only [c1, o1, LimitsObj.value, CornerCall.dt, CornerCall.vals]
      exact cornerLimit_eq .float he (fun _ _ => trivial) none)
    (by rw [c1, o1]; rfl)
  obtain ⟨w3, hw3⟩ : ∃ w3, w2.step (.plot 1 (.plotData .float (fun _ => [4, 6]) (some true))) = .ok w3 ∧
      w3.numCorners = 2 ∧ (w3.corners 0).limits = 0 ∧ (w3.corners 1).limits = 1 ∧
      w3.objs 0 = .list fun _ => some (0, 1) := ⟨_, e3, nc2, by simp [c0], by simp [c1],
        by simp [c1, o0]⟩
  obtain ⟨e3, nc3, d0, d1, o3⟩ := hw3
  have e4 := step_plot (w := w3) (c := 0) (p := .plotData .float (fun _ => [4, 6]) (some true)) (by omega) rfl
    (l := fun _ => (min ((4 + 6) / 2 - 11 / 10 * ((6 - 4) / 2)) 0, max ((4 + 6) / 2 + 11 / 10 * ((6 - 4) / 2)) 1))
    (fun i => by
      simp only [d0, o3, LimitsObj.value, CornerCall.dt, CornerCall.vals]
      rw [cornerLimit_pair (by norm_num)])
    (by rw [d0, o3]; rfl)
  obtain ⟨w4, e4, nc4, f0, f1⟩ : ∃ w4, w3.step (.plot 0 (.plotData .float (fun _ => [4, 6]) (some true))) = .ok w4 ∧
      w4.numCorners = 2 ∧ (w4.corners 0).limits = 0 ∧ (w4.corners 1).limits = 1 :=
    ⟨_, e4, nc3, by simp [d0], by simp [d1]⟩
  refine ⟨w, w1, w4, e0, e1, by simp only [CornerWorld.run, e2, e3, e4], ⟨_, rfl, fun i => by rw [hobj]; rfl⟩, ?_, ?_⟩
  · intro c c' hc hc'
    rw [nc4] at hc hc'
    interval_cases c <;> interval_cases c' <;> simp [f0, f1]
  · rintro a ⟨⟩ l
    rw [hobj]
    simp

end Kalepy
