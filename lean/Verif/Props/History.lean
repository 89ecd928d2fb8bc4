import Verif.Spec.Calls
import Verif.Props.Init

/-!
# Results do not depend on the history of calls (C14)
-/

namespace Kalepy

variable {d : ℕ}

/-- The object with all caches emptied. -/
def KDE.fresh (k : KDE d) : KDE d :=
  { k with
    kernel := { k.kernel with cacheInv := none, cacheNorm := none }
    pointsVal := none
    cdfCache := none }

/-- All caches are empty or hold the value that would be computed. -/
structure CachesOk (E : Ext) (srt : List ℝ → List ℕ) (k : KDE d) : Prop where
  inv : ∀ M, k.kernel.cacheInv = some M → M = matrixInvert E k.kernel.matrix
  norm : ∀ x, k.kernel.cacheNorm = some x → x = Real.sqrt |k.kernel.matrix.det|
  points : ∀ rows, k.pointsVal = some rows → k.fresh.computePoints srt = .ok rows
  cdf : ∀ g, k.cdfCache = some g → (k.fresh.cdfGrid E srt).1 = .ok g

/-- A method whose result does not depend on the state of the caches. -/
def Transparent {α : Type} (E : Ext) (srt : List ℝ → List ℕ) (f : KDE d → α × KDE d) : Prop :=
  ∀ k, CachesOk E srt k → (f k).1 = (f k.fresh).1 ∧ CachesOk E srt (f k).2 ∧ (f k).2.fresh = k.fresh

lemma fresh_fresh (k : KDE d) : k.fresh.fresh = k.fresh := rfl

lemma cachesOk_fresh (E : Ext) (srt : List ℝ → List ℕ) (k : KDE d) : CachesOk E srt k.fresh :=
  ⟨by simp [KDE.fresh], by simp [KDE.fresh], by simp [KDE.fresh], by simp [KDE.fresh]⟩

/-- Two steps in a row; an exception ends the computation. -/
def andThen {α β : Type} (r : Res α × KDE d) (g : α → KDE d → Res β × KDE d) : Res β × KDE d :=
  match r with
  | (.error e, k) => (.error e, k)
  | (.ok a, k) => g a k

lemma Transparent.congr {α : Type} {E : Ext} {srt : List ℝ → List ℕ} {f f' : KDE d → α × KDE d}
    (h : Transparent E srt f) (he : ∀ k, f' k = f k) : Transparent E srt f' := by
  rwa [show f' = f from funext he]

lemma Transparent.bind {α β : Type} {E : Ext} {srt : List ℝ → List ℕ} {f : KDE d → Res α × KDE d}
    {g : α → KDE d → Res β × KDE d} (hf : Transparent E srt f) (hg : ∀ a, Transparent E srt (g a)) :
    Transparent E srt fun k => andThen (f k) g := by
  intro k hk
  obtain ⟨h1, h2, h3⟩ := hf k hk
  obtain ⟨h1', h2', h3'⟩ := hf k.fresh (cachesOk_fresh E srt k)
  rcases e : f k with ⟨r, k'⟩
  rcases e' : f k.fresh with ⟨r', k''⟩
  rw [e] at h1 h2 h3
  rw [e'] at h1 h1' h2' h3'
  simp only at h1 h2 h3 h2' h3'
  subst h1
  simp only [e, e']
  cases r with
  | error e => exact ⟨rfl, h2, h3⟩
  | ok a =>
    obtain ⟨g1, g2, g3⟩ := hg a k' h2
    obtain ⟨g1', _, _⟩ := hg a k'' h2'
    refine ⟨?_, g2, g3.trans h3⟩
    simp only [andThen]
    rw [g1, g1', h3, h3', fresh_fresh]

lemma transparent_points (E : Ext) (srt : List ℝ → List ℕ) :
    Transparent (d := d) E srt fun k => k.points srt := by
  intro k hk
  cases hp : k.pointsVal with
  | some rows =>
    have := hk.points rows hp
    refine ⟨?_, ?_, ?_⟩
    · simp only [KDE.points, hp]
      simp only [KDE.fresh] at this ⊢
      rw [this]
      rfl
    · simpa only [KDE.points, hp] using hk
    · simp only [KDE.points, hp]
  | none =>
    cases hc : k.computePoints srt with
    | error e =>
      have hc' : k.fresh.computePoints srt = .error e := hc
      refine ⟨?_, ?_, ?_⟩
      · simp only [KDE.points, hp, hc, hc']
        rfl
      · simpa only [KDE.points, hp, hc] using hk
      · simp only [KDE.points, hp, hc]
    | ok rows =>
      have hc' : k.fresh.computePoints srt = .ok rows := hc
      refine ⟨?_, ?_, ?_⟩
      · simp only [KDE.points, hp, hc, hc']
        rfl
      · simp only [KDE.points, hp, hc]
        exact ⟨hk.inv, hk.norm, fun r hr => by cases hr; exact hc', hk.cdf⟩
      · simp only [KDE.points, hp, hc]
        rfl

/-- The kernel with its caches emptied. -/
def Kernel.fresh (k : Kernel d) : Kernel d := { k with cacheInv := none, cacheNorm := none }

lemma Kernel.caches {E : Ext} {k : Kernel d} (h1 : ∀ M, k.cacheInv = some M → M = matrixInvert E k.matrix)
    (h2 : ∀ x, k.cacheNorm = some x → x = Real.sqrt |k.matrix.det|) :
    (k.matrixInv E).1 = matrixInvert E k.matrix ∧ (k.matrixInv E).2.normVal.1 = Real.sqrt |k.matrix.det| ∧
    (k.matrixInv E).2.normVal.2 = { k with
      cacheInv := some (matrixInvert E k.matrix)
      cacheNorm := some (Real.sqrt |k.matrix.det|) } := by
  obtain ⟨D, b, c, M, h, ch, ci, cn⟩ := k
  cases ci with
  | none => cases cn with
    | none => exact ⟨rfl, rfl, rfl⟩
    | some x => simp only [Kernel.matrixInv, Kernel.normVal]; rw [h2 x rfl]; exact ⟨by trivial, by trivial, rfl⟩
  | some A => cases cn with
    | none => simp only [Kernel.matrixInv, Kernel.normVal]; rw [h1 A rfl]; exact ⟨by trivial, by trivial, rfl⟩
    | some x => simp only [Kernel.matrixInv, Kernel.normVal]; rw [h1 A rfl, h2 x rfl]; exact ⟨by trivial, by trivial, rfl⟩

lemma cachesOk_kernel {E : Ext} {srt : List ℝ → List ℕ} {k : KDE d} (hk : CachesOk E srt k) {kern : Kernel d}
    (h : kern = { k.kernel with
      cacheInv := some (matrixInvert E k.kernel.matrix)
      cacheNorm := some (Real.sqrt |k.kernel.matrix.det|) }) :
    CachesOk E srt { k with kernel := kern } ∧ KDE.fresh { k with kernel := kern } = k.fresh := by
  subst h
  exact ⟨⟨fun M hM => by cases hM; rfl, fun x hx => by cases hx; rfl, hk.points, hk.cdf⟩, rfl⟩

lemma transparent_evalKernel (E : Ext) (srt : List ℝ → List ℕ) (sel : Option (List (Fin d))) (cols : Cols ℝ)
    (reflect : Reflect) : Transparent (d := d) E srt fun k => k.evalKernel E sel cols reflect := by
  intro k hk
  have hc := Kernel.caches hk.inv hk.norm
  have hc' := Kernel.caches (cachesOk_fresh E srt k).inv (cachesOk_fresh E srt k).norm
  cases sel with
  | none =>
    simp only [KDE.evalKernel]
    have hds : k.fresh.dataset = k.dataset := rfl
    rw [hds]
    cases checkReflect k.dataset reflect with
    | error e => exact ⟨rfl, hk, rfl⟩
    | ok r =>
      simp only [Kernel.density, hc.1, hc.2.1, hc.2.2, hc'.1, hc'.2.1, hc'.2.2]
      exact ⟨rfl, (cachesOk_kernel hk rfl).1, rfl⟩
  | some ps =>
    simp only [KDE.evalKernel]
    have hds : k.fresh.dataset = k.dataset := rfl
    rw [hds]
    cases checkReflect (selectCols k.dataset ps) reflect with
    | error e => exact ⟨rfl, hk, rfl⟩
    | ok r =>
      simp only [Kernel.densityParams, hc.1, hc.2.1, hc.2.2, hc'.1, hc'.2.1, hc'.2.2]
      exact ⟨rfl, (cachesOk_kernel hk rfl).1, rfl⟩

lemma transparent_pure {α : Type} (E : Ext) (srt : List ℝ → List ℕ) (a : KDE d → α)
    (h : ∀ k : KDE d, a k = a k.fresh) : Transparent (d := d) E srt fun k => (a k, k) :=
  fun k hk => ⟨h k, hk, rfl⟩

lemma transparent_choosePoints (E : Ext) (srt : List ℝ → List ℕ) (points : Option Pts)
    (sel : Option (List (Fin d))) (grid squeeze : Bool) :
    Transparent (d := d) E srt fun k => k.choosePoints srt points sel grid squeeze := by
  cases points with
  | some p =>
    cases p with
    | flat l => exact transparent_pure E srt _ fun _ => rfl
    | rows l => exact transparent_pure E srt _ fun _ => rfl
  | none =>
    refine ((transparent_points E srt).bind (g := fun pts k => (.ok (match sel with
      | none => (⟨pts, decide (1 < d), squeeze⟩ : PtsUse)
      | some ps => ⟨.rows (ps.map fun i : Fin d => pts.toRows.getD i []), decide (1 < ps.length), squeeze⟩), k))
        fun a => transparent_pure E srt _ fun _ => rfl).congr fun k => ?_
    simp only [KDE.choosePoints]
    rcases k.points srt with ⟨_ | pts, k1⟩
    · rfl
    · cases sel <;> rfl

/-- The last step of `density`. -/
noncomputable def finish (u : PtsUse) (probability : Bool) (vals : List ℝ) (k : KDE d) : Res (Pts × Arr) × KDE d :=
  (.ok (packResult u (if probability then vals.map (· / k.totalWeight) else vals)), k)

/-- `density` after the choice of the points. -/
noncomputable def evalPoints (E : Ext) (sel : Option (List (Fin d))) (r : Reflect) (probability : Bool) (u : PtsUse)
    (k : KDE d) : Res (Pts × Arr) × KDE d :=
  match toCols u.evalRows with
  | .error e => (.error e, k)
  | .ok cols => andThen (k.evalKernel E sel cols r) (finish u probability)

lemma density_eq_steps (E : Ext) (srt : List ℝ → List ℕ) (k : KDE d) (points : Option Pts) (reflect : Reflect)
    (params : ParamArg) (grid probability : Bool) {sel : Option (List (Fin d))} {squeeze : Bool}
    (hs : paramSel d params = .ok (sel, squeeze)) {r : Reflect}
    (hr : reflectLength d (numSel sel) (k.defaultReflect sel reflect) = .ok r) :
    k.density E srt points reflect params grid probability
      = andThen (k.choosePoints srt points sel grid squeeze) (evalPoints E sel r probability) := by
  simp only [KDE.density, hs, hr]
  rcases k.choosePoints srt points sel grid squeeze with ⟨_ | u, k1⟩
  · rfl
  · simp only [andThen, evalPoints]
    cases toCols u.evalRows with
    | error e => rfl
    | ok cols =>
      simp only
      rcases k1.evalKernel E sel cols r with ⟨_ | vals, k2⟩ <;> rfl

lemma transparent_density (E : Ext) (srt : List ℝ → List ℕ) (points : Option Pts) (reflect : Reflect)
    (params : ParamArg) (grid probability : Bool) :
    Transparent (d := d) E srt fun k => k.density E srt points reflect params grid probability := by
  cases hs : paramSel d params with
  | error e =>
    intro k hk
    simp only [KDE.density, hs]
    exact ⟨by trivial, hk, by trivial⟩
  | ok s =>
    obtain ⟨sel, squeeze⟩ := s
    intro k hk
    cases hr : reflectLength d (numSel sel) (k.defaultReflect sel reflect) with
    | error e =>
      have hr' : reflectLength d (numSel sel) (k.fresh.defaultReflect sel reflect) = .error e := hr
      simp only [KDE.density, hs, hr, hr']
      exact ⟨by trivial, hk, by trivial⟩
    | ok r =>
      have hr' : reflectLength d (numSel sel) (k.fresh.defaultReflect sel reflect) = .ok r := hr
      simp only [density_eq_steps E srt k points reflect params grid probability hs hr,
        density_eq_steps E srt k.fresh points reflect params grid probability hs hr']
      refine ((transparent_choosePoints E srt points sel grid squeeze).bind
        (g := evalPoints E sel r probability) ?_) k hk
      intro u
      change Transparent E srt fun k => evalPoints E sel r probability u k
      simp only [evalPoints]
      cases toCols u.evalRows with
      | error e => exact transparent_pure E srt (fun _ => (Except.error e : Res (Pts × Arr))) fun _ => rfl
      | ok cols =>
        exact (transparent_evalKernel E srt sel cols r).bind (g := finish u probability)
          fun a => transparent_pure E srt _ fun _ => rfl

/-- The last step of the computation of the cumulative distribution. -/
noncomputable def cdfFinish (pts : Pts) (pdf : Pts × Arr) (k : KDE d) : Res (CdfGrid d) × KDE d :=
  (cdfOf (d := d) pts.toRows pdf.2, k)

/-- The last two steps. -/
noncomputable def cdfEval (E : Ext) (srt : List ℝ → List ℕ) (pts : Pts) (k : KDE d) : Res (CdfGrid d) × KDE d :=
  andThen (k.density E srt (some pts) .none .none true true) (cdfFinish pts)

/-- The computation of the cumulative distribution without storing the result. -/
noncomputable def cdfPlain (E : Ext) (srt : List ℝ → List ℕ) (k : KDE d) : Res (CdfGrid d) × KDE d :=
  andThen (k.points srt) (cdfEval E srt)

lemma transparent_cdfPlain (E : Ext) (srt : List ℝ → List ℕ) : Transparent (d := d) E srt (cdfPlain E srt) :=
  (transparent_points E srt).bind (g := cdfEval E srt) fun pts =>
    (transparent_density E srt (some pts) .none .none true true).bind (g := cdfFinish pts) fun _ =>
      transparent_pure E srt _ fun _ => rfl

lemma cdfGrid_plain (E : Ext) (srt : List ℝ → List ℕ) (k : KDE d) (hc : k.cdfCache = none) :
    (k.cdfGrid E srt).1 = (cdfPlain E srt k).1 ∧
    ((k.cdfGrid E srt).2 = (cdfPlain E srt k).2 ∨
      ∃ g, (k.cdfGrid E srt).1 = .ok g ∧
        (k.cdfGrid E srt).2 = { (cdfPlain E srt k).2 with cdfCache := some g }) := by
  simp only [KDE.cdfGrid, hc, cdfPlain, KDE.pdf]
  rcases k.points srt with ⟨_ | pts, k1⟩
  · exact ⟨rfl, Or.inl rfl⟩
  · simp only [andThen, cdfEval, cdfFinish]
    rcases k1.density E srt (some pts) .none .none true true with ⟨_ | ⟨p, pdf⟩, k2⟩
    · exact ⟨rfl, Or.inl rfl⟩
    · simp only
      cases h : cdfOf (d := d) pts.toRows pdf with
      | error e => exact ⟨rfl, Or.inl rfl⟩
      | ok g => exact ⟨rfl, Or.inr ⟨g, rfl, rfl⟩⟩

lemma transparent_cdfGrid (E : Ext) (srt : List ℝ → List ℕ) :
    Transparent (d := d) E srt fun k => k.cdfGrid E srt := by
  intro k hk
  cases hc : k.cdfCache with
  | some g =>
    have := hk.cdf g hc
    simp only [this]
    simp only [KDE.cdfGrid, hc]
    exact ⟨by trivial, hk, by trivial⟩
  | none =>
    obtain ⟨k1, k2, k3⟩ := transparent_cdfPlain E srt k hk
    obtain ⟨p1, p2⟩ := cdfGrid_plain E srt k hc
    obtain ⟨q1, q2⟩ := cdfGrid_plain E srt k.fresh rfl
    have h1 : (k.cdfGrid E srt).1 = (k.fresh.cdfGrid E srt).1 := by rw [p1, q1]; exact k1
    refine ⟨h1, ?_, ?_⟩
    · rcases p2 with h | ⟨g, hg, h⟩
      · simp only [h]; exact k2
      · simp only [h]
        have hf : KDE.fresh { (cdfPlain E srt k).2 with cdfCache := some g } = k.fresh := k3
        refine ⟨k2.inv, k2.norm, k2.points, fun g' hg' => ?_⟩
        cases hg'
        rw [hf, ← h1, hg]
    · rcases p2 with h | ⟨g, _, h⟩
      · simp only [h]; exact k3
      · simp only [h]; exact k3

lemma transparent_cdf (E : Ext) (srt : List ℝ → List ℕ) (p : Pts) (params : ParamArg) (reflect : Reflect) :
    Transparent (d := d) E srt fun k => k.cdf E srt p params reflect := by
  unfold KDE.cdf
  split
  · refine ((transparent_cdfGrid E srt).bind (g := fun g k => ((cdfPoints d p).map fun l => l.map g.interp, k))
      fun a => transparent_pure E srt _ fun _ => rfl).congr fun k => ?_
    rcases k.cdfGrid E srt with ⟨_ | g, k1⟩ <;> rfl
  · exact transparent_pure E srt _ fun _ => rfl

lemma transparent_call (E : Ext) (srt : List ℝ → List ℕ) (c : Spec.Call d) :
    Transparent E srt fun k => Spec.call E srt k c := by
  have lift : ∀ {α : Type} {f : KDE d → α × KDE d} (o : α → Spec.Outcome d), Transparent E srt f →
      Transparent E srt fun k => (o (f k).1, (f k).2) := by
    intro α f o hf k hk
    obtain ⟨h1, h2, h3⟩ := hf k hk
    exact ⟨by simp only [h1], h2, h3⟩
  cases c with
  | points => exact lift _ (transparent_points E srt)
  | density p r ps g pr => exact lift _ (transparent_density E srt p r ps g pr)
  | pdf p r ps g => exact lift _ (transparent_density E srt p r ps g true)
  | cdf p ps r => exact lift _ (transparent_cdf E srt p ps r)
  | resample n kp r sq rnd =>
    refine transparent_pure E srt (fun k => Spec.Outcome.samples (k.resample n kp r sq rnd)) fun k => ?_
    cases r <;> rfl

lemma fresh_of_init {E : Ext} {a : KDEArgs d} {k : KDE d} (h : KDE.init E a = .ok k) : k.fresh = k := by
  obtain ⟨_, _, _, _, _, _, _, _, _, _, _, _, _, _, _, _, _, _, rfl⟩ := init_inv h
  rfl

/-- **C14.** Whatever calls were made on the object before, every call returns (or raises) the same as it does
as the first call on a newly constructed object. -/
theorem C14_history (E : Ext) (srt : List ℝ → List ℕ) {a : KDEArgs d} {k : KDE d} (h : KDE.init E a = .ok k)
    (history : List (Spec.Call d)) (c : Spec.Call d) :
    (Spec.call E srt (history.foldl (fun k c => (Spec.call E srt k c).2) k) c).1 = (Spec.call E srt k c).1 := by
  have inv : ∀ (history : List (Spec.Call d)) (k' : KDE d), CachesOk E srt k' → k'.fresh = k →
      CachesOk E srt (history.foldl (fun k c => (Spec.call E srt k c).2) k') ∧
        (history.foldl (fun k c => (Spec.call E srt k c).2) k').fresh = k := by
    intro history
    induction history with
    | nil => exact fun k' h1 h2 => ⟨h1, h2⟩
    | cons c l ih =>
      intro k' h1 h2
      obtain ⟨_, g2, g3⟩ := transparent_call E srt c k' h1
      exact ih _ g2 (g3.trans h2)
  obtain ⟨h1, h2⟩ := inv history k (by rw [← fresh_of_init h]; exact cachesOk_fresh E srt k) (fresh_of_init h)
  rw [(transparent_call E srt c _ h1).1, h2]

/-- **C14.** The same for the default evaluation points: the first use fixes the value, and it is the value
computed from the arguments of the constructor. -/
theorem C14_points (E : Ext) (srt : List ℝ → List ℕ) {a : KDEArgs d} {k : KDE d} (h : KDE.init E a = .ok k)
    (history : List (Spec.Call d)) :
    ((history.foldl (fun k c => (Spec.call E srt k c).2) k).points srt).1
      = (k.computePoints srt).map k.shapePoints := by
  have := C14_history E srt h history .points
  rw [Spec.call, Spec.call, Spec.Outcome.points.injEq] at this
  rw [this]
  have hf := fresh_of_init h
  have hp : k.pointsVal = none := by rw [← hf]; rfl
  simp only [KDE.points, hp]
  cases k.computePoints srt <;> rfl

/-- Concrete case of the hypothesis (`C16_accepted`), with a history of five calls. -/
example (rnd : ℕ → ℕ → Draw 1) :
    ∃ (E : Ext) (a : KDEArgs 1) (k : KDE 1) (history : List (Spec.Call 1)), KDE.init E a = .ok k ∧
      history = [.points, .cdf (.flat [0, 1]) .none .none, .density none .none (.scalar 0) false false,
        .pdf (some (.flat [0, 1])) .none .none false, .resample (some 3) .none .none true rnd] := by
  obtain ⟨k, hk, _⟩ := C16_accepted (d := 1) ⟨fun A => A, id⟩ [![0], ![1]] (by simp) [1, 2]
    ⟨rfl, by simp, 1, by simp, by norm_num⟩ .box rfl 1 1 (by intro i; fin_cases i; simp)
  exact ⟨_, _, k, _, hk, rfl⟩

end Kalepy
