import Verif.Model.Alias
import Verif.Props.History
import Verif.Props.Evaluate
import Verif.Props.Cdf

/-!
# C138: a `KDE` object and the arrays of its caller
-/

namespace Kalepy

variable {d : ℕ}

/-! ## The covariance is not used after the construction -/

/-- The object with another covariance, but the same kernel matrix. -/
def KDE.setCov (C : Matrix (Fin d) (Fin d) ℝ) (k : KDE d) : KDE d :=
  { k with
    covariance := C
    kernel := { k.kernel with covariance := C } }

/-- The covariance does not influence this method. -/
def NoCov {α : Type} (C : Matrix (Fin d) (Fin d) ℝ) (f : KDE d → α × KDE d) : Prop :=
  ∀ k, f (k.setCov C) = ((f k).1, (f k).2.setCov C)

lemma NoCov.bind {α β : Type} {C : Matrix (Fin d) (Fin d) ℝ} {f : KDE d → Res α × KDE d}
    {g : α → KDE d → Res β × KDE d} (hf : NoCov C f) (hg : ∀ a, NoCov C (g a)) :
    NoCov C fun k => andThen (f k) g := by
  intro k
  simp only [hf k]
  rcases f k with ⟨_ | a, k'⟩
  · rfl
  · exact hg a k'

lemma NoCov.congr {α : Type} {C : Matrix (Fin d) (Fin d) ℝ} {f f' : KDE d → α × KDE d} (h : NoCov C f)
    (he : ∀ k, f' k = f k) : NoCov C f' := by
  rwa [show f' = f from funext he]

lemma noCov_points (C : Matrix (Fin d) (Fin d) ℝ) (srt : List ℝ → List ℕ) : NoCov C fun k => k.points srt := by
  intro k
  have h1 : (k.setCov C).computePoints srt = k.computePoints srt := rfl
  simp only [KDE.points, h1]
  have h2 : (k.setCov C).pointsVal = k.pointsVal := rfl
  rw [h2]
  cases k.pointsVal with
  | some r => rfl
  | none => cases k.computePoints srt <;> rfl

lemma noCov_choosePoints (C : Matrix (Fin d) (Fin d) ℝ) (srt : List ℝ → List ℕ) (points : Option Pts)
    (sel : Option (List (Fin d))) (grid squeeze : Bool) :
    NoCov C fun k => k.choosePoints srt points sel grid squeeze := by
  intro k
  cases points with
  | some p => cases p <;> rfl
  | none =>
    have := noCov_points C srt k
    simp only at this
    simp only [KDE.choosePoints, this]
    rcases k.points srt with ⟨_ | pts, k1⟩
    · rfl
    · cases sel <;> rfl

lemma matrixInv_setCov (E : Ext) (C : Matrix (Fin d) (Fin d) ℝ) (k : Kernel d) :
    Kernel.matrixInv E { k with covariance := C } = ((k.matrixInv E).1, { (k.matrixInv E).2 with covariance := C }) := by
  obtain ⟨D, b, c, M, h, ch, ci, cn⟩ := k
  cases ci <;> rfl

lemma normVal_setCov (C : Matrix (Fin d) (Fin d) ℝ) (k : Kernel d) :
    Kernel.normVal { k with covariance := C } = (k.normVal.1, { k.normVal.2 with covariance := C }) := by
  obtain ⟨D, b, c, M, h, ch, ci, cn⟩ := k
  cases cn <;> rfl

lemma matrixInv_fields (E : Ext) (k : Kernel d) : (k.matrixInv E).2.matrix = k.matrix ∧ (k.matrixInv E).2.dist = k.dist := by
  obtain ⟨D, b, c, M, h, ch, ci, cn⟩ := k
  cases ci <;> exact ⟨rfl, rfl⟩

lemma noCov_evalKernel (C : Matrix (Fin d) (Fin d) ℝ) (E : Ext) (sel : Option (List (Fin d))) (cols : Cols ℝ)
    (reflect : Reflect) : NoCov C fun k => k.evalKernel E sel cols reflect := by
  intro k
  cases sel with
  | none =>
    have h1 : (k.setCov C).dataset = k.dataset := rfl
    simp only [KDE.evalKernel, h1]
    cases checkReflect k.dataset reflect with
    | error e => rfl
    | ok r =>
      have h2 : (k.setCov C).kernel = { k.kernel with covariance := C } := rfl
      simp only [h2, Kernel.density, matrixInv_setCov, normVal_setCov]
      rfl
  | some ps =>
    have h1 : (k.setCov C).dataset = k.dataset := rfl
    simp only [KDE.evalKernel, h1]
    cases checkReflect (selectCols k.dataset ps) reflect with
    | error e => rfl
    | ok r =>
      have h2 : (k.setCov C).kernel = { k.kernel with covariance := C } := rfl
      simp only [h2, Kernel.densityParams, matrixInv_setCov, normVal_setCov]
      rfl

lemma noCov_density (C : Matrix (Fin d) (Fin d) ℝ) (E : Ext) (srt : List ℝ → List ℕ) (points : Option Pts)
    (reflect : Reflect) (params : ParamArg) (grid probability : Bool) :
    NoCov C fun k => k.density E srt points reflect params grid probability := by
  intro k
  cases hs : paramSel d params with
  | error e => simp only [KDE.density, hs]
  | ok s =>
    obtain ⟨sel, squeeze⟩ := s
    cases hr : reflectLength d (numSel sel) (k.defaultReflect sel reflect) with
    | error e =>
      have hr' : reflectLength d (numSel sel) ((k.setCov C).defaultReflect sel reflect) = .error e := hr
      simp only [KDE.density, hs, hr, hr']
    | ok r =>
      have hr' : reflectLength d (numSel sel) ((k.setCov C).defaultReflect sel reflect) = .ok r := hr
      simp only [density_eq_steps E srt k points reflect params grid probability hs hr,
        density_eq_steps E srt (k.setCov C) points reflect params grid probability hs hr']
      refine (noCov_choosePoints C srt points sel grid squeeze).bind (g := evalPoints E sel r probability) (fun u => ?_) k
      change NoCov C fun k => evalPoints E sel r probability u k
      simp only [evalPoints]
      cases toCols u.evalRows with
      | error e => exact fun _ => rfl
      | ok cols => exact (noCov_evalKernel C E sel cols r).bind (g := finish u probability) fun a _ => rfl

lemma noCov_cdfGrid (C : Matrix (Fin d) (Fin d) ℝ) (E : Ext) (srt : List ℝ → List ℕ) :
    NoCov C fun k => k.cdfGrid E srt := by
  intro k
  have h1 : (k.setCov C).cdfCache = k.cdfCache := rfl
  simp only [KDE.cdfGrid, h1]
  cases k.cdfCache with
  | some g => rfl
  | none =>
    have h2 := noCov_points C srt k
    simp only at h2
    simp only [h2]
    rcases k.points srt with ⟨_ | pts, k1⟩
    · rfl
    · have h3 := noCov_density C E srt (some pts) .none .none true true k1
      simp only at h3
      simp only [KDE.pdf, h3]
      rcases k1.density E srt (some pts) .none .none true true with ⟨_ | ⟨p, pdf⟩, k2⟩
      · rfl
      · simp only
        cases cdfOf (d := d) pts.toRows pdf <;> rfl

lemma noCov_call (C : Matrix (Fin d) (Fin d) ℝ) (E : Ext) (srt : List ℝ → List ℕ) (c : Spec.Call d) :
    NoCov C fun k => Spec.call E srt k c := by
  intro k
  cases c with
  | points =>
    have := noCov_points C srt k
    simp only at this
    simp only [Spec.call, this]
  | density p r ps g pr =>
    have := noCov_density C E srt p r ps g pr k
    simp only at this
    simp only [Spec.call, this]
  | pdf p r ps g =>
    have := noCov_density C E srt p r ps g true k
    simp only at this
    simp only [Spec.call, KDE.pdf, this]
  | cdf p ps r =>
    have := noCov_cdfGrid C E srt k
    simp only at this
    have h2 : (k.setCov C).cdf E srt p ps r = ((k.cdf E srt p ps r).1, (k.cdf E srt p ps r).2.setCov C) := by
      unfold KDE.cdf
      split
      · rw [this]
        rcases k.cdfGrid E srt with ⟨_ | g, k1⟩ <;> rfl
      · rfl
    simp only [Spec.call, h2]
  | resample n kp r sq rnd => cases r <;> rfl

lemma cachesOk_setCov {E : Ext} {srt : List ℝ → List ℕ} {k : KDE d} (h : CachesOk E srt k)
    (C : Matrix (Fin d) (Fin d) ℝ) : CachesOk E srt (k.setCov C) := by
  refine ⟨h.inv, h.norm, h.points, fun g hg => ?_⟩
  have h1 : (k.setCov C).fresh = k.fresh.setCov C := rfl
  have h2 := noCov_cdfGrid C E srt k.fresh
  simp only at h2
  rw [h1, h2]
  exact h.cdf g hg

/-! ## What the object sees -/

lemma view_eq {m : Mem d} {o : KDEObj d} {K : KDE d} (h1 : K.dataset = m.data o.data) (h2 : K.covariance = m.mats o.cov)
    (h3 : K.kernel.covariance = m.mats o.cov) (h4 : ∀ x, o.refl = some x → K.reflect = some (m.refl x)) :
    KDEObj.view m { o with core := K } = { K with pointsVal := o.pts.map fun l => l.map m.vecs } := by
  obtain ⟨core, data, cov, refl, pts⟩ := o
  obtain ⟨K1, K2, K3, K4, K5, K6, ⟨a1, a2, a3, a4, a5, a6, a7, a8⟩, K8, K9, K10, K11, K12⟩ := K
  simp only at h1 h2 h3 h4
  subst h1 h2 h3
  cases refl with
  | none => rfl
  | some x => simp only [KDEObj.view, h4 x rfl]

lemma view_self {m : Mem d} {o : KDEObj d} (h1 : m.data o.data = o.core.dataset)
    (h2 : m.mats o.cov = o.core.covariance) (h3 : o.core.kernel.covariance = o.core.covariance)
    (h4 : ∀ x, o.refl = some x → o.core.reflect = some (m.refl x)) :
    KDEObj.view m o = { o.core with pointsVal := o.pts.map fun l => l.map m.vecs } :=
  view_eq (K := o.core) h1.symm h2.symm (h3.trans h2.symm) h4

lemma view_fields (m : Mem d) (o : KDEObj d) {K : KDE d} (h : K.fresh = (o.view m).fresh) :
    K.dataset = m.data o.data ∧ K.covariance = m.mats o.cov ∧ K.kernel.covariance = m.mats o.cov ∧
      ∀ x, o.refl = some x → K.reflect = some (m.refl x) := by
  refine ⟨congrArg KDE.dataset h, congrArg KDE.covariance h, congrArg (fun k => k.kernel.covariance) h, fun x hx => ?_⟩
  have : K.fresh.reflect = (o.view m).fresh.reflect := congrArg KDE.reflect h
  change K.reflect = (o.view m).reflect at this
  rw [this, KDEObj.view, hx]

lemma cachesOk_points {E : Ext} {srt : List ℝ → List ℕ} {k : KDE d} (h : CachesOk E srt k) {P : Option (List (List ℝ))}
    (hP : ∀ rows, P = some rows → k.fresh.computePoints srt = .ok rows) : CachesOk E srt { k with pointsVal := P } :=
  ⟨h.inv, h.norm, hP, h.cdf⟩

/-- Invariant of the use of an object: `m0` is the memory before and `k0` the object after the construction. -/
structure SnapInv (E : Ext) (srt : List ℝ → List ℕ) (m0 : Mem d) (k0 : KDE d) (data : ℕ) (refl : Option ℕ)
    (s : Mem d × KDEObj d) : Prop where
  caches : CachesOk E srt (s.2.view s.1)
  fresh : (s.2.view s.1).fresh = k0.setCov (s.1.mats s.2.cov)
  pts : ∀ l, s.2.pts = some l → ∀ x ∈ l, m0.numVecs ≤ x
  vecs : m0.numVecs ≤ s.1.numVecs
  data : s.2.data = data
  refl : s.2.refl = refl

lemma newVecs_read (m : Mem d) (rows : List (List ℝ)) :
    ((List.range rows.length).map (m.numVecs + ·)).map (m.newVecs rows).vecs = rows := by
  apply List.ext_getElem
  · simp
  · intro i h1 h2
    simp [Mem.newVecs, h2]

lemma call_outcome (E : Ext) (srt : List ℝ → List ℕ) (m : Mem d) (o : KDEObj d) (c : Spec.Call d) :
    (KDEObj.call E srt m o c).1 = (Spec.call E srt (o.view m) c).1 := by
  simp only [KDEObj.call]
  split <;> rfl

lemma SnapInv.outcome {E : Ext} {srt : List ℝ → List ℕ} {m0 : Mem d} {k0 : KDE d} {data : ℕ} {refl : Option ℕ}
    {s : Mem d × KDEObj d} (h : SnapInv E srt m0 k0 data refl s) (c : Spec.Call d) :
    (KDEObj.call E srt s.1 s.2 c).1 = (Spec.call E srt k0 c).1 := by
  rw [call_outcome, (transparent_call E srt c _ h.caches).1, h.fresh]
  have := noCov_call (s.1.mats s.2.cov) E srt c k0
  simp only at this
  simp only [this]

lemma SnapInv.call {E : Ext} {srt : List ℝ → List ℕ} {m0 : Mem d} {k0 : KDE d} {data : ℕ} {refl : Option ℕ}
    {s : Mem d × KDEObj d} (h : SnapInv E srt m0 k0 data refl s) (c : Spec.Call d) :
    SnapInv E srt m0 k0 data refl (KDEObj.call E srt s.1 s.2 c).2 := by
  obtain ⟨m, o⟩ := s
  obtain ⟨-, t2, t3⟩ := transparent_call E srt c _ h.caches
  simp only [KDEObj.call]
  set K := (Spec.call E srt (o.view m) c).2 with hK
  obtain ⟨f1, f2, f3, f4⟩ := view_fields m o t3
  split
  · rename_i rows hp hrows
    have hv : KDEObj.view (m.newVecs rows) { o with
        core := K
        pts := some ((List.range rows.length).map (m.numVecs + ·)) } = { K with pointsVal := some rows } := by
      rw [view_eq (m := m.newVecs rows) (o := { o with pts := some ((List.range rows.length).map (m.numVecs + ·)) })
        (K := K) f1 f2 f3 f4]
      simp only [Option.map_some, newVecs_read]
    refine ⟨?_, ?_, ?_, ?_, h.data, h.refl⟩
    · rw [hv]
      exact cachesOk_points t2 fun r hr => by cases hr; exact t2.points rows hrows
    · rw [hv]
      exact t3.trans h.fresh
    · intro l hl x hx
      cases hl
      obtain ⟨i, _, rfl⟩ := List.mem_map.mp hx
      exact h.vecs.trans (Nat.le_add_right _ _)
    · exact h.vecs.trans (Nat.le_add_right _ _)
  · have hv := view_eq (m := m) (o := o) (K := K) f1 f2 f3 f4
    refine ⟨?_, ?_, h.pts, h.vecs, h.data, h.refl⟩
    · rw [hv]
      refine cachesOk_points t2 fun r hr => ?_
      have h1 := h.caches.points r hr
      rw [t3]
      exact h1
    · rw [hv]
      exact t3.trans h.fresh

lemma SnapInv.sameView {E : Ext} {srt : List ℝ → List ℕ} {m0 : Mem d} {k0 : KDE d} {data : ℕ} {refl : Option ℕ}
    {s : Mem d × KDEObj d} (h : SnapInv E srt m0 k0 data refl s) {m : Mem d} (hv : s.2.view m = s.2.view s.1)
    (hn : m.numVecs = s.1.numVecs) : SnapInv E srt m0 k0 data refl (m, s.2) := by
  have hm : m.mats s.2.cov = s.1.mats s.2.cov := congrArg KDE.covariance hv
  exact ⟨by rw [hv]; exact h.caches, by rw [hv, hm]; exact h.fresh, h.pts, by rw [hn]; exact h.vecs, h.data, h.refl⟩

/-- Specification: an action that changes no array or list except those that existed before the construction (memory
`m`), and among these neither the data array nor the list of boundaries that the object was constructed with. -/
def Spec.Misses (m : Mem d) (a : RefArgs d) : Act d → Prop
  | .call _ => True
  | .writeData x _ => x < m.numData ∧ ∀ y, a.data = .array y → x ≠ y
  | .writeVec x _ => x < m.numVecs
  | .writeMat _ _ => True
  | .writeRefl x _ => a.reflect ≠ some x

lemma SnapInv.act {E : Ext} {srt : List ℝ → List ℕ} {m0 : Mem d} {k0 : KDE d} {a : RefArgs d} {data : ℕ} {refl : Option ℕ}
    {s : Mem d × KDEObj d} (h : SnapInv E srt m0 k0 data refl s)
    (hd : data = m0.numData ∨ a.data = .array data) (hr : ∀ x, refl = some x → a.reflect = some x)
    {t : Act d} (ht : Spec.Misses m0 a t) : SnapInv E srt m0 k0 data refl (t.run E srt s) := by
  cases t with
  | call c => exact h.call c
  | writeData x v =>
    simp only [Act.run]
    split
    · refine h.sameView ?_ rfl
      have hx : s.2.data ≠ x := by
        rw [h.data]
        rcases hd with rfl | hd
        · exact (Nat.ne_of_lt ht.1).symm
        · exact (ht.2 _ hd).symm
      simp only [KDEObj.view, Function.update_of_ne hx]
    · exact h
  | writeVec x v =>
    simp only [Act.run]
    split
    · refine h.sameView ?_ rfl
      simp only [KDEObj.view]
      congr 1
      cases hp : s.2.pts with
      | none => rfl
      | some l =>
        simp only [Option.map_some, Option.some.injEq]
        refine List.map_congr_left fun y hy => Function.update_of_ne ?_ _ _
        have := h.pts l hp y hy
        have := (show x < m0.numVecs from ht)
        omega
    · exact h
  | writeMat x C =>
    simp only [Act.run]
    set m' : Mem d := { s.1 with mats := Function.update s.1.mats x C }
    have hv : s.2.view m' = (s.2.view s.1).setCov (m'.mats s.2.cov) := rfl
    refine ⟨?_, ?_, h.pts, h.vecs, h.data, h.refl⟩
    · show CachesOk E srt (s.2.view m')
      rw [hv]
      exact cachesOk_setCov h.caches _
    · show (s.2.view m').fresh = _
      rw [hv]
      have h1 : ((s.2.view s.1).setCov (m'.mats s.2.cov)).fresh = (s.2.view s.1).fresh.setCov (m'.mats s.2.cov) := rfl
      rw [h1, h.fresh]
      rfl
  | writeRefl x rows =>
    simp only [Act.run]
    refine h.sameView ?_ rfl
    simp only [KDEObj.view]
    cases hp : s.2.refl with
    | none => rfl
    | some y =>
      have hy : y ≠ x := by
        rintro rfl
        exact ht (hr y (h.refl ▸ hp))
      simp only [Function.update_of_ne hy]

lemma SnapInv.acts {E : Ext} {srt : List ℝ → List ℕ} {m0 : Mem d} {k0 : KDE d} {a : RefArgs d} {data : ℕ} {refl : Option ℕ}
    (hd : data = m0.numData ∨ a.data = .array data) (hr : ∀ x, refl = some x → a.reflect = some x) (l : List (Act d)) :
    ∀ {s : Mem d × KDEObj d}, SnapInv E srt m0 k0 data refl s → (∀ t ∈ l, Spec.Misses m0 a t) →
      SnapInv E srt m0 k0 data refl (l.foldl (Act.run E srt) s) := by
  induction l with
  | nil => exact fun h _ => h
  | cons t l ih =>
    intro s h hl
    exact ih (h.act hd hr (hl t (by simp))) fun t' ht' => hl t' (by simp [ht'])

lemma checkDims_list {data : List (Fin d → ℝ)} : ∀ {rows l : List ReflRow} {j : ℕ},
    checkDims data j (rows.map ReflRow.toDim) = .ok l → l = rows := by
  intro rows
  induction rows with
  | nil => intro l j h; cases h; rfl
  | cons r rows ih =>
    intro l j h
    simp only [List.map_cons, checkDims] at h
    split at h
    · split at h
      · cases h
      · rename_i r' hr'
        split at h
        · cases h
        · rename_i l' hl'
          cases h
          rw [ih hl']
          congr 1
          obtain _ | ⟨lo, hi⟩ := r
          · cases hr'; rfl
          · cases lo <;> cases hi <;> simp only [ReflRow.toDim, checkDim, Option.elim, fillLo, fillHi, orderedPair] at hr'
            all_goals first
              | (cases hr'; rfl)
              | (split_ifs at hr' <;> cases hr'; rfl)
    · cases h

lemma checkReflect_list {data : List (Fin d → ℝ)} (hne : data ≠ []) {rows : List ReflRow} (hl : rows.length = d)
    {r : Option (List ReflRow)} (h : checkReflect data (Reflect.ofChecked (some rows)) = .ok r) : r = some rows := by
  have h2 : ¬ (d = 1 ∧ (rows.map ReflRow.toDim).length = 2) := by simp; omega
  simp only [Reflect.ofChecked, checkReflect, reflectRows_of_not h2] at h
  split_ifs at h
  · cases hc : checkDims data 0 (rows.map ReflRow.toDim) with
    | error e => simp only [hc] at h; cases h
    | ok l => simp only [hc] at h; cases h; rw [checkDims_list hc]

/-- The newly constructed object sees the values of its arguments. -/
lemma new_view {E : Ext} {m : Mem d} {a : RefArgs d} {s : Mem d × KDEObj d} (h : KDEObj.new E m a = .ok s) :
    ∃ k, KDE.init E (a.value m) = .ok k ∧ s.2.view s.1 = k ∧ s.2.pts = none ∧ s.1.numVecs = m.numVecs ∧
      (s.2.data = m.numData ∧ (∃ v, a.data = .list v) ∨ a.data = .array s.2.data) ∧
      (∀ x, s.2.refl = some x → a.reflect = some x) := by
  unfold KDEObj.new at h
  split at h
  · cases h
  · rename_i k hk
    cases h
    obtain ⟨reflect, weights, cov, bw0, D, out, eff, ext, g1, g2, g3, g4, g5, g6, g7, g8, g9, g10, rfl⟩ := init_inv hk
    refine ⟨_, hk, ?_, rfl, ?_, ?_, ?_⟩
    · have hdat : ∀ m1 : Mem d, (match a.data with | .list v => m.newData v | .array _ => m) = m1 →
          m1.data (match a.data with | .list _ => m.numData | .array x => x) = (a.value m).dataset := by
        rintro m1 rfl
        simp only [RefArgs.value]
        cases a.data with
        | list v => simp [Mem.newData]
        | array x => rfl
      have hrf : ∀ x, (match a.reflect with
          | none => none
          | some x => if (m.refl x).length = d then some x else none) = some x → reflect = some (m.refl x) := by
        intro x hx
        cases hr : a.reflect with
        | none => rw [hr] at hx; cases hx
        | some y =>
          rw [hr] at hx
          simp only at hx
          split_ifs at hx with hl
          cases hx
          refine checkReflect_list g2 hl ?_
          rw [← g1]
          simp only [RefArgs.value, hr]
      have hcv : ∀ x, a.covariance = some x → cov = m.mats x := by
        intro x hx
        have : (a.value m).covariance = some (m.mats x) := by simp only [RefArgs.value, hx]
        rw [this] at g4
        exact (Except.ok.inj g4).symm
      refine (view_self ?_ ?_ rfl ?_).trans rfl
      · rw [← hdat _ rfl]
        cases a.covariance <;> rfl
      · cases hc : a.covariance with
        | none => simp [Mem.newMat]
        | some x =>
          rw [hcv x hc]
          cases a.data <;> rfl
      · intro x hx
        rw [hrf x hx]
        cases a.covariance <;> cases a.data <;> rfl
    · cases a.data <;> cases a.covariance <;> rfl
    · cases a.data
      · exact Or.inl ⟨rfl, _, rfl⟩
      · exact Or.inr rfl
    · intro x hx
      simp only at hx
      cases hr : a.reflect with
      | none => rw [hr] at hx; cases hx
      | some y =>
        rw [hr] at hx
        simp only at hx
        split_ifs at hx
        exact hx

/-! ## Theorems -/

/-- Specification: after these actions of the caller, every call has the same outcome as before. -/
def Spec.Unaffected (E : Ext) (srt : List ℝ → List ℕ) (s : Mem d × KDEObj d) (acts : List (Act d)) : Prop :=
  ∀ c : Spec.Call d, (KDEObj.call E srt (acts.foldl (Act.run E srt) s).1 (acts.foldl (Act.run E srt) s).2 c).1
    = (KDEObj.call E srt s.1 s.2 c).1

/-- Specification: calls, and changes of arrays and lists that existed before the construction (memory `m`), such as the
arguments. -/
def Spec.OnArguments (m : Mem d) : Act d → Prop
  | .call _ => True
  | .writeData x _ => x < m.numData
  | .writeVec x _ => x < m.numVecs
  | .writeMat x _ => x < m.numMats
  | .writeRefl _ _ => True

/-- Specification: calls, and changes of 1D arrays created since the construction, that is, of returned arrays. -/
def Spec.OnResults (m : Mem d) : Act d → Prop
  | .call _ => True
  | .writeVec x _ => m.numVecs ≤ x
  | _ => False

/-- The full claim about the arguments: what the caller does with them after the construction does not matter. -/
def C138_Claim : Prop :=
  ∀ (d : ℕ) (E : Ext) (srt : List ℝ → List ℕ) (m : Mem d) (a : RefArgs d) (s : Mem d × KDEObj d),
    KDEObj.new E m a = .ok s → ∀ acts : List (Act d), (∀ t ∈ acts, Spec.OnArguments m t) → Spec.Unaffected E srt s acts

/-- The full claim about the results: what the caller does with returned arrays does not matter. -/
def C138_ReturnedClaim : Prop :=
  ∀ (d : ℕ) (E : Ext) (srt : List ℝ → List ℕ) (m : Mem d) (a : RefArgs d) (s : Mem d × KDEObj d),
    KDEObj.new E m a = .ok s → ∀ acts : List (Act d), (∀ t ∈ acts, Spec.OnResults m t) → Spec.Unaffected E srt s acts

lemma SnapInv.init {E : Ext} (srt : List ℝ → List ℕ) {m : Mem d} {a : RefArgs d} {s : Mem d × KDEObj d}
    (h : KDEObj.new E m a = .ok s) :
    ∃ k, KDE.init E (a.value m) = .ok k ∧ SnapInv E srt m k s.2.data s.2.refl s ∧ s.2.view s.1 = k := by
  obtain ⟨k, hk, hv, hp, hn, -, -⟩ := new_view h
  refine ⟨k, hk, ⟨?_, ?_, ?_, hn.ge, rfl, rfl⟩, hv⟩
  · rw [hv, ← fresh_of_init hk]
    exact cachesOk_fresh E srt k
  · have h1 : s.1.mats s.2.cov = k.covariance := congrArg KDE.covariance hv
    have h2 : k.kernel.covariance = k.covariance := by
      rw [← hv]
      rfl
    rw [hv, fresh_of_init hk, h1]
    conv_rhs => rw [KDE.setCov, ← h2]
    have h3 : ({ k.kernel with covariance := k.kernel.covariance } : Kernel d) = k.kernel := rfl
    rw [h3, h2]
  · rw [hp]
    simp

/-- **C138**, the part that holds: the object does not notice changes of arrays that existed before the construction,
except of its data array and of its list of boundaries.  In particular the arrays of the weights and of the covariance
can be changed, and the data if they were given as lists.  Every call then has the outcome of the same call on an object
newly constructed from the original values. -/
theorem C138_partial {E : Ext} (srt : List ℝ → List ℕ) {m : Mem d} {a : RefArgs d} {s : Mem d × KDEObj d}
    (h : KDEObj.new E m a = .ok s) (acts : List (Act d)) (hacts : ∀ t ∈ acts, Spec.Misses m a t) :
    Spec.Unaffected E srt s acts ∧
    ∃ k, KDE.init E (a.value m) = .ok k ∧ ∀ c : Spec.Call d,
      (KDEObj.call E srt (acts.foldl (Act.run E srt) s).1 (acts.foldl (Act.run E srt) s).2 c).1
        = (Spec.call E srt k c).1 := by
  obtain ⟨k, hk, inv, -⟩ := SnapInv.init srt h
  obtain ⟨-, -, -, -, -, hd, hr⟩ := new_view h
  have hd' : s.2.data = m.numData ∨ a.data = .array s.2.data := hd.imp_left And.left
  have fin := SnapInv.acts hd' hr acts inv hacts
  exact ⟨fun c => (fin.outcome c).trans (inv.outcome c).symm, k, hk, fun c => fin.outcome c⟩

lemma density_given (E : Ext) (srt : List ℝ → List ℕ) (k : KDE d) (p : Pts) (reflect : Reflect) (params : ParamArg)
    (grid probability : Bool) :
    (k.density E srt (some p) reflect params grid probability).1
      = (({ k with
          pointsVal := none
          cdfCache := none } : KDE d).density E srt (some p) reflect params grid probability).1 := by
  set k' : KDE d := { k with
    pointsVal := none
    cdfCache := none } with hk'
  cases hs : paramSel d params with
  | error e => simp only [KDE.density, hs]
  | ok t =>
    obtain ⟨sel, squeeze⟩ := t
    cases hr : reflectLength d (numSel sel) (k.defaultReflect sel reflect) with
    | error e =>
      have hr' : reflectLength d (numSel sel) (k'.defaultReflect sel reflect) = .error e := hr
      simp only [KDE.density, hs, hr, hr']
    | ok r =>
      have hr' : reflectLength d (numSel sel) (k'.defaultReflect sel reflect) = .ok r := hr
      rw [density_eq_steps E srt k (some p) reflect params grid probability hs hr,
        density_eq_steps E srt k' (some p) reflect params grid probability hs hr']
      have key : ∀ u, (evalPoints E sel r probability u k).1 = (evalPoints E sel r probability u k').1 := by
        intro u
        simp only [evalPoints]
        cases toCols u.evalRows with
        | error e => rfl
        | ok cols =>
          cases sel with
          | none =>
            simp only [KDE.evalKernel, hk']
            cases checkReflect k.dataset r with
            | error e => rfl
            | ok r =>
              simp only
              rcases k.kernel.density E cols k.dataset k.weights r with ⟨_ | v, kern⟩ <;> rfl
          | some ps =>
            simp only [KDE.evalKernel, hk']
            cases checkReflect (selectCols k.dataset ps) r with
            | error e => rfl
            | ok r =>
              simp only
              generalize Kernel.densityParams _ _ _ _ _ _ _ = q
              rcases q with ⟨_ | v, kern⟩ <;> rfl
      cases p <;> exact key _

lemma density_explicit (E : Ext) (srt : List ℝ → List ℕ) (k : KDE d) (hd : 0 < d) (hr : k.reflect = none)
    (probability : Bool) (pts : List (Fin d → ℝ)) :
    (k.density E srt (some (.rows (Spec.rowsOf pts))) .none .none false probability).1
      = (k.kernel.density E ⟨d, pts⟩ k.dataset k.weights none).1.map fun vals =>
          (.rows (Spec.rowsOf pts),
            ⟨[pts.length], if probability then vals.map (· / k.totalWeight) else vals⟩) := by
  rw [density_eq_steps E srt k _ .none .none false probability (sel := none) (r := Reflect.none) rfl
    (by rw [KDE.defaultReflect, hr]; rfl)]
  simp only [KDE.choosePoints, andThen, evalPoints, PtsUse.evalRows, Pts.toRows, Bool.false_eq_true, if_false]
  obtain ⟨⟨n, c⟩, hc, hdim, hcols⟩ := toCols_rowsOf hd pts
  simp only at hdim hcols
  subst hdim
  have hcp : c = pts := List.map_injective_iff.mpr List.ofFn_injective hcols
  subst hcp
  simp only [hc, KDE.evalKernel, checkReflect]
  have hlen : ∀ vs, (k.kernel.density E ⟨n, c⟩ k.dataset k.weights none).1 = .ok vs → vs.length = c.length :=
    fun vs hvs => C01_density_length E k.kernel c k.dataset k.weights none vs hvs
  rcases hk : k.kernel.density E ⟨n, c⟩ k.dataset k.weights none with ⟨v, kern⟩
  rw [hk] at hlen
  cases v with
  | error e => rfl
  | ok vs =>
    have := hlen vs rfl
    cases probability <;>
      simp [finish, packResult, valShape, this, Except.map, KDE.totalWeight]

/-- **C138**, what happens if the data array is overwritten: the density is that of the new data, but with the kernel
matrix and the weights computed from the old data. -/
theorem C138_stale {E : Ext} (srt : List ℝ → List ℕ) {m : Mem d} {a : RefArgs d} {s : Mem d × KDEObj d}
    (h : KDEObj.new E m a = .ok s) (hd : 0 < d) (hr : a.reflect = none) (hr' : a.rest.reflect = .none)
    {x : ℕ} (hx : a.data = .array x) (acts : List (Act d)) (hacts : ∀ t ∈ acts, Spec.Misses m a t)
    (v : List (Fin d → ℝ)) (hv : v.length = (m.data x).length) (pts : List (Fin d → ℝ)) :
    ∃ k, KDE.init E (a.value m) = .ok k ∧ ((Spec.kernelMatrix k.covariance k.bandwidth).PosDef →
      (KDEObj.call E srt ((acts ++ [Act.writeData x v]).foldl (Act.run E srt) s).1
          ((acts ++ [Act.writeData x v]).foldl (Act.run E srt) s).2
          (.density (some (.rows (Spec.rowsOf pts))) .none .none false false)).1
        = .values (.ok (.rows (Spec.rowsOf pts), ⟨[pts.length], pts.map fun y =>
          Spec.kernelSum k.kernel.dist (Spec.kernelMatrix k.covariance k.bandwidth) (Spec.weighted v k.weights) y
            / (Real.sqrt (Spec.kernelMatrix k.covariance k.bandwidth).det * k.kernel.dist.norm d)⟩))) := by
  obtain ⟨k, hk, inv, hview⟩ := SnapInv.init srt h
  obtain ⟨-, -, -, -, -, hda, hra⟩ := new_view h
  have hsd : s.2.data = x := by
    rcases hda with ⟨-, v', hv'⟩ | hda
    · rw [hx] at hv'; cases hv'
    · rw [hx] at hda; cases hda; rfl
  refine ⟨k, hk, fun hM => ?_⟩
  have fin := SnapInv.acts (a := a) (hda.imp_left And.left) hra acts inv hacts
  simp only [List.foldl_append, List.foldl_cons, List.foldl_nil]
  set t := acts.foldl (Act.run E srt) s with ht
  have htd : t.2.data = x := fin.data.trans hsd
  have hkd : k.dataset = m.data x := by
    obtain ⟨_, _, _, _, _, _, _, _, _, _, _, _, _, _, _, _, _, _, rfl⟩ := init_inv hk
    simp only [RefArgs.value, hx]
  have hkr : k.reflect = none := by
    obtain ⟨r, _, _, _, _, _, _, _, hrr, _, _, _, _, _, _, _, _, _, rfl⟩ := init_inv hk
    simp only [RefArgs.value, hr, hr', checkReflect] at hrr
    exact (Except.ok.inj hrr).symm
  have htx : t.1.data x = m.data x := by
    have := congrArg KDE.dataset fin.fresh
    rw [← hkd, ← htd]
    exact this
  have hw : ∀ l, k.weights = some l → l.length = v.length := by
    intro l hl
    have := (stored_valid hk hl).1
    rw [this, hv, ← hkd]
    obtain ⟨_, _, _, _, _, _, _, _, _, _, _, _, _, _, _, _, _, _, rfl⟩ := init_inv hk
    rfl
  simp only [Act.run, htx, hv, if_true, call_outcome, Spec.call]
  congr 1
  rw [density_given]
  set K : KDE d := { KDEObj.view { t.1 with data := Function.update t.1.data x v } t.2 with
    pointsVal := none
    cdfCache := none } with hK
  have hc : CachesOk E srt K := ⟨fin.caches.inv, fin.caches.norm, by simp [hK], by simp [hK]⟩
  have hf : K.fresh = ({ k with dataset := v } : KDE d).setCov (t.1.mats t.2.cov) := by
    have h1 : K.fresh = { (t.2.view t.1).fresh with dataset := v } := by
      simp only [hK, KDEObj.view, KDE.fresh, htd, Function.update_self]
    rw [h1, fin.fresh]
    rfl
  have h2 := (transparent_density E srt (some (.rows (Spec.rowsOf pts))) .none .none false false K hc).1
  have h3 := noCov_density (t.1.mats t.2.cov) E srt (some (.rows (Spec.rowsOf pts))) .none .none false false
    ({ k with dataset := v } : KDE d)
  simp only at h2 h3
  rw [h2, hf, h3, density_explicit E srt _ hd (by exact hkr)]
  obtain ⟨_, w, cov, bw0, D, _, _, _, _, _, _, _, _, _, _, _, _, _, rfl⟩ := init_inv hk
  simp only at hw hM ⊢
  rw [C02_density_eq_kernelSum E D _ cov _ _ hM pts v w hw]
  rfl

/-- **C138**, what happens if a returned array of default points is changed: the arrays that `points` returns are those
that the object itself uses, so the next use of the default points shows the change.  (`m.numVecs + i` is the address of
the `i`-th returned array.) -/
theorem C138_returned {E : Ext} (srt : List ℝ → List ℕ) {m : Mem d} {a : RefArgs d} {s : Mem d × KDEObj d}
    (h : KDEObj.new E m a = .ok s) (hsq : a.rest.squeeze = false) {rows : List (List ℝ)}
    (hp : (KDEObj.call E srt s.1 s.2 .points).1 = .points (.ok (.rows rows)))
    (i : ℕ) (hi : i < rows.length) (v : List ℝ) (hv : v.length = rows[i].length) :
    (KDEObj.call E srt ([Act.call .points, Act.writeVec (m.numVecs + i) v].foldl (Act.run E srt) s).1
      ([Act.call .points, Act.writeVec (m.numVecs + i) v].foldl (Act.run E srt) s).2 .points).1
      = .points (.ok (.rows (rows.set i v))) := by
  obtain ⟨k, hk, inv, hview⟩ := SnapInv.init srt h
  obtain ⟨-, -, -, hpt, hn, -, -⟩ := new_view h
  have hks : k.squeeze = false := by
    obtain ⟨_, _, _, _, _, _, _, _, _, _, _, _, _, _, _, _, _, _, rfl⟩ := init_inv hk
    exact hsq
  have hkp : k.pointsVal = none := by rw [← fresh_of_init hk]; rfl
  have hc : k.computePoints srt = .ok rows := by
    rw [call_outcome, hview] at hp
    simp only [Spec.call, KDE.points, hkp] at hp
    cases hcp : k.computePoints srt with
    | error e => rw [hcp] at hp; cases hp
    | ok r =>
      rw [hcp] at hp
      simp only [KDE.shapePoints, hks, Bool.false_eq_true, if_false] at hp
      cases hp
      rfl
  have hcall : (KDEObj.call E srt s.1 s.2 .points).2 = (s.1.newVecs rows, { s.2 with
      core := { k with pointsVal := some rows }
      pts := some ((List.range rows.length).map (s.1.numVecs + ·)) }) := by
    have : (Spec.call E srt (s.2.view s.1) .points).2 = { k with pointsVal := some rows } := by
      rw [hview]
      simp only [Spec.call, KDE.points, hkp, hc]
    simp only [KDEObj.call, hpt, this]
  have hvec : (s.1.newVecs rows).vecs (m.numVecs + i) = rows[i] := by
    simp [Mem.newVecs, hn, hi]
  simp only [List.foldl_cons, List.foldl_nil, Act.run, hcall, hvec, hv, if_true, call_outcome, Spec.call]
  congr 1
  simp only [KDE.points, KDEObj.view, Option.map_some, KDE.shapePoints, hks, Bool.false_eq_true, if_false]
  congr 2
  apply List.ext_getElem
  · simp
  · intro j h1 h2
    simp only [List.length_map, List.length_range] at h1
    simp only [List.getElem_map, List.getElem_range, hn, List.getElem_set]
    split
    · next hij => subst hij; simp
    · next hij =>
      rw [Function.update_of_ne (by omega)]
      simp [Mem.newVecs, hn, h1]

/-! ## Concrete cases, and what is false of the code -/

/-- One data array, with the single point 0. -/
def snapMem : Mem 1 where
  data := fun _ => [![0]]
  vecs := fun _ => []
  mats := fun _ => 1
  refl := fun _ => []
  numData := 1
  numVecs := 0
  numMats := 1

/-- The arguments `cdfArgs`, with the data in an array. -/
def snapArgs : RefArgs 1 where
  data := .array 0
  rest := cdfArgs

lemma snap_new (E : Ext) : ∃ s, KDEObj.new E snapMem snapArgs = .ok s := by
  obtain ⟨k, hk⟩ := cdfArgs_init E
  have : snapArgs.value snapMem = cdfArgs := rfl
  unfold KDEObj.new
  rw [this, hk]
  exact ⟨_, rfl⟩

/-- Concrete case of the hypotheses of `C138_partial`: an array of the covariance that is changed, and calls. -/
example : ∃ (E : Ext) (s : Mem 1 × KDEObj 1) (acts : List (Act 1)),
    KDEObj.new E snapMem { snapArgs with covariance := some 0 } = .ok s ∧
      acts = [.call .points, .writeMat 0 5, .call (.cdf (.flat [0]) .none .none)] ∧
      ∀ t ∈ acts, Spec.Misses snapMem { snapArgs with covariance := some 0 } t := by
  obtain ⟨k, hk⟩ := cdfArgs_init ⟨fun A => A, id⟩
  have : ({ snapArgs with covariance := some 0 } : RefArgs 1).value snapMem = cdfArgs := rfl
  refine ⟨⟨fun A => A, id⟩, ?_, _, ?_, rfl, ?_⟩
  rotate_left
  · unfold KDEObj.new
    rw [this, hk]
  · intro t ht
    simp only [List.mem_cons, List.not_mem_nil, or_false] at ht
    rcases ht with rfl | rfl | rfl <;> trivial

/-- Concrete case of the hypotheses of `C138_stale`. -/
example (srt : List ℝ → List ℕ) : ∃ (E : Ext) (s : Mem 1 × KDEObj 1) (k : KDE 1), KDEObj.new E snapMem snapArgs = .ok s ∧
    KDE.init E (snapArgs.value snapMem) = .ok k ∧ (Spec.kernelMatrix k.covariance k.bandwidth).PosDef ∧
    snapArgs.data = .array 0 ∧ ([![5]] : List (Fin 1 → ℝ)).length = (snapMem.data 0).length := by
  obtain ⟨s, hs⟩ := snap_new ⟨fun A => A, id⟩
  obtain ⟨k, hk⟩ := cdfArgs_init ⟨fun A => A, id⟩
  exact ⟨_, s, k, hs, hk, by rw [(cdfArgs_matrix hk).2.2]; exact Matrix.PosDef.one, rfl, rfl⟩

lemma snap_points {E : Ext} {s : Mem 1 × KDEObj 1} (h : KDEObj.new E snapMem snapArgs = .ok s) (srt : List ℝ → List ℕ) :
    (KDEObj.call E srt s.1 s.2 .points).1 = .points (.ok (.rows [[0, 1]])) := by
  obtain ⟨k, hk, -, hview⟩ := SnapInv.init srt h
  rw [call_outcome, hview, Spec.call, cdfArgs_points (E := E) hk srt]

/-- **C138 is false of the code** for the arguments: if the data array is overwritten, the density changes. -/
theorem C138_refuted : ¬ C138_Claim := by
  intro hC
  obtain ⟨s, hs⟩ := snap_new ⟨fun A => A, id⟩
  have h1 := hC 1 _ (fun l => List.range l.length) snapMem snapArgs s hs [.writeData 0 [![5]]]
    (by intro t ht; simp only [List.mem_singleton] at ht; subst ht; show 0 < 1; norm_num)
    (.density (some (.rows (Spec.rowsOf [![0]]))) .none .none false false)
  obtain ⟨k, hk, h2⟩ := C138_stale (fun l => List.range l.length) hs (by norm_num) rfl rfl (x := 0) rfl [] (by simp)
    [![5]] rfl [![0]]
  obtain ⟨k', hk', -, hview⟩ := SnapInv.init (fun l => List.range l.length) hs
  rw [hk] at hk'
  cases hk'
  obtain ⟨m1, m2, m3⟩ := cdfArgs_matrix (E := _) hk
  have hM : (Spec.kernelMatrix k.covariance k.bandwidth).PosDef := by rw [m3]; exact Matrix.PosDef.one
  have h3 := (C02_kde_density hk (fun l => List.range l.length) (by norm_num) rfl hM [![0]]).1
  have h4 := h2 hM
  rw [List.nil_append] at h4
  rw [h4, call_outcome, hview, Spec.call, h3] at h1
  have e0 : Spec.kernelSum .box 1 (Spec.weighted ([![0]] : List (Fin 1 → ℝ)) none) ![0] = 1 := by
    simp [Spec.kernelSum, Spec.weighted, Spec.shape, Spec.dist2]
  have e1 : Spec.kernelSum .box 1 (Spec.weighted ([![5]] : List (Fin 1 → ℝ)) none) ![0] = 0 := by
    simp [Spec.kernelSum, Spec.weighted, Spec.shape, Spec.dist2]
    norm_num
  have hds : (snapArgs.value snapMem).dataset = [![0]] := rfl
  rw [m1, m2, m3, hds] at h1
  simp only [List.map_cons, List.map_nil, e0, e1, Matrix.det_one, Real.sqrt_one, one_mul, Spec.Outcome.values.injEq,
    Except.ok.injEq, Prod.mk.injEq, Arr.mk.injEq, List.cons.injEq, zero_div, and_true, true_and] at h1
  have := Dist.norm_pos .box 1 one_pos
  exact absurd h1 (by positivity)

/-- **C138 is false of the code** for the results: the caller can change the default points of the object. -/
theorem C138_returned_refuted : ¬ C138_ReturnedClaim := by
  intro hC
  obtain ⟨s, hs⟩ := snap_new ⟨fun A => A, id⟩
  have h1 := hC 1 _ (fun l => List.range l.length) snapMem snapArgs s hs [.call .points, .writeVec 0 [7, 8]]
    (by
      intro t ht
      simp only [List.mem_cons, List.not_mem_nil, or_false] at ht
      rcases ht with rfl | rfl
      · trivial
      · exact Nat.zero_le _) .points
  have h2 := C138_returned (fun l => List.range l.length) hs rfl (snap_points hs _) 0 (by simp) [7, 8] rfl
  rw [snap_points hs] at h1
  have h3 := h2.symm.trans h1
  simp at h3

end Kalepy
