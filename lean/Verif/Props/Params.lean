import Verif.Props.Marginal
import Verif.Props.ReflectDims
import Verif.Props.ResampleReflect
import Verif.Props.Sample
import Verif.Props.Support

/-!
# C82, C83: `params` together with boundaries, default points, scalars and negative numbers
-/

namespace Kalepy

open Matrix

variable {d : ℕ}

/-- Specification: the integer `p` names the parameter `i`: its number, or the number minus the number of parameters. -/
def Spec.Names (p : ℤ) (i : Fin d) : Prop := p = i ∨ p = (i : ℤ) - d

lemma dimIndex_names {p : ℤ} {i : Fin d} (h : Spec.Names p i) : dimIndex d p = .ok i := by
  have hi := i.2
  rcases h with rfl | rfl
  · exact dimIndex_cast i
  · unfold dimIndex pyIndex
    simp

lemma listSeq_names {l : List ℤ} {ps : List (Fin d)} (h : List.Forall₂ Spec.Names l ps) :
    listSeq (dimIndex d) l = .ok ps := by
  induction h with
  | nil => rfl
  | cons h _ ih => simp only [listSeq, dimIndex_names h, ih]

lemma paramSel_names (hd : d ≠ 1) {l : List ℤ} {ps : List (Fin d)} (hl : l ≠ []) (h : List.Forall₂ Spec.Names l ps) :
    paramSel d (.list l) = .ok (some ps, false) := by
  simp only [paramSel, if_neg hd, if_neg hl, listSeq_names h, Except.map]

open Classical in
/-- The core of `density` with boundaries in any dimensions. -/
lemma densityCore_dims {m : ℕ} (E : Ext) (D : Dist) {M : Matrix (Fin m) (Fin m) ℝ} (hM : M.PosDef) (pts data : List (Fin m → ℝ))
    (w : Option (List ℝ)) (hw : ∀ l, w = some l → l.length = data.length) (rows : List ReflRow) (hrows : rows.length = m) :
    densityCore D (Real.sqrt M.det) (matrixInvert E M) ⟨m, pts⟩ data w (some rows)
      = .ok (pts.map fun x =>
          ((if x ∈ Spec.Allowed rows then Spec.kernelSum D M (Spec.weighted data w) x else 0)
            + ((List.finRange m).map fun j => if Spec.AllowedFrom rows j x then
                ((Spec.bounds (rows.getD j none)).map fun b => Spec.kernelSum D M
                  (Spec.weighted (data.map (Spec.mirror j b)) w) x).sum else 0).sum)
          / (Real.sqrt M.det * D.norm m)) := by
  have hb : badWeights data w = false := by
    cases w with
    | none => rfl
    | some l => simp [badWeights, hw l rfl]
  obtain ⟨W, hW, hp⟩ := corePlan_posDef E D hM (Real.sqrt M.det) (sqrt_det_ne hM) data w
    hb (some rows) (by intro r hr; cases hr; exact hrows)
  rw [densityCore_eq_plan, hp]
  simp only [Except.map, coreAt, Option.map_some]
  congr 1
  refine List.map_congr_left fun x _ => ?_
  rw [reflAt, foldl_stepAt_closed W D.eval data _ x _ _ _ (List.pairwise_lt_finRange m)]
  have hadd : ∀ i, addsAt W D.eval data (usedWeights data w) x i (rows.getD i none)
      = ((Spec.bounds (rows.getD i none)).map fun b => Spec.kernelSum D M
          (Spec.weighted (data.map (Spec.mirror i b)) w) x).sum := by
    intro i
    rw [addsAt]
    congr 1
    refine List.map_congr_left fun b _ => ?_
    have hu : usedWeights (data.map (reflectCol i b)) w = usedWeights data w := by
      cases w <;> simp [usedWeights]
    simp [kval_eq_kernelSum hM hW, weighted_eq, mirror_eq, hu]
  have h1 : (∀ i ∈ List.finRange m, ¬ Spec.Violates (rows.getD i none) (x i)) ↔ x ∈ Spec.Allowed rows := by
    simp [Spec.Allowed]
  have h2 : ∀ j : Fin m, (∀ i ∈ List.finRange m, j ≤ i → ¬ Spec.Violates (rows.getD i none) (x i))
      ↔ Spec.AllowedFrom rows j x := by
    simp [Spec.AllowedFrom]
  simp only [h1, h2, hadd, kval_eq_kernelSum hM hW, weighted_eq]

/-- Specification: the boundaries of the parameters `ps`, in this order. -/
def Spec.rowsFor (rows : List ReflRow) (ps : List (Fin d)) : List ReflRow := ps.map fun i : Fin d => rows.getD i none

open Classical in
/-- **C82.** `pdf` with a list of parameters (negative numbers count from the end) of a KDE with boundaries, after any
history of calls: the density of the projected data, with the kernel matrix restricted to the selected parameters, and
with the boundaries *of the selected parameters*, in the order of the list. -/
theorem C82_params_reflect {E : Ext} {a : KDEArgs d} {k : KDE d} (h : KDE.init E a = .ok k) (srt : List ℝ → List ℕ)
    (hd : d ≠ 1) (rows : List ReflRow) (hr : k.reflect = some rows) (l : List ℤ) (hl : l ≠ []) (ps : List (Fin d))
    (hps : List.Forall₂ Spec.Names l ps)
    (hM : ((Spec.kernelMatrix k.covariance k.bandwidth).submatrix ps.get ps.get).PosDef)
    (history : List (Spec.Call d)) (pts : List (Fin ps.length → ℝ)) :
    ((history.foldl (fun k c => (Spec.call E srt k c).2) k).pdf E srt (some (.rows (Spec.rowsOf pts)))
      .none (.list l) false).1 = .ok (.rows (Spec.rowsOf pts), ⟨[pts.length], pts.map fun y =>
        ((if y ∈ Spec.Allowed (Spec.rowsFor rows ps) then
              Spec.kernelSum k.kernel.dist ((Spec.kernelMatrix k.covariance k.bandwidth).submatrix ps.get ps.get)
                (Spec.weighted (a.dataset.map (Spec.project ps)) k.weights) y else 0)
            + ((List.finRange ps.length).map fun j => if Spec.AllowedFrom (Spec.rowsFor rows ps) j y then
                ((Spec.bounds ((Spec.rowsFor rows ps).getD j none)).map fun b => Spec.kernelSum k.kernel.dist
                  ((Spec.kernelMatrix k.covariance k.bandwidth).submatrix ps.get ps.get)
                  (Spec.weighted ((a.dataset.map (Spec.project ps)).map (Spec.mirror j b)) k.weights) y).sum else 0).sum)
          / (Real.sqrt ((Spec.kernelMatrix k.covariance k.bandwidth).submatrix ps.get ps.get).det
              * k.kernel.dist.norm ps.length)
          / ((Spec.weighted a.dataset k.weights).map Prod.snd).sum⟩) := by
  have hist := C14_history E srt h history (.pdf (some (.rows (Spec.rowsOf pts))) .none (.list l) false)
  rw [Spec.call, Spec.call, Spec.Outcome.values.injEq] at hist
  rw [hist, KDE.pdf]
  have hw : ∀ l, k.weights = some l → l.length = a.dataset.length := fun l hl => (stored_valid h hl).1
  have ht : ((Spec.weighted a.dataset k.weights).map Prod.snd).sum = k.totalWeight := by
    have e2 : k.dataset = a.dataset := by
      obtain ⟨_, _, _, _, _, _, _, _, _, _, _, _, _, _, _, _, _, _, rfl⟩ := init_inv h
      rfl
    rw [KDE.totalWeight, e2]
    cases hk : k.weights with
    | none => simp [Spec.weighted, List.map_map, Function.comp_def]
    | some l =>
      simp only [Spec.weighted]
      rw [List.map_snd_zip (hw l hk).le]
  rw [ht]
  obtain ⟨rows', w, cov, bw0, D, out, eff, ext, hr', hne', _, _, _, _, _, _, _, _, rfl⟩ := init_inv h
  simp only at hM hw hr ⊢
  subst hr
  have hres := C20_result _ hne' _ rows hr'
  have hne : ps ≠ [] := by
    rintro rfl
    cases hps
    exact hl rfl
  have hmem : ∀ x ∈ Spec.rowsFor rows ps, x ∈ rows := by
    intro x hx
    obtain ⟨i, _, rfl⟩ := List.mem_map.mp hx
    rw [List.getD_eq_getElem _ _ (by rw [hres.1]; exact i.2)]
    exact List.getElem_mem _
  have hlr : reflectLength d (numSel (some ps)) (Reflect.ofChecked (some (Spec.rowsFor rows ps)))
      = .ok (Reflect.ofChecked (some (Spec.rowsFor rows ps))) := by
    simp [Reflect.ofChecked, reflectLength, numSel, Spec.rowsFor]
  have hchk : checkReflect (selectCols a.dataset ps) (Reflect.ofChecked (some (Spec.rowsFor rows ps)))
      = .ok (some (Spec.rowsFor rows ps)) :=
    checkReflect_checked _ (by simpa [selectCols] using hne') (Spec.rowsFor rows ps) (by simp [Spec.rowsFor])
      fun lo hi h => hres.2 lo hi (hmem _ h)
  rw [density_eq_steps E srt _ _ .none (.list l) false true (sel := some ps) (squeeze := false)
    (r := Reflect.ofChecked (some (Spec.rowsFor rows ps))) (paramSel_names hd hl hps)
    (by simp only [KDE.defaultReflect, Option.map_some]; exact hlr)]
  have hlen : 0 < ps.length := List.length_pos_of_ne_nil hne
  simp only [KDE.choosePoints, andThen, evalPoints, PtsUse.evalRows, Pts.toRows, Bool.false_eq_true, if_false]
  obtain ⟨⟨n, c⟩, hc, hdim, hcols⟩ := toCols_rowsOf hlen pts
  simp only at hdim hcols
  subst hdim
  have hcp : c = pts := List.map_injective_iff.mpr List.ofFn_injective hcols
  subst hcp
  have hv := densityCore_dims E D hM c (selectCols a.dataset ps) w (by simpa [selectCols] using hw)
    (Spec.rowsFor rows ps) (by simp [Spec.rowsFor])
  have hv' : ((Kernel.init D (rescaleBw bw0 a.rescale) cov a.helper a.chunk).densityParams E ps ⟨ps.length, c⟩
      (selectCols a.dataset ps) w (some (Spec.rowsFor rows ps))).1 = _ := hv
  simp only [hc, KDE.evalKernel, hchk]
  rcases hk : (Kernel.init D (rescaleBw bw0 a.rescale) cov a.helper a.chunk).densityParams E ps ⟨ps.length, c⟩
      (selectCols a.dataset ps) w (some (Spec.rowsFor rows ps)) with ⟨v, kern⟩
  rw [hk] at hv'
  simp only at hv'
  subst hv'
  have hsel : selectCols a.dataset ps = a.dataset.map (Spec.project ps) := rfl
  simp [finish, packResult, valShape, KDE.totalWeight, Kernel.init, Function.comp_def, Pts.toRows, hsel]

/-- Concrete case of the hypotheses of C82: two parameters with different boundaries, selected in reverse order by
`params=[-1, 0]`. -/
example : ∃ (E : Ext) (a : KDEArgs 2) (k : KDE 2) (rows : List ReflRow) (l : List ℤ) (ps : List (Fin 2)), KDE.init E a = .ok k ∧
    k.reflect = some rows ∧ rows = [some (some 0, none), some (none, some 5)] ∧ l = [-1, 0] ∧ l ≠ [] ∧
    List.Forall₂ Spec.Names l ps ∧ Spec.rowsFor rows ps = [some (none, some 5), some (some 0, none)] ∧
    ((Spec.kernelMatrix k.covariance k.bandwidth).submatrix ps.get ps.get).PosDef := by
  obtain ⟨k, hk, hw, hD, hM, hr, _, hdat⟩ := unit_init_reflect ⟨fun A => A, id⟩ ([![0, 1], ![1, 4], ![3, 2]] : List (Fin 2 → ℝ))
    (by simp) .box rfl [some (some 0, none), some (none, some 5)] rfl (by simp) ⟨(some 0, none), by simp⟩
  refine ⟨_, _, k, _, [-1, 0], [1, 0], hk, hr, rfl, rfl, by simp, ?_, rfl, ?_⟩
  · exact .cons (Or.inr (by simp)) (.cons (Or.inl (by simp)) .nil)
  · rw [hM, Matrix.submatrix_one _ (List.nodup_iff_injective_get.mp (by decide))]
    exact PosDef.one

/-! ## C83 -/

lemma evalPoints_pointsVal (E : Ext) (sel : Option (List (Fin d))) (r : Reflect) (probability : Bool) (u : PtsUse)
    (k : KDE d) (v : Option (List (List ℝ))) :
    (evalPoints E sel r probability u { k with pointsVal := v }).1 = (evalPoints E sel r probability u k).1 := by
  unfold evalPoints
  cases toCols u.evalRows with
  | error e => rfl
  | ok cols =>
    simp only [KDE.evalKernel]
    cases sel with
    | none =>
      simp only
      cases checkReflect k.dataset r with
      | error e => rfl
      | ok r =>
        simp only
        rcases k.kernel.density E cols k.dataset k.weights r with ⟨_ | _, _⟩ <;> rfl
    | some ps =>
      simp only
      cases checkReflect (selectCols k.dataset ps) r with
      | error e => rfl
      | ok r =>
        simp only
        rcases k.kernel.densityParams E ps cols (selectCols k.dataset ps) k.weights r with ⟨_ | _, _⟩ <;> rfl

lemma points_pointsVal {srt : List ℝ → List ℕ} {k : KDE d} {p : Pts} (h : (k.points srt).1 = .ok p) :
    ∃ v, k.points srt = (.ok p, { k with pointsVal := v }) := by
  unfold KDE.points at h ⊢
  cases hv : k.pointsVal with
  | some rows =>
    rw [hv] at h
    exact ⟨some rows, Prod.ext h (by simp [← hv])⟩
  | none =>
    rw [hv] at h
    simp only at h ⊢
    cases hc : k.computePoints srt with
    | error e => rw [hc] at h; cases h
    | ok rows =>
      rw [hc] at h
      exact ⟨some rows, Prod.ext h rfl⟩

/-- **C83.** Without `points` the density is that at the KDE's own points: with several parameters selected, on the grid of
the rows of these parameters, in the order of the list. The argument `grid` is ignored. -/
theorem C83_default_points_params (E : Ext) (srt : List ℝ → List ℕ) (k : KDE d) (hd : d ≠ 1) (p : Pts)
    (hp : (k.points srt).1 = .ok p) (l : List ℤ) (hl : l ≠ []) (ps : List (Fin d)) (hps : List.Forall₂ Spec.Names l ps)
    (reflect : Reflect) (grid probability : Bool) :
    (k.density E srt none reflect (.list l) grid probability).1
      = (k.density E srt (some (.rows (ps.map fun i : Fin d => p.toRows.getD i []))) reflect (.list l)
          (decide (1 < l.length)) probability).1 := by
  obtain ⟨v, hv⟩ := points_pointsVal hp
  cases hr : reflectLength d (numSel (some ps)) (k.defaultReflect (some ps) reflect) with
  | error e => simp only [KDE.density, paramSel_names hd hl hps, hr]
  | ok r =>
    rw [density_eq_steps E srt _ _ _ _ _ _ (paramSel_names hd hl hps) hr,
      density_eq_steps E srt _ _ _ _ _ _ (paramSel_names hd hl hps) hr]
    simp only [KDE.choosePoints, hv, andThen]
    rw [evalPoints_pointsVal, hps.length_eq]

/-- **C83.** The same without `params`, in several dimensions: on the grid of all rows. -/
theorem C83_default_points (E : Ext) (srt : List ℝ → List ℕ) (k : KDE d) (hd : 1 < d) (p : List (List ℝ))
    (hp : (k.points srt).1 = .ok (.rows p)) (reflect : Reflect) (grid probability : Bool) :
    (k.density E srt none reflect .none grid probability).1
      = (k.density E srt (some (.rows p)) reflect .none true probability).1 := by
  obtain ⟨v, hv⟩ := points_pointsVal hp
  cases hr : reflectLength d (numSel (none : Option (List (Fin d)))) (k.defaultReflect none reflect) with
  | error e => simp only [KDE.density, paramSel, hr]
  | ok r =>
    rw [density_eq_steps E srt _ _ _ .none _ _ (sel := none) (squeeze := false) rfl hr,
      density_eq_steps E srt _ _ _ .none _ _ (sel := none) (squeeze := false) rfl hr]
    simp only [KDE.choosePoints, hv, andThen]
    rw [evalPoints_pointsVal, decide_eq_true hd]

/-- Specification: an answer with the axes of length one removed from the values, and the first row of the points only. -/
def Spec.squeezed (r : Res (Pts × Arr)) : Res (Pts × Arr) :=
  r.map fun x => (.flat (x.1.toRows.getD 0 []), ⟨x.2.shape.filter (· ≠ 1), x.2.vals⟩)

lemma evalPoints_squeeze (E : Ext) (sel : Option (List (Fin d))) (r : Reflect) (probability : Bool) (pts : Pts)
    (grid b : Bool) (k : KDE d) :
    (evalPoints E sel r probability ⟨pts, grid, true⟩ k).1
      = Spec.squeezed (evalPoints E sel r probability ⟨pts, grid, b⟩ k).1 := by
  unfold evalPoints
  simp only [PtsUse.evalRows]
  cases toCols (if grid = true then meshRows pts.toRows else pts.toRows) with
  | error e => rfl
  | ok cols =>
    simp only
    rcases k.evalKernel E sel cols r with ⟨_ | vals, k'⟩
    · rfl
    · cases b
      · rfl
      · simp [andThen, finish, packResult, Spec.squeezed, Except.map, squeezeShape, Pts.toRows]

/-- **C83.** A single parameter number is the list of this number, with the answer squeezed. -/
theorem C83_scalar (E : Ext) (srt : List ℝ → List ℕ) (k : KDE d) (hd : d ≠ 1) (q : ℤ) (points : Option Pts)
    (reflect : Reflect) (grid probability : Bool) :
    (k.density E srt points reflect (.scalar q) grid probability).1
      = Spec.squeezed (k.density E srt points reflect (.list [q]) grid probability).1 := by
  cases hq : dimIndex d q with
  | error e => simp [KDE.density, paramSel, hd, hq, listSeq, Except.map, Spec.squeezed]
  | ok i =>
    have h1 : paramSel d (.scalar q) = .ok (some [i], true) := by simp [paramSel, hd, hq, Except.map]
    have h2 : paramSel d (.list [q]) = .ok (some [i], false) := by simp [paramSel, hd, hq, Except.map, listSeq]
    cases hr : reflectLength d (numSel (some [i])) (k.defaultReflect (some [i]) reflect) with
    | error e => simp only [KDE.density, h1, h2, hr]; rfl
    | ok r =>
      rw [density_eq_steps E srt _ _ _ _ _ _ h1 hr, density_eq_steps E srt _ _ _ _ _ _ h2 hr]
      rcases points with _ | l | l
      · simp only [KDE.choosePoints]
        rcases k.points srt with ⟨_ | p, k'⟩
        · rfl
        · exact evalPoints_squeeze E (some [i]) r probability (.rows ([i].map fun i : Fin d => p.toRows.getD i []))
            (decide (1 < [i].length)) false k'
      · exact evalPoints_squeeze E _ r probability _ _ true k
      · exact evalPoints_squeeze E _ r probability _ _ false k

/-- Concrete case of the hypotheses of C83: two weighted points in the plane, default points. -/
example : ∃ (E : Ext) (srt : List ℝ → List ℕ) (a : KDEArgs 2) (k : KDE 2) (p : List (List ℝ)), KDE.init E a = .ok k ∧
    (k.points srt).1 = .ok (.rows p) ∧ List.Forall₂ Spec.Names [-1, 0] [(1 : Fin 2), 0] := by
  obtain ⟨srt, hs⟩ := exists_argsort
  obtain ⟨k, hk, hw, hD, hM⟩ := unit_init (d := 2) ⟨fun A => A, id⟩ [![0, 1], ![2, 5]] (by simp) [1, 3]
    ⟨rfl, by simp, 1, by simp, by norm_num⟩ .box rfl
  obtain ⟨p, hp⟩ := C09_grid_exists hk srt hs rfl rfl (by rw [hD]; rfl) (by rw [hM]; exact PosDef.one) (by norm_num) rfl
  have hsq : k.squeeze = false := by
    obtain ⟨_, _, _, _, _, _, _, _, _, _, _, _, _, _, _, _, _, _, he⟩ := init_inv hk
    rw [he]
  have := C14_points ⟨fun A => A, id⟩ srt hk []
  rw [List.foldl_nil, hp] at this
  cases hc : k.computePoints srt with
  | error e => rw [hc] at this; cases this
  | ok rows =>
    rw [hc] at this
    simp only [Except.map, KDE.shapePoints, hsq, Bool.false_eq_true, if_false, Except.ok.injEq] at this
    exact ⟨_, srt, _, k, rows, hk, by rw [hp, this],
      .cons (Or.inr (by simp)) (.cons (Or.inl (by simp)) .nil)⟩

end Kalepy
