import Verif.Model.IntData
import Verif.Props.ReflectDims
import Verif.Props.ResampleReflect

/-!
# C65: densities of integer data
-/

namespace Kalepy

open Matrix

variable {d : ℕ}

/-- All coordinates are integers. -/
def Spec.IntegerData (data : List (Fin d → ℝ)) : Prop := ∀ x ∈ data, ∀ i, ∃ z : ℤ, x i = z

/-- Every boundary is an integer or half way between two integers, so that mirror images of integers are integers. -/
def Spec.HalfIntegers (rows : List ReflRow) : Prop := ∀ r ∈ rows, ∀ b ∈ Spec.bounds r, ∃ z : ℤ, 2 * b = z

/-- The integer part of a number, as an assignment to an integer array stores it. -/
noncomputable def Spec.truncate (t : ℝ) : ℝ := if 0 ≤ t then (⌊t⌋ : ℝ) else (⌈t⌉ : ℝ)

/-- **C65 (full statement, not true of the code).** The density of integer data does not depend on whether the array has an
integer or a float element type. -/
def C65_Claim : Prop :=
  ∀ (d : ℕ) (E : Ext) (srt : List ℝ → List ℕ) (a : KDEArgs d) (k : KDE d), KDE.init E a = .ok k → Spec.IntegerData a.dataset →
    ∀ (points : Option Pts) (reflect : Reflect) (params : ParamArg) (grid probability : Bool),
      (k.densityT .int E srt points reflect params grid probability).1
        = (k.densityT .float E srt points reflect params grid probability).1

lemma store_int (t : ℝ) : DType.store .int t = Spec.truncate t := by
  simp only [DType.store, pyInt, Spec.truncate]
  split <;> rfl

lemma truncate_int (z : ℤ) : Spec.truncate z = z := by
  simp [Spec.truncate]

lemma reflectColT_float {m : ℕ} (i : Fin m) (loc : ℝ) : reflectColT .float i loc = reflectCol i loc := rfl

lemma reflectStepT_float {m : ℕ} (white : Matrix (Fin m) (Fin m) ℝ) (data pts w kf) (res : List ℝ) (i : Fin m) (r : ReflRow) :
    reflectStepT .float white data pts w kf res i r = reflectStep white data pts w kf res i r := by
  cases r with
  | none => rfl
  | some r =>
    obtain ⟨a, b⟩ := r
    cases a <;> cases b <;> rfl

lemma densityCoreT_float {m : ℕ} (D : Dist) (nrm : ℝ) (minv : Matrix (Fin m) (Fin m) ℝ) (points : Cols ℝ) (data w refl) :
    densityCoreT .float D nrm minv points data w refl = densityCore D nrm minv points data w refl := by
  unfold densityCoreT densityCore
  simp only [reflectStepT_float]
  rfl

/-- For float data this is the other model. -/
lemma densityT_float (E : Ext) (srt : List ℝ → List ℕ) (k : KDE d) (points : Option Pts) (reflect : Reflect)
    (params : ParamArg) (grid probability : Bool) :
    k.densityT .float E srt points reflect params grid probability
      = k.density E srt points reflect params grid probability := by
  unfold KDE.densityT KDE.density KDE.evalKernelT KDE.evalKernel
  simp only [Kernel.densityT, Kernel.density, Kernel.densityParamsT, Kernel.densityParams, densityCoreT_float]
  rfl

lemma reflectAddT_half {m : ℕ} (white : Matrix (Fin m) (Fin m) ℝ) (data pts w kf) (res : List ℝ) (i : Fin m) (o : Option ℝ)
    (hI : Spec.IntegerData data) (h : ∀ b ∈ o.toList, ∃ z : ℤ, 2 * b = z) :
    reflectAddT .int white data pts w kf i res o = reflectAdd white data pts w kf i res o := by
  cases o with
  | none => rfl
  | some b =>
    obtain ⟨z, hz⟩ := h b (by simp)
    have : data.map (reflectColT .int i b) = data.map (reflectCol i b) := by
      refine List.map_congr_left fun x hx => ?_
      obtain ⟨y, hy⟩ := hI x hx i
      rw [reflectColT, reflectCol, store_int, hz, hy, ← Int.cast_sub, truncate_int]
    simp only [reflectAddT, reflectAdd, this]

lemma densityCoreT_half {m : ℕ} (D : Dist) (nrm : ℝ) (minv : Matrix (Fin m) (Fin m) ℝ) (points : Cols ℝ) (data w)
    (hI : Spec.IntegerData data) (refl : Option (List ReflRow)) (h : ∀ r, refl = some r → Spec.HalfIntegers r) :
    densityCoreT .int D nrm minv points data w refl = densityCore D nrm minv points data w refl := by
  cases refl with
  | none => rfl
  | some rows =>
    have hs : ∀ (white : Matrix (Fin m) (Fin m) ℝ) (pts w kf) (res : List ℝ) (i : Fin m) (r : ReflRow), r ∈ rows →
        reflectStepT .int white data pts w kf res i r = reflectStep white data pts w kf res i r := by
      intro white pts w kf res i r hr
      have hb := h rows rfl r hr
      cases r with
      | none => rfl
      | some r =>
        obtain ⟨a, b⟩ := r
        simp only [reflectStepT, reflectStep]
        rw [reflectAddT_half _ _ _ _ _ _ _ _ hI fun x hx => hb x (by cases a <;> simp_all [Spec.bounds]),
          reflectAddT_half _ _ _ _ _ _ _ _ hI fun x hx => hb x (by cases a <;> cases b <;> simp_all [Spec.bounds])]
    unfold densityCoreT densityCore
    have hf : ∀ (hr : rows.length = m) (white : Matrix (Fin m) (Fin m) ℝ) (pts w) (res : List ℝ),
        (List.finRange m).foldl (fun res i => reflectStepT .int white data pts w D.eval res i
          (rows.get (Fin.cast hr.symm i))) res
        = (List.finRange m).foldl (fun res i => reflectStep white data pts w D.eval res i
          (rows.get (Fin.cast hr.symm i))) res := by
      intro hr white pts w res
      congr 1
      funext res i
      exact hs _ _ _ _ _ _ _ (List.get_mem _ _)
    by_cases hp : points.dim = m
    · simp only [dif_pos hp]
      cases w with
      | none =>
        simp only
        cases cholesky minv with
        | none => rfl
        | some W =>
          by_cases hr : rows.length = m
          · simp only [dif_pos hr, hf hr]
          · simp only [dif_neg hr]
      | some l =>
        by_cases hl : l.length = data.length
        · simp only [hl, ne_eq, not_true_eq_false, if_false]
          cases cholesky minv with
          | none => rfl
          | some W =>
            by_cases hr : rows.length = m
            · simp only [dif_pos hr, hf hr]
            · simp only [dif_neg hr]
        · simp only [hl, ne_eq, not_false_eq_true, if_true]
    · simp only [dif_neg hp]

/-- `densityT` for integer data, if the boundaries that are used are integers or half-integers. -/
lemma evalKernelT_half (E : Ext) (k : KDE d) (hI : Spec.IntegerData k.dataset) (sel : Option (List (Fin d))) (cols : Cols ℝ)
    (r : Reflect)
    (h : match sel with
      | none => ∀ rows, checkReflect k.dataset r = .ok (some rows) → Spec.HalfIntegers rows
      | some ps => ∀ rows, checkReflect (selectCols k.dataset ps) r = .ok (some rows) → Spec.HalfIntegers rows) :
    k.evalKernelT .int E sel cols r = k.evalKernel E sel cols r := by
  cases sel with
  | none =>
    simp only [KDE.evalKernelT, KDE.evalKernel]
    cases hc : checkReflect k.dataset r with
    | error e => rfl
    | ok o =>
      have h' : ∀ rows, o = some rows → Spec.HalfIntegers rows := fun rows ho => h rows (by rw [hc, ho])
      simp only [Kernel.densityT, Kernel.density, densityCoreT_half _ _ _ _ _ _ hI o h']
  | some ps =>
    simp only [KDE.evalKernelT, KDE.evalKernel]
    have hI' : Spec.IntegerData (selectCols k.dataset ps) := by
      intro x hx i
      obtain ⟨y, hy, rfl⟩ := List.mem_map.mp hx
      exact hI y hy _
    cases hc : checkReflect (selectCols k.dataset ps) r with
    | error e => rfl
    | ok o =>
      have h' : ∀ rows, o = some rows → Spec.HalfIntegers rows := fun rows ho => h rows (by rw [hc, ho])
      simp only [Kernel.densityParamsT, Kernel.densityParams, densityCoreT_half _ _ _ _ _ _ hI' o h']

lemma choosePoints_data (srt : List ℝ → List ℕ) (k : KDE d) (points : Option Pts) (sel : Option (List (Fin d)))
    (grid squeeze : Bool) : (k.choosePoints srt points sel grid squeeze).2.dataset = k.dataset := by
  have hp : (k.points srt).2.dataset = k.dataset := by
    unfold KDE.points
    split
    · rfl
    · split <;> rfl
  unfold KDE.choosePoints
  cases points with
  | some p => cases p <;> rfl
  | none =>
    simp only
    rcases hk : k.points srt with ⟨_ | pts, k1⟩
    · rw [hk] at hp; exact hp
    · rw [hk] at hp; cases sel <;> exact hp

/-- **C65 (partial).** Without boundaries, and with boundaries that are integers or half-integers, the element type does not
matter: for all points, parameters, grids.  Missing: other boundaries, for which it is false (`C65_refuted`,
`C65_truncated`). -/
theorem C65_partial {E : Ext} {a : KDEArgs d} {k : KDE d} (hk : KDE.init E a = .ok k) (srt : List ℝ → List ℕ)
    (hI : Spec.IntegerData a.dataset) (hr : ∀ rows, k.reflect = some rows → Spec.HalfIntegers rows)
    (points : Option Pts) (params : ParamArg) (grid probability : Bool) :
    k.densityT .int E srt points .none params grid probability
      = k.densityT .float E srt points .none params grid probability := by
  rw [densityT_float]
  obtain ⟨rows0, w, cov, bw0, D, out, eff, ext, hr', hne, _, _, _, _, _, _, _, _, he⟩ := init_inv hk
  have e1 : k.reflect = rows0 := by rw [he]
  have e2 : k.dataset = a.dataset := by rw [he]
  unfold KDE.densityT KDE.density
  cases hs : paramSel d params with
  | error e => rfl
  | ok s =>
    obtain ⟨sel, squeeze⟩ := s
    simp only
    cases hrl : reflectLength d (numSel sel) (k.defaultReflect sel .none) with
    | error e => rfl
    | ok r =>
      simp only
      have hcd := choosePoints_data srt k points sel grid squeeze
      rcases hc : k.choosePoints srt points sel grid squeeze with ⟨_ | u, k1⟩
      · rfl
      · rw [hc] at hcd
        simp only at hcd ⊢
        cases ht : toCols u.evalRows with
        | error e => rfl
        | ok cols =>
          simp only
          rw [evalKernelT_half E k1 (by rw [hcd, e2]; exact hI) sel cols r ?_]
          · rfl
          cases sel with
          | none =>
            intro rows hc'
            rw [hcd, e2] at hc'
            cases hk0 : rows0 with
            | none =>
              simp only [KDE.defaultReflect, e1, hk0, Reflect.ofChecked, reflectLength, Except.ok.injEq] at hrl
              rw [← hrl] at hc'
              cases hc'
            | some rs =>
              rw [hk0] at hr' e1
              have hlen := (C20_result _ hne _ rs hr').1
              have : r = Reflect.ofChecked (some rs) := by
                have h0 : reflectLength d (numSel (none : Option (List (Fin d)))) (Reflect.ofChecked (some rs))
                    = .ok (Reflect.ofChecked (some rs)) := by
                  simp [Reflect.ofChecked, reflectLength, numSel, hlen]
                rw [show k.defaultReflect none .none = Reflect.ofChecked (some rs) by rw [KDE.defaultReflect, e1], h0] at hrl
                injection hrl with hrl
                exact hrl.symm
              rw [this, C20_idempotent _ hne _ rs hr' _ hne] at hc'
              cases hc'
              exact hr _ e1
          | some ps =>
            intro rows hc'
            rw [hcd, e2] at hc'
            cases hk0 : rows0 with
            | none =>
              simp only [KDE.defaultReflect, e1, hk0, Option.map_none, Reflect.ofChecked, reflectLength, Except.ok.injEq] at hrl
              rw [← hrl] at hc'
              cases hc'
            | some rs =>
              rw [hk0] at hr' e1
              have hres := C20_result _ hne _ rs hr'
              have hmem : ∀ x ∈ selectRows rs ps, x ∈ rs := by
                intro x hx
                obtain ⟨i, _, rfl⟩ := List.mem_map.mp hx
                rw [List.getD_eq_getElem _ _ (by rw [hres.1]; exact i.2)]
                exact List.getElem_mem _
              have : r = Reflect.ofChecked (some (selectRows rs ps)) := by
                have h0 : reflectLength d (numSel (some ps)) (Reflect.ofChecked (some (selectRows rs ps)))
                    = .ok (Reflect.ofChecked (some (selectRows rs ps))) := by
                  simp [Reflect.ofChecked, reflectLength, numSel, selectRows]
                rw [show k.defaultReflect (some ps) .none = Reflect.ofChecked (some (selectRows rs ps)) by
                  simp only [KDE.defaultReflect, e1, Option.map_some], h0] at hrl
                injection hrl with hrl
                exact hrl.symm
              rw [this, checkReflect_checked _ (by simpa [selectCols] using hne) (selectRows rs ps) (by simp [selectRows])
                fun lo hi h => hres.2 lo hi (hmem _ h)] at hc'
              cases hc'
              exact fun x hx => hr _ e1 x (hmem x hx)

/-! ## One dimension, exactly -/

lemma kde_densityT_eq {E : Ext} {a : KDEArgs d} {k : KDE d} (h : KDE.init E a = .ok k) (dt : DType) (srt : List ℝ → List ℕ)
    (hd : 0 < d) (pts : List (Fin d → ℝ)) (vals : List ℝ) (hl : vals.length = pts.length)
    (hv : (k.kernel.densityT dt E ⟨d, pts⟩ k.dataset k.weights k.reflect).1 = .ok vals) :
    (k.densityT dt E srt (some (.rows (Spec.rowsOf pts))) .none .none false true).1
      = .ok (.rows (Spec.rowsOf pts), ⟨[pts.length], vals.map (· / k.totalWeight)⟩) := by
  obtain ⟨rows, w, cov, bw0, D, out, eff, ext, hr, hne, _, _, _, _, _, _, _, _, hk⟩ := init_inv h
  have e1 : k.reflect = rows := by rw [hk]
  have e2 : k.dataset = a.dataset := by rw [hk]
  rw [e2, e1] at hv
  have hrl : reflectLength d d (Reflect.ofChecked rows) = .ok (Reflect.ofChecked rows) ∧
      checkReflect a.dataset (Reflect.ofChecked rows) = .ok rows := by
    cases rows with
    | none => exact ⟨rfl, rfl⟩
    | some rs =>
      refine ⟨?_, C20_idempotent _ hne _ rs hr _ hne⟩
      have := (C20_result _ hne _ rs hr).1
      simp [Reflect.ofChecked, reflectLength, this]
  obtain ⟨⟨n, c⟩, hc, hdim, hcols⟩ := toCols_rowsOf hd pts
  simp only at hdim hcols
  subst hdim
  have hcp : c = pts := List.map_injective_iff.mpr List.ofFn_injective hcols
  subst hcp
  unfold KDE.densityT
  have hrl' : reflectLength n (numSel (none : Option (List (Fin n)))) (k.defaultReflect none .none) = .ok (Reflect.ofChecked rows) := by
    rw [← hrl.1, KDE.defaultReflect, e1]; rfl
  simp only [paramSel, hrl', KDE.choosePoints, PtsUse.evalRows, Pts.toRows, Bool.false_eq_true, if_false, hc,
    KDE.evalKernelT, e2, hrl.2]
  rcases hk : k.kernel.densityT dt E ⟨n, c⟩ a.dataset k.weights rows with ⟨v, kern⟩
  rw [hk] at hv
  simp only at hv
  subst hv
  simp [packResult, valShape, hl, KDE.totalWeight, e2]

open Classical in
/-- **C65.** What happens to integer data with boundaries in one dimension: the pdf is that of the data together with the
mirror images *truncated to integers* (towards zero). -/
theorem C65_truncated {E : Ext} {a : KDEArgs 1} {k : KDE 1} (h : KDE.init E a = .ok k) (srt : List ℝ → List ℕ)
    (hM : (Spec.kernelMatrix k.covariance k.bandwidth).PosDef) (lo hi : Option ℝ) (hr : k.reflect = some [some (lo, hi)])
    (pts : List (Fin 1 → ℝ)) :
    (k.densityT .int E srt (some (.rows (Spec.rowsOf pts))) .none .none false true).1
      = .ok (.rows (Spec.rowsOf pts), ⟨[pts.length], pts.map fun x =>
          (if Spec.Violates (some (lo, hi)) (x 0) then 0 else
            (Spec.kernelSum k.kernel.dist (Spec.kernelMatrix k.covariance k.bandwidth) (Spec.weighted a.dataset k.weights) x
              + ((lo.toList ++ hi.toList).map fun b => Spec.kernelSum k.kernel.dist
                  (Spec.kernelMatrix k.covariance k.bandwidth)
                  (Spec.weighted (a.dataset.map fun y _ => Spec.truncate (2 * b - y 0)) k.weights) x).sum)
            / (Real.sqrt (Spec.kernelMatrix k.covariance k.bandwidth).det * k.kernel.dist.norm 1))
          / ((Spec.weighted a.dataset k.weights).map Prod.snd).sum⟩) := by
  have hw : ∀ l, k.weights = some l → l.length = a.dataset.length := fun l hl => (stored_valid h hl).1
  have hds : k.dataset = a.dataset := by
    obtain ⟨_, _, _, _, _, _, _, _, _, _, _, _, _, _, _, _, _, _, he⟩ := init_inv h
    rw [he]
  have htot : k.totalWeight = ((Spec.weighted a.dataset k.weights).map Prod.snd).sum := by
    unfold KDE.totalWeight
    cases hk : k.weights with
    | none => simp [Spec.weighted, hds, Function.comp_def]
    | some w =>
      simp only [Spec.weighted]
      rw [List.map_snd_zip (by rw [(stored_valid h hk).1])]
  rw [← htot]
  set M := Spec.kernelMatrix k.covariance k.bandwidth with hMdef
  obtain ⟨W, hW⟩ := cholesky_of_posDef hM.inv
  rw [kde_densityT_eq h .int srt one_pos pts (pts.map fun x =>
    if Spec.Violates (some (lo, hi)) (x 0) then 0 else
            (Spec.kernelSum k.kernel.dist M (Spec.weighted a.dataset k.weights) x
              + ((lo.toList ++ hi.toList).map fun b => Spec.kernelSum k.kernel.dist M
                  (Spec.weighted (a.dataset.map fun y _ => Spec.truncate (2 * b - y 0)) k.weights) x).sum)
            / (Real.sqrt M.det * k.kernel.dist.norm 1)) (by simp)]
  · simp [List.map_map, Function.comp_def]
  · rw [hds, hr]
    obtain ⟨_, w, cov, bw0, D, _, _, _, _, _, _, _, _, _, _, _, _, _, he⟩ := init_inv h
    have hker : (k.kernel.densityT .int E ⟨1, pts⟩ a.dataset k.weights (some [some (lo, hi)])).1
        = densityCoreT .int k.kernel.dist (Real.sqrt |M.det|) (matrixInvert E M) ⟨1, pts⟩ a.dataset k.weights
            (some [some (lo, hi)]) := by
      rw [hMdef, he]; rfl
    rw [hker, matrixInvert_posDef E hM, abs_of_pos hM.det_pos]
    have hadd : ∀ (f : (Fin 1 → ℝ) → ℝ) (o : Option ℝ),
        reflectAddT .int W a.dataset pts (usedWeights a.dataset k.weights) k.kernel.dist.eval 0 (pts.map f) o
          = pts.map fun x => f x + (o.toList.map fun b => Spec.kernelSum k.kernel.dist M
              (Spec.weighted (a.dataset.map fun y _ => Spec.truncate (2 * b - y 0)) k.weights) x).sum := by
      intro f o
      cases o with
      | none => simp [reflectAddT]
      | some b =>
        have hmir : a.dataset.map (reflectColT .int 0 b)
            = a.dataset.map fun y (_ : Fin 1) => Spec.truncate (2 * b - y 0) := by
          refine List.map_congr_left fun y _ => ?_
          funext i
          fin_cases i
          simp [reflectColT, store_int]
        rw [reflectAddT, hmir, evaluateNumba_eq, zipWith_map_map]
        refine List.map_congr_left fun x _ => ?_
        have hu : usedWeights (a.dataset.map fun y (_ : Fin 1) => Spec.truncate (2 * b - y 0)) k.weights
            = usedWeights a.dataset k.weights := by
          cases k.weights <;> simp [usedWeights]
        simp [kval_eq_kernelSum hM hW, weighted_eq, hu]
    have hstep : reflectStepT .int W a.dataset pts (usedWeights a.dataset k.weights) k.kernel.dist.eval
        (evaluateNumba W a.dataset pts (usedWeights a.dataset k.weights) k.kernel.dist.eval) 0 (some (lo, hi))
        = pts.map fun x => if Spec.Violates (some (lo, hi)) (x 0) then 0 else
            (Spec.kernelSum k.kernel.dist M (Spec.weighted a.dataset k.weights) x
              + ((lo.toList ++ hi.toList).map fun b => Spec.kernelSum k.kernel.dist M
                  (Spec.weighted (a.dataset.map fun y _ => Spec.truncate (2 * b - y 0)) k.weights) x).sum) := by
      rw [reflectStepT, evaluateNumba_eq]
      simp only
      rw [hadd, hadd]
      have := zipWith_map_map (fun (x : Fin 1 → ℝ) (v : ℝ) => if outsideRow (lo, hi) (x 0) then 0 else v) id
        (fun x => kval W k.kernel.dist.eval a.dataset (usedWeights a.dataset k.weights) x
          + (lo.toList.map fun b => Spec.kernelSum k.kernel.dist M
              (Spec.weighted (a.dataset.map fun y _ => Spec.truncate (2 * b - y 0)) k.weights) x).sum
          + (hi.toList.map fun b => Spec.kernelSum k.kernel.dist M
              (Spec.weighted (a.dataset.map fun y _ => Spec.truncate (2 * b - y 0)) k.weights) x).sum) pts
      rw [List.map_id] at this
      rw [this]
      refine List.map_congr_left fun x _ => ?_
      simp only [id]
      rw [kval_eq_kernelSum hM hW, ← weighted_eq, List.map_append, List.sum_append, ← add_assoc]
      by_cases hv : Spec.Violates (some (lo, hi)) (x 0)
      · rw [if_pos ((outsideRow_iff _ _).mpr hv), if_pos hv]
      · rw [if_neg (fun h => hv ((outsideRow_iff _ _).mp h)), if_neg hv]
    have hfin : ∀ (w : List ℝ), w = usedWeights a.dataset k.weights →
        (((List.finRange 1).foldl (fun res i => reflectStepT .int W a.dataset pts w k.kernel.dist.eval res i
              ([some (lo, hi)].get (Fin.cast (by simp) i)))
              (evaluateNumba W a.dataset pts w k.kernel.dist.eval)).map (· / (Real.sqrt M.det * k.kernel.dist.norm 1)))
        = (pts.map fun x => if Spec.Violates (some (lo, hi)) (x 0) then 0 else
            (Spec.kernelSum k.kernel.dist M (Spec.weighted a.dataset k.weights) x
              + ((lo.toList ++ hi.toList).map fun b => Spec.kernelSum k.kernel.dist M
                  (Spec.weighted (a.dataset.map fun y _ => Spec.truncate (2 * b - y 0)) k.weights) x).sum)
            / (Real.sqrt M.det * k.kernel.dist.norm 1)) := by
      rintro w rfl
      have h0 : List.finRange 1 = [0] := by rfl
      simp only [h0, List.foldl_cons, List.foldl_nil]
      have : ([some (lo, hi)] : List ReflRow).get (Fin.cast (by simp) (0 : Fin 1)) = some (lo, hi) := rfl
      rw [this, hstep, List.map_map]
      refine List.map_congr_left fun x _ => ?_
      simp only [Function.comp_apply]
      split_ifs <;> simp
    unfold densityCoreT
    simp only [dif_pos, List.length_singleton]
    have hp : (pts.map fun c => fun i => c (Fin.cast (rfl : 1 = 1).symm i)) = pts := by simp
    cases hk : k.weights with
    | none =>
      have := hfin (List.replicate a.dataset.length 1) (by rw [hk]; rfl)
      rw [hk] at this
      simp only [hp, hW, if_neg (sqrt_det_ne hM)]
      exact congrArg Except.ok this
    | some l =>
      have := hfin l (by rw [hk]; rfl)
      rw [hk] at this
      simp only [hw l hk, ne_eq, not_true_eq_false, if_false]
      simp only [hp, hW, if_neg (sqrt_det_ne hM)]
      exact congrArg Except.ok this

/-- **C65, refuted.** One datum 1, a lower boundary at 1/4, box kernel of half width 1. The mirror image of the datum is
-1/2; in an integer array it is stored as 0, and the density at 3/4 doubles. -/
theorem C65_refuted : ¬ C65_Claim := by
  intro hC
  let E : Ext := ⟨fun A => A, id⟩
  let srt : List ℝ → List ℕ := fun l => List.range l.length
  obtain ⟨k, hk, hw, hD, hM, hr, _, hdat⟩ := unit_init_reflect E ([![1]] : List (Fin 1 → ℝ)) (by simp) .box rfl
    [some (some (1 / 4), none)] rfl (by simp) ⟨(some (1 / 4), none), by simp⟩
  have hpd : (Spec.kernelMatrix k.covariance k.bandwidth).PosDef := by rw [hM]; exact PosDef.one
  have h := hC 1 E srt _ k hk (by
    intro x hx i
    rw [List.mem_singleton] at hx
    subst hx
    fin_cases i
    exact ⟨1, by simp⟩) (some (.rows (Spec.rowsOf [![3 / 4]]))) .none .none false true
  have hf := C13_kde_dims hk srt one_pos hpd _ hr [] [![3 / 4]]
  rw [List.foldl_nil, KDE.pdf] at hf
  rw [C65_truncated hk srt hpd _ _ hr, densityT_float, hf] at h
  have hv : ¬ Spec.Violates (some (some (1 / 4), none)) (3 / 4) := by
    rw [not_violates]
    simp [Spec.inside]
    norm_num
  have hA : (![3 / 4] : Fin 1 → ℝ) ∈ Spec.Allowed [some (some (1 / 4), none)] := by
    intro i
    fin_cases i
    exact hv
  have hA0 : Spec.AllowedFrom [some (some (1 / 4), none)] 0 (![3 / 4] : Fin 1 → ℝ) := by
    intro i _
    fin_cases i
    exact hv
  have hce : ⌈(-(1 / 2) : ℝ)⌉ = 0 := by
    rw [Int.ceil_eq_iff]; norm_num
  have htr : Spec.truncate (2 * (1 / 4) - 1) = 0 := by
    have e : (2 * (1 / 4) - 1 : ℝ) = -(1 / 2) := by norm_num
    rw [e, Spec.truncate, if_neg (by norm_num), hce]; simp
  have k0 : Spec.kernelSum .box 1 (Spec.weighted [![1]] none) (![3 / 4] : Fin 1 → ℝ) = 1 := by
    simp [Spec.kernelSum, Spec.weighted, Spec.shape, Spec.dist2]
    norm_num
  have k1 : Spec.kernelSum .box 1 (Spec.weighted [fun _ => 0] none) (![3 / 4] : Fin 1 → ℝ) = 1 := by
    simp [Spec.kernelSum, Spec.weighted, Spec.shape, Spec.dist2]
    norm_num
  have k2 : Spec.kernelSum .box 1 (Spec.weighted [Spec.mirror 0 (1 / 4) ![1]] none) (![3 / 4] : Fin 1 → ℝ) = 0 := by
    have hm : Spec.mirror 0 (1 / 4) ![1] = (![-(1 / 2)] : Fin 1 → ℝ) := by
      funext i
      fin_cases i
      simp [Spec.mirror]
      norm_num
    rw [hm]
    simp [Spec.kernelSum, Spec.weighted, Spec.shape, Spec.dist2]
    norm_num
  simp only [hD, hM, hw, List.map_cons, List.map_nil] at h
  have hv' : ¬ Spec.Violates (some (some (1 / 4), none)) ((![3 / 4] : Fin 1 → ℝ) 0) := hv
  have h0 : List.finRange 1 = [0] := rfl
  simp only [if_neg hv', if_pos hA, h0, List.map_cons, List.map_nil, if_pos hA0, Option.toList_some, Option.toList_none,
    List.append_nil, Except.ok.injEq, Prod.mk.injEq, true_and] at h
  have htr' : (fun _ : Fin 1 => Spec.truncate (2 * (1 / 4) - (![1] : Fin 1 → ℝ) 0)) = fun _ => 0 := by
    funext _
    exact htr
  have hb : Spec.bounds (([some (some (1 / 4), none)] : List ReflRow).getD ((0 : Fin 1) : ℕ) none) = [1 / 4] := rfl
  rw [htr', hb, k0, k1] at h
  simp only [List.map_cons, List.map_nil, k2] at h
  simp [Spec.weighted, Dist.norm, nballVol_one] at h

/-- Concrete case of the hypotheses of `C65_partial` and `C65_truncated`: counts 0, 1, 3 with a boundary at -1/2. -/
example : ∃ (E : Ext) (a : KDEArgs 1) (k : KDE 1), KDE.init E a = .ok k ∧ Spec.IntegerData a.dataset ∧
    (Spec.kernelMatrix k.covariance k.bandwidth).PosDef ∧ k.reflect = some [some (some (-(1 / 2)), none)] ∧
    Spec.HalfIntegers [some (some (-(1 / 2)), none)] := by
  obtain ⟨k, hk, hw, hD, hM, hr, _, hdat⟩ := unit_init_reflect ⟨fun A => A, id⟩ ([![0], ![1], ![3]] : List (Fin 1 → ℝ)) (by simp)
    .box rfl [some (some (-(1 / 2)), none)] rfl (by simp) ⟨(some (-(1 / 2)), none), by simp⟩
  refine ⟨_, _, k, hk, ?_, by rw [hM]; exact PosDef.one, hr, ?_⟩
  · intro x hx i
    fin_cases i
    simp only [List.mem_cons, List.not_mem_nil, or_false] at hx
    rcases hx with rfl | rfl | rfl
    · exact ⟨0, by simp⟩
    · exact ⟨1, by simp⟩
    · exact ⟨3, by simp⟩
  · intro r hr b hb
    rw [List.mem_singleton] at hr
    subst hr
    simp only [Spec.bounds, Option.toList_some, Option.toList_none, List.append_nil, List.mem_singleton] at hb
    subst hb
    exact ⟨-1, by norm_num⟩

end Kalepy
