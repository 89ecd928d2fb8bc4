import Verif.Proofs.Missing
import Verif.Props.Init
import Verif.Props.Nonneg

/-!
# Missing values in the data (C145)

A dataset with NaN in it is accepted.  Without an explicit covariance every evaluation raises an exception;
with one, the Gaussian, parabola and triweight kernels return NaN, and the box kernel silently drops the
incomplete points, but still counts them in the normalisation.
-/

namespace Kalepy

open Matrix

variable {d : ℕ}

namespace Spec

/-- Some point of the data has no value in one of the evaluated dimensions (`none`: all are evaluated). -/
def HasMissing (data : List (Fin d → Num)) (sel : Option (List (Fin d))) : Prop :=
  ∃ x ∈ data, ∃ i, (∀ ps, sel = some ps → i ∈ ps) ∧ x i = none

/-- The inverse of a matrix with NaN, if one is returned, has NaN in it. -/
def Propagates (N : NanInv) : Prop :=
  ∀ (m : ℕ) (A B : Matrix (Fin m) (Fin m) Num), (∃ i j, A i j = none) → N A = .ok B → ∃ i j, B i j = none

/-- `A` are the same arguments as `a`, with some numbers in place of the missing ones. -/
structure Fills (a : MissArgs d) (A : KDEArgs d) : Prop where
  dataset : List.Forall₂ (fun x y => ∀ i v, x i = some v → y i = v) a.dataset A.dataset
  bandwidth : A.bandwidth = a.bandwidth
  weights : A.weights = a.weights
  kernel : A.kernel = a.kernel
  reflect : A.reflect = Reflect.ofChecked a.reflect
  covariance : A.covariance = a.covariance
  neff : A.neff = a.neff
  diagonal : A.diagonal = a.diagonal
  rescale : A.rescale = a.rescale

end Spec

/-! ### Inversion lemmas -/

lemma missInit_inv {a : MissArgs d} {k : MissKDE d} (h : MissKDE.init a = .ok k) :
    ∃ reflect weights cov bw0 D,
      checkReflect (a.dataset.map fillZero) (Reflect.ofChecked a.reflect) = .ok reflect ∧ a.dataset ≠ [] ∧
      checkWeights a.dataset.length a.weights = .ok weights ∧
      covArgN a.dataset weights a.covariance = .ok cov ∧
      bwMatrix d (effNum a.dataset.length weights a.neff) a.diagonal a.bandwidth = .ok bw0 ∧
      getDistribution a.kernel = .ok D ∧
      k = { dataset := a.dataset
            weights := weights
            matrix := Matrix.of fun i j => Num.mul (cov i j) (some ((rescaleBw bw0 a.rescale) i j ^ 2))
            dist := D
            reflect := reflect } := by
  unfold MissKDE.init at h
  split at h
  · cases h
  · rename_i reflect hr
    split at h
    · cases h
    · rename_i hne
      split at h
      · cases h
      · rename_i weights hw
        split at h
        · cases h
        · rename_i cov hc
          split at h
          · cases h
          · rename_i bw0 hb
            split at h
            · cases h
            · rename_i D hD
              exact ⟨reflect, weights, cov, bw0, D, hr, hne, hw, hc, hb, hD, (Except.ok.inj h).symm⟩

lemma missInit_ok {a : MissArgs d} {reflect weights cov bw0 D}
    (hr : checkReflect (a.dataset.map fillZero) (Reflect.ofChecked a.reflect) = .ok reflect) (hne : a.dataset ≠ [])
    (hw : checkWeights a.dataset.length a.weights = .ok weights)
    (hc : covArgN a.dataset weights a.covariance = .ok cov)
    (hb : bwMatrix d (effNum a.dataset.length weights a.neff) a.diagonal a.bandwidth = .ok bw0)
    (hD : getDistribution a.kernel = .ok D) :
    MissKDE.init a = .ok { dataset := a.dataset
                           weights := weights
                           matrix := Matrix.of fun i j =>
                             Num.mul (cov i j) (some ((rescaleBw bw0 a.rescale) i j ^ 2))
                           dist := D
                           reflect := reflect } := by
  unfold MissKDE.init
  simp only [hr, if_neg hne, hw, hc, hb, hD]

lemma missDensity_inv {E : Ext} {N : NanInv} {k : MissKDE d} {points : List (List Num)}
    {reflect : Option (List ReflRow)} {params : ParamArg} {prob : Bool} {vals : List Num} {sel sq}
    (hsel : paramSel d params = .ok (sel, sq)) (h : k.density E N points reflect params prob = .ok vals) :
    ∃ cols vals0, toColsN points = .ok cols ∧ k.evalKernel E N sel cols (k.defaultReflect sel reflect) = .ok vals0 ∧
      vals = if prob then vals0.map fun v => Num.div v (some k.totalWeight) else vals0 := by
  unfold MissKDE.density at h
  simp only [hsel] at h
  split at h
  · cases h
  · split at h
    · cases h
    · rename_i cols hc
      split at h
      · cases h
      · rename_i vals0 hv
        exact ⟨cols, vals0, hc, hv, (Except.ok.inj h).symm⟩

lemma densityCoreN_inv {m : ℕ} {D : Dist} {norm : Num} {minv : Matrix (Fin m) (Fin m) Num} {points : Cols Num}
    {data : List (Fin m → Num)} {weights : Option (List ℝ)} {reflect : Option (List ReflRow)} {vals : List Num}
    (h : densityCoreN D norm minv points data weights reflect = .ok vals) :
    ∃ (hp : points.dim = m) (w : List ℝ) (M white : Matrix (Fin m) (Fin m) ℝ), w.length = data.length ∧
      completeMatrix minv = some M ∧ cholesky M = some white ∧
      ((reflect = none ∧ vals = (evaluateN white data (points.cols.map fun c => fun i => c (Fin.cast hp.symm i)) w
          D.evalN).map fun v => Num.div v (Num.mul norm (some (D.norm points.dim)))) ∨
       ∃ (rows : List ReflRow) (hr : rows.length = m), reflect = some rows ∧
        vals = ((List.finRange m).foldl (fun res i => reflectStepN white data
          (points.cols.map fun c => fun i => c (Fin.cast hp.symm i)) w D.evalN res i (rows.get (Fin.cast hr.symm i)))
          (evaluateN white data (points.cols.map fun c => fun i => c (Fin.cast hp.symm i)) w D.evalN)).map
          fun v => Num.div v (Num.mul norm (some (D.norm points.dim)))) := by
  unfold densityCoreN at h
  split at h
  · rename_i hp
    dsimp only at h
    split at h
    · cases h
    · rename_i w hw
      have hwl : w.length = data.length := by
        cases weights with
        | none => simp only [Except.ok.injEq] at hw; rw [← hw]; simp
        | some w' =>
          simp only at hw
          split at hw
          · cases hw
          · rename_i hh
            rw [← Except.ok.inj hw]
            push Not at hh
            exact hh
      split at h
      · cases h
      · rename_i M hM
        split at h
        · cases h
        · rename_i white hc
          refine ⟨hp, w, M, white, hwl, hM, hc, ?_⟩
          split at h
          · cases h
          split at h
          · exact Or.inl ⟨rfl, (Except.ok.inj h).symm⟩
          · rename_i rows
            split at h
            · rename_i hr
              exact Or.inr ⟨rows, hr, rfl, (Except.ok.inj h).symm⟩
            · cases h
  · cases h

lemma mem_selectColsN {data : List (Fin d → Num)} {ps : List (Fin d)} (h : Spec.HasMissing data (some ps)) :
    ∃ x ∈ selectColsN data ps, ∃ i, x i = none := by
  obtain ⟨x, hx, i, hi, hn⟩ := h
  obtain ⟨n, hn', hin⟩ := List.getElem_of_mem (hi ps rfl)
  refine ⟨fun j => x (ps.get j), List.mem_map.mpr ⟨x, hx, rfl⟩, ⟨n, hn'⟩, ?_⟩
  simpa [hin] using hn

lemma hasMissing_none {data : List (Fin d → Num)} (h : Spec.HasMissing data none) : ∃ x ∈ data, ∃ i, x i = none := by
  obtain ⟨x, hx, i, _, hn⟩ := h
  exact ⟨x, hx, i, hn⟩

/-! ### Kernels other than the box -/

lemma densityCoreN_missing {m : ℕ} {D : Dist} (hD : D ≠ .box) {norm : Num} {minv : Matrix (Fin m) (Fin m) Num}
    {points : Cols Num} {data : List (Fin m → Num)} {weights : Option (List ℝ)} {vals : List Num}
    (hm : ∃ x ∈ data, ∃ i, x i = none) (h : densityCoreN D norm minv points data weights none = .ok vals) :
    ∀ v ∈ vals, v = none := by
  obtain ⟨hp, w, M, white, hw, _, _, h | ⟨rows, hr, hh, _⟩⟩ := densityCoreN_inv h
  · intro v hv
    rw [h.2] at hv
    obtain ⟨u, hu, rfl⟩ := List.mem_map.mp hv
    rw [evaluateN_missing D hD white data _ w hw hm u hu]
    simp
  · cases hh

/-! ### Without an explicit covariance -/

lemma wMeanN_none {data : List (Fin d → Num)} {w : List ℝ} (hw : w.length = data.length) {x : Fin d → Num}
    (hx : x ∈ data) {i : Fin d} (hi : x i = none) : wMeanN data w i = none := by
  unfold wMeanN
  rw [Num.sum_none]
  · simp
  · obtain ⟨n, hn, hxn⟩ := List.getElem_of_mem hx
    rw [List.mem_iff_getElem]
    exact ⟨n, by simp [hw, hn], by rw [List.getElem_zipWith, hxn, hi]; simp⟩

lemma wCrossN_none {data : List (Fin d → Num)} {w : List ℝ} (hw : w.length = data.length) {x : Fin d → Num}
    (hx : x ∈ data) {i : Fin d} (hi : x i = none) (j : Fin d) : wCrossN data w i j = none := by
  unfold wCrossN
  rw [wMeanN_none hw hx hi]
  apply Num.sum_none
  obtain ⟨n, hn, hxn⟩ := List.getElem_of_mem hx
  rw [List.mem_iff_getElem]
  exact ⟨n, by simp [hw, hn], by rw [List.getElem_zipWith]; simp⟩

lemma checkWeights_length {n : ℕ} {a : WArg} {w : Option (List ℝ)} (h : checkWeights n a = .ok w) :
    ∀ l, w = some l → l.length = n := by
  intro l hl
  subst hl
  cases a with
  | none => cases h
  | badShape => cases h
  | arr l' =>
    simp only [checkWeights] at h
    split at h
    · cases h
    · rename_i hh
      split at h
      · cases h
      · have := Option.some.inj (Except.ok.inj h)
        rw [← this]
        push Not at hh
        simpa using hh
  | list l' =>
    simp only [checkWeights] at h
    split at h
    · cases h
    · split at h <;> cases h

lemma onesIfNone_length {α : Type*} {data : List α} {w : Option (List ℝ)} (h : ∀ l, w = some l → l.length = data.length) :
    (onesIfNone data w).length = data.length := by
  cases w with
  | none => simp [onesIfNone]
  | some l => exact h l rfl

lemma missing_matrix {a : MissArgs d} {k : MissKDE d} (h : MissKDE.init a = .ok k) (hc : a.covariance = none)
    {x : Fin d → Num} (hx : x ∈ a.dataset) {i : Fin d} (hi : x i = none) (j : Fin d) : k.matrix i j = none := by
  obtain ⟨reflect, weights, cov, bw0, D, -, -, hw, hcov, -, -, rfl⟩ := missInit_inv h
  rw [hc] at hcov
  simp only [covArgN, npCovN] at hcov
  split at hcov
  · cases hcov
  · rw [← Except.ok.inj hcov]
    simp only [Matrix.of_apply]
    rw [wCrossN_none (onesIfNone_length (checkWeights_length hw)) hx hi]
    simp

lemma matrixInvertN_nan {E : Ext} {N : NanInv} (hN : Spec.Propagates N) {m : ℕ} {A B : Matrix (Fin m) (Fin m) Num}
    (hA : ∃ i j, A i j = none) (h : matrixInvertN E N A = .ok B) : completeMatrix B = none := by
  obtain ⟨i, j, hij⟩ := hA
  unfold matrixInvertN at h
  rw [completeMatrix_none A i j hij] at h
  obtain ⟨i', j', h'⟩ := hN m A B ⟨i, j, hij⟩ h
  exact completeMatrix_none B i' j' h'

lemma densityCoreN_nan {m : ℕ} {D : Dist} {norm : Num} {minv : Matrix (Fin m) (Fin m) Num}
    {points : Cols Num} {data : List (Fin m → Num)} {weights : Option (List ℝ)} {reflect : Option (List ReflRow)}
    {vals : List Num} (hm : completeMatrix minv = none) :
    densityCoreN D norm minv points data weights reflect ≠ .ok vals := by
  intro h
  obtain ⟨_, _, M, _, _, hM, _⟩ := densityCoreN_inv h
  rw [hm] at hM
  cases hM

/-- **C145**, without an explicit covariance: evaluating the density in a dimension with a missing value raises
an exception, for every kernel, at any points and with any boundaries. -/
theorem C145_covariance {E : Ext} {N : NanInv} (hN : Spec.Propagates N) {a : MissArgs d} {k : MissKDE d}
    (h : MissKDE.init a = .ok k) (hc : a.covariance = none) (points : List (List Num))
    (reflect : Option (List ReflRow)) (params : ParamArg) (prob : Bool) {sel sq}
    (hsel : paramSel d params = .ok (sel, sq)) (hm : Spec.HasMissing a.dataset sel) :
    ∃ e, k.density E N points reflect params prob = .error e := by
  cases hd : k.density E N points reflect params prob with
  | error e => exact ⟨e, rfl⟩
  | ok vals =>
    exfalso
    obtain ⟨cols, vals0, _, hv, _⟩ := missDensity_inv hsel hd
    obtain ⟨x, hx, i, hi, hxi⟩ := hm
    unfold MissKDE.evalKernel at hv
    cases sel with
    | none =>
      dsimp only at hv
      split at hv
      · cases hv
      · split at hv
        · cases hv
        · rename_i minv hinv
          exact densityCoreN_nan (matrixInvertN_nan hN ⟨i, i, missing_matrix h hc hx hxi i⟩ hinv) hv
    | some ps =>
      dsimp only at hv
      split at hv
      · cases hv
      · split at hv
        · cases hv
        · split at hv
          · cases hv
          · rename_i minv hinv
            obtain ⟨n, hn, hin⟩ := List.getElem_of_mem (hi ps rfl)
            refine densityCoreN_nan (matrixInvertN_nan hN ⟨⟨n, hn⟩, ⟨n, hn⟩, ?_⟩ hinv) hv
            simp only [Matrix.submatrix_apply]
            apply missing_matrix h hc hx
            simpa [hin] using hxi

/-- What one would like to be true of every kernel: a missing value never leads silently to numbers.  If a KDE
without boundaries has data with a NaN in one of the evaluated dimensions, and evaluating the density returns at
all, then every returned value is NaN. -/
def C145_Claim : Prop :=
  ∀ (d : ℕ) (E : Ext) (N : NanInv), Spec.Propagates N → ∀ (a : MissArgs d) (k : MissKDE d),
    MissKDE.init a = .ok k → a.reflect = none → ∀ (points : List (List Num)) (params : ParamArg) (prob : Bool) (sel sq),
    paramSel d params = .ok (sel, sq) → Spec.HasMissing a.dataset sel → ∀ vals,
    k.density E N points none params prob = .ok vals → ∀ v ∈ vals, v = none

/-- **C145** for every kernel but the box, and for the box without an explicit covariance. -/
theorem C145_partial {E : Ext} {N : NanInv} (hN : Spec.Propagates N) {a : MissArgs d} {k : MissKDE d}
    (h : MissKDE.init a = .ok k) (hr : a.reflect = none)
    (hk : getDistribution a.kernel ≠ .ok .box ∨ a.covariance = none) (points : List (List Num))
    (params : ParamArg) (prob : Bool) {sel sq} (hsel : paramSel d params = .ok (sel, sq))
    (hm : Spec.HasMissing a.dataset sel) {vals : List Num}
    (hv : k.density E N points none params prob = .ok vals) : ∀ v ∈ vals, v = none := by
  rcases hk with hk | hc
  swap
  · obtain ⟨e, he⟩ := C145_covariance hN h hc points none params prob hsel hm
    rw [he] at hv
    cases hv
  obtain ⟨cols, vals0, _, hv0, hvals⟩ := missDensity_inv hsel hv
  have key : ∀ v ∈ vals0, v = none := by
    obtain ⟨reflect, weights, cov, bw0, D, hr', -, -, -, -, hD, rfl⟩ := missInit_inv h
    have hD' : D ≠ .box := fun hh => hk (by rw [hD, hh])
    rw [hr] at hr'
    have hrefl : reflect = none := by
      simp only [Reflect.ofChecked, checkReflect] at hr'
      exact (Except.ok.inj hr').symm
    subst hrefl
    unfold MissKDE.evalKernel at hv0
    cases sel with
    | none =>
      simp only [MissKDE.defaultReflect, Reflect.ofChecked, checkReflect] at hv0
      split at hv0
      · cases hv0
      · exact densityCoreN_missing hD' (hasMissing_none hm) hv0
    | some ps =>
      simp only [MissKDE.defaultReflect, Option.map_none, Reflect.ofChecked, checkReflect] at hv0
      split at hv0
      · cases hv0
      · split at hv0
        · cases hv0
        · exact densityCoreN_missing hD' (mem_selectColsN hm) hv0
  intro v hv
  rw [hvals] at hv
  split at hv
  · obtain ⟨u, hu, rfl⟩ := List.mem_map.mp hv
    rw [key u hu]
    simp
  · exact key v hv

/-! ### Boundaries that are numbers are checked without looking at the data -/

lemma checkDim_toDim (row : List ℝ) (r : ReflRow) :
    checkDim row r.toDim = match r with | none => .ok none | some p => (orderedPair p).map some := by
  obtain _ | ⟨lo, hi⟩ := r
  · rfl
  · cases lo <;> cases hi <;> rfl

lemma orderedPair_ok {p q : Option ℝ × Option ℝ} (h : orderedPair p = .ok q) : q = p := by
  unfold orderedPair at h
  split at h
  · split at h
    · cases h
    · exact (Except.ok.inj h).symm
  · exact (Except.ok.inj h).symm

lemma checkDims_toDim (data data' : List (Fin d → ℝ)) (k : ℕ) (rows : List ReflRow) :
    checkDims data k (rows.map ReflRow.toDim) = checkDims data' k (rows.map ReflRow.toDim) := by
  induction rows generalizing k with
  | nil => rfl
  | cons r rows ih => simp only [List.map_cons, checkDims, checkDim_toDim, ih]

lemma checkDims_toDim_ok {data : List (Fin d → ℝ)} {k : ℕ} {rows rows' : List ReflRow}
    (h : checkDims data k (rows.map ReflRow.toDim) = .ok rows') : rows' = rows := by
  induction rows generalizing k rows' with
  | nil => exact (Except.ok.inj h).symm
  | cons r rows ih =>
    simp only [List.map_cons, checkDims, checkDim_toDim] at h
    split at h
    · split at h
      · cases h
      · rename_i r' hr'
        split at h
        · cases h
        · rename_i l' hl'
          rw [← Except.ok.inj h, ih hl']
          congr 1
          cases r with
          | none => exact (Except.ok.inj hr').symm
          | some p =>
            simp only at hr'
            cases ho : orderedPair p with
            | error e => rw [ho] at hr'; cases hr'
            | ok q =>
              rw [ho] at hr'
              rw [← Except.ok.inj hr', orderedPair_ok ho]
    · cases h

lemma reflectRows_toDim {rows : List ReflRow} {l : List RefDim} (h : reflectRows d (rows.map ReflRow.toDim) = .ok l) :
    ∃ rows', l = rows'.map ReflRow.toDim ∧ (rows.length = d → d = 1 ∨ rows' = rows) := by
  unfold reflectRows at h
  dsimp only at h
  split at h
  · cases h
  · rename_i l' hl'
    split at h
    · cases h
    · split at h
      · cases h
      · rw [← Except.ok.inj h]
        split at hl'
        · rename_i a b hab hgood
          match rows, hab with
          | [r, r'], hab =>
            rw [List.map_cons, List.map_cons, List.map_nil, List.cons.injEq, List.cons.injEq] at hab
            have hab := And.intro hab.1 hab.2.1
            obtain ⟨rfl, rfl⟩ := hab
            cases r with
            | some p => cases r' <;> simp [coerceRow, ReflRow.toDim, Except.map] at hl'
            | none =>
              cases r' with
              | some p => simp [coerceRow, ReflRow.toDim, Except.map] at hl'
              | none =>
                simp only [coerceRow, ReflRow.toDim, coerce2, Except.map, Except.ok.injEq] at hl'
                refine ⟨[some (none, none)], ?_, fun _ => Or.inl rfl⟩
                rw [← hl']
                rfl
        · exact ⟨rows, (Except.ok.inj hl').symm, fun _ => Or.inr rfl⟩

lemma checkReflect_indep (data data' : List (Fin d → ℝ)) (r : Option (List ReflRow)) :
    checkReflect data (Reflect.ofChecked r) = checkReflect data' (Reflect.ofChecked r) := by
  cases r with
  | none => rfl
  | some rows =>
    simp only [Reflect.ofChecked, checkReflect]
    cases h : reflectRows d (rows.map ReflRow.toDim) with
    | error e => rfl
    | ok l =>
      obtain ⟨rows', rfl, -⟩ := reflectRows_toDim h
      simp only
      rw [checkDims_toDim data data']

lemma checkReflect_rows {data : List (Fin d → ℝ)} {rows : List ReflRow} {r : Option (List ReflRow)}
    (hl : rows.length = d) (h : checkReflect data (Reflect.ofChecked (some rows)) = .ok r) : r = some rows := by
  have hrows : reflectRows d (rows.map ReflRow.toDim) = .error .valueError ∨
      reflectRows d (rows.map ReflRow.toDim) = .ok (rows.map ReflRow.toDim) := by
    unfold reflectRows
    dsimp only
    split
    · rename_i e he
      split at he
      · rename_i a b hab
        have := congrArg List.length hab
        simp only [List.length_map, List.length_cons, List.length_nil] at this
        omega
      · cases he
    · rename_i l' hl'
      split at hl'
      · rename_i a b hab
        have := congrArg List.length hab
        simp only [List.length_map, List.length_cons, List.length_nil] at this
        omega
      · rw [← Except.ok.inj hl']
        split
        · exact Or.inl rfl
        · split
          · exact Or.inl rfl
          · exact Or.inr rfl
  simp only [Reflect.ofChecked, checkReflect] at h
  rcases hrows with hh | hh
  · rw [hh] at h; cases h
  · rw [hh] at h
    simp only at h
    cases hc : checkDims data 0 (rows.map ReflRow.toDim) with
    | error e => rw [hc] at h; cases h
    | ok rows' =>
      rw [hc] at h
      rw [← Except.ok.inj h, checkDims_toDim_ok hc]

/-! ### Agreement with the model on real numbers -/

lemma cols_ext {K : Type*} {p q : Cols K} (h : p.dim = q.dim)
    (hc : (p.cols.map fun c => fun i => c (Fin.cast h.symm i)) = q.cols) : p = q := by
  obtain ⟨m, cs⟩ := p
  obtain ⟨m', cs'⟩ := q
  obtain rfl : m = m' := h
  have hc' : cs = cs' := by simpa using hc
  rw [hc']

lemma toColsN_lift (points : List (List ℝ)) : toColsN (points.map fun r => r.map some) = (toCols points).map liftCols := by
  cases points with
  | nil => rfl
  | cons r rs =>
    simp only [List.map_cons, toColsN, toCols, List.length_map, List.all_map, Function.comp_def]
    by_cases h : (rs.all fun s => decide (s.length = r.length)) = true
    · rw [if_pos h, if_pos h]
      have key : ∀ n < r.length, ∀ i : Fin (rs.length + 1),
          (((r :: rs).get i).map some).getD n none = some (((r :: rs).get i).getD n 0) := by
        intro n hn i
        have hl : n < ((r :: rs).get i).length := by
          have hmem : (r :: rs).get i ∈ r :: rs := List.get_mem _ _
          rcases List.mem_cons.mp hmem with h1 | h1
          · rw [h1]; exact hn
          · have := List.all_eq_true.mp h _ h1
            simp only [decide_eq_true_eq] at this
            rw [this]; exact hn
        rw [List.getD_eq_getElem _ _ (by simpa using hl), List.getD_eq_getElem _ _ hl, List.getElem_map]
      simp only [Except.map]
      refine congrArg Except.ok (cols_ext (by simp [liftCols]) ?_)
      simp only [liftCols, List.map_map]
      apply List.map_congr_left
      intro n hn
      funext i
      simp only [Function.comp, liftCol]
      have := key n (List.mem_range.mp hn) i
      rw [← this]
      congr 1
      rw [List.get_eq_getElem, List.get_eq_getElem]
      simp only [← List.map_cons, List.getElem_map]
      rfl
    · rw [if_neg h, if_neg h]
      rfl

lemma defaultReflect_ofChecked {k : MissKDE d} {K : KDE d} (h : K.reflect = k.reflect) (sel : Option (List (Fin d)))
    (r : Option (List ReflRow)) :
    K.defaultReflect sel (Reflect.ofChecked r) = Reflect.ofChecked (k.defaultReflect sel r) := by
  cases r with
  | some r => rfl
  | none =>
    simp only [Reflect.ofChecked, KDE.defaultReflect, MissKDE.defaultReflect, h]
    cases sel <;> rfl

lemma reflectLength_ok {m : ℕ} {r r' : Reflect} (h : reflectLength d m r = .ok r') : r' = r := by
  cases r with
  | none => exact (Except.ok.inj h).symm
  | true => cases h
  | false => cases h
  | rows l =>
    simp only [reflectLength] at h
    split at h
    · exact (Except.ok.inj h).symm
    · split at h
      · exact (Except.ok.inj h).symm
      · cases h

/-- The values returned by two objects that evaluate their kernels alike. -/
lemma missDensity_same {E : Ext} {N : NanInv} {k : MissKDE d} {K : KDE d} (srt : List ℝ → List ℕ)
    (hr : K.reflect = k.reflect) (points : List (List ℝ)) (reflect : Option (List ReflRow)) (params : ParamArg)
    (prob : Bool)
    (hk : ∀ sel sq cols r, paramSel d params = .ok (sel, sq) → k.evalKernel E N sel (liftCols cols) r =
      (K.evalKernel E sel cols (Reflect.ofChecked r)).1.map fun l => l.map some) :
    k.density E N (points.map fun r => r.map some) reflect params prob =
      (K.density E srt (some (.rows points)) (Reflect.ofChecked reflect) params false false).1.map
        fun p => p.2.vals.map fun v => some (if prob then v / k.totalWeight else v) := by
  unfold MissKDE.density KDE.density
  cases hsel : paramSel d params with
  | error e => rfl
  | ok ss =>
    obtain ⟨sel, sq⟩ := ss
    simp only [defaultReflect_ofChecked hr]
    cases hl : reflectLength d (numSel sel) (Reflect.ofChecked (k.defaultReflect sel reflect)) with
    | error e => rfl
    | ok r' =>
      rw [reflectLength_ok hl]
      simp only [KDE.choosePoints, toColsN_lift, PtsUse.evalRows, Pts.toRows]
      simp only [Bool.false_eq_true, if_false]
      cases toCols points with
      | error e => rfl
      | ok cols =>
        simp only [Except.map, hk sel sq cols _ hsel]
        generalize hv : K.evalKernel E sel cols (Reflect.ofChecked (k.defaultReflect sel reflect)) = vk
        obtain ⟨v, K'⟩ := vk
        cases v with
        | error e => rfl
        | ok vals =>
          simp only [packResult]
          split
          · split <;> cases prob <;> simp
          · split <;> cases prob <;> simp

lemma evalKernel_same {E : Ext} {N : NanInv} {k : MissKDE d} {K : KDE d} (hdist : K.kernel.dist = k.dist)
    (hmat : k.matrix = Matrix.of fun i j => some (K.kernel.matrix i j)) (hci : K.kernel.cacheInv = none)
    (hcn : K.kernel.cacheNorm = none) (hw : ∀ w, k.weights = some w → w.length = k.dataset.length)
    (hw' : ∀ w, K.weights = some w → w.length = K.dataset.length)
    (S : ∀ white, SameSums k.dist white k.dataset (onesIfNone k.dataset k.weights) K.dataset
      (onesIfNone K.dataset K.weights)) (cols : Cols ℝ) (r : Option (List ReflRow)) :
    k.evalKernel E N none (liftCols cols) r =
      (K.evalKernel E none cols (Reflect.ofChecked r)).1.map fun l => l.map some := by
  unfold MissKDE.evalKernel KDE.evalKernel
  simp only [checkReflect_indep (k.dataset.map fillZero) K.dataset]
  cases checkReflect K.dataset (Reflect.ofChecked r) with
  | error e => rfl
  | ok r =>
    simp only [matrixInvertN, normN, hmat, completeMatrix_some, Option.map_some, Kernel.density, Kernel.matrixInv, hci,
      Kernel.normVal, hcn]
    rw [densityCoreN_same _ _ cols k.dataset K.dataset k.weights K.weights r hw hw' S, hdist]

lemma evalKernel_same_params {E : Ext} {N : NanInv} {k : MissKDE d} {K : KDE d} (hdist : K.kernel.dist = k.dist)
    (ps : List (Fin d)) (hfull : ∃ B, matrixInvertN E N k.matrix = .ok B)
    (hmat : k.matrix.submatrix ps.get ps.get =
      Matrix.of fun i j => some ((K.kernel.matrix.submatrix ps.get ps.get) i j))
    (hw : ∀ w, k.weights = some w → w.length = k.dataset.length) (hww : K.weights = k.weights)
    (hdata : selectColsN k.dataset ps = (selectCols K.dataset ps).map liftCol) (cols : Cols ℝ)
    (r : Option (List ReflRow)) :
    k.evalKernel E N (some ps) (liftCols cols) r =
      (K.evalKernel E (some ps) cols (Reflect.ofChecked r)).1.map fun l => l.map some := by
  obtain ⟨B, hB⟩ := hfull
  have hlen : k.dataset.length = K.dataset.length := by
    have := congrArg List.length hdata
    simpa [selectColsN, selectCols] using this
  unfold MissKDE.evalKernel KDE.evalKernel
  simp only [checkReflect_indep ((selectColsN k.dataset ps).map fillZero) (selectCols K.dataset ps)]
  cases checkReflect (selectCols K.dataset ps) (Reflect.ofChecked r) with
  | error e => rfl
  | ok r =>
    simp only [hB]
    simp only [matrixInvertN, normParamsN, hmat, completeMatrix_some, Option.map_some, Kernel.densityParams]
    have km : (K.kernel.matrixInv E).2.normVal.2.matrix = K.kernel.matrix := by
      unfold Kernel.matrixInv Kernel.normVal
      cases K.kernel.cacheInv <;> cases K.kernel.cacheNorm <;> rfl
    have kd : (K.kernel.matrixInv E).2.normVal.2.dist = K.kernel.dist := by
      unfold Kernel.matrixInv Kernel.normVal
      cases K.kernel.cacheInv <;> cases K.kernel.cacheNorm <;> rfl
    rw [km, kd, hdist, hww]
    rw [densityCoreN_same _ _ cols (selectColsN k.dataset ps) (selectCols K.dataset ps) k.weights k.weights r
      (fun w h => by rw [hw w h]; simp [selectColsN]) (fun w h => by rw [hw w h, hlen]; simp [selectCols])]
    intro white
    rw [hdata]
    have : onesIfNone ((selectCols K.dataset ps).map liftCol) k.weights = onesIfNone (selectCols K.dataset ps) k.weights := by
      cases k.weights with
      | none => simp [onesIfNone]
      | some w => rfl
    rw [this]
    exact sameSums_lift _ _ _ _

end Kalepy
