import Verif.Props.Invariance

/-!
# C05 for every call of `density` and `pdf`
-/

namespace Kalepy

variable {d : ℕ}

lemma densityCore_nonneg {m : ℕ} (hm : 0 < m) {D : Dist} {nrm : ℝ} (hn : 0 ≤ nrm) {minv : Matrix (Fin m) (Fin m) ℝ}
    {cols : Cols ℝ} {data : List (Fin m → ℝ)} {w : Option (List ℝ)} (hw : ∀ l, w = some l → ∀ a ∈ l, 0 ≤ a)
    {refl : Option (List ReflRow)} {vs : List ℝ} (h : densityCore D nrm minv cols data w refl = .ok vs) :
    ∀ v ∈ vs, 0 ≤ v := by
  by_cases hc : cols.dim = m
  · obtain ⟨n, pts⟩ := cols
    simp only at hc
    subst hc
    rw [densityCore_eq_plan] at h
    by_cases hb : badWeights data w = true
    · rw [corePlan, if_pos hb] at h
      cases h
    · rw [corePlan_eq_env _ _ _ _ _ (by simpa using hb)] at h
      cases hpe : planEnv nrm minv refl with
      | error e => rw [hpe] at h; cases h
      | ok e =>
        rw [hpe] at h
        simp only [Except.map] at h
        cases h
        intro v hv
        rw [List.mem_map] at hv
        obtain ⟨x, _, rfl⟩ := hv
        apply div_nonneg
        · apply coreAt_nonneg _ _ D.eval_nonneg
          cases w with
          | none => intro a ha; rw [List.eq_of_mem_replicate ha]; norm_num
          | some l => exact hw l rfl
        · exact mul_nonneg hn (D.norm_pos _ hm).le
  · rw [densityCore_dim_ne _ _ _ _ hc] at h
    cases h

/-- Every result of `density` is an evaluation at some points, packed. -/
lemma density_packVals {E : Ext} {srt : List ℝ → List ℕ} {k : KDE d} {points : Option Pts} {reflect : Reflect}
    {params : ParamArg} {grid probability : Bool} {res : Pts × Arr}
    (h : (k.density E srt points reflect params grid probability).1 = .ok res) :
    ∃ sel squeeze r u, paramSel d params = .ok (sel, squeeze) ∧ packVals E k probability sel r u = .ok res := by
  cases hs : paramSel d params with
  | error e => simp only [KDE.density, hs] at h; cases h
  | ok s =>
    obtain ⟨sel, squeeze⟩ := s
    cases hr : reflectLength d (numSel sel) (k.defaultReflect sel reflect) with
    | error e => simp only [KDE.density, hs, hr] at h; cases h
    | ok r =>
      rw [density_eq_steps E srt k _ _ _ _ _ hs hr] at h
      refine ⟨sel, squeeze, r, ?_⟩
      cases points with
      | some p =>
        cases p <;> simp only [KDE.choosePoints, andThen, evalPoints_fst] at h <;> exact ⟨_, rfl, h⟩
      | none =>
        simp only [KDE.choosePoints, KDE.points] at h
        cases hp : k.pointsVal with
        | some rows =>
          simp only [hp] at h
          cases sel <;> simp only [andThen, evalPoints_fst] at h <;> exact ⟨_, rfl, h⟩
        | none =>
          simp only [hp] at h
          cases hc : k.computePoints srt with
          | error e => simp only [hc] at h; cases h
          | ok rows =>
            simp only [hc] at h
            cases sel <;> simp only [andThen, evalPoints_fst, packVals_pointsVal] at h <;> exact ⟨_, rfl, h⟩

lemma paramSel_ne_nil {d : ℕ} {params : ParamArg} {ps : List (Fin d)} {squeeze : Bool}
    (h : paramSel d params = .ok (some ps, squeeze)) : ps ≠ [] := by
  cases params with
  | none => cases h
  | scalar p =>
    simp only [paramSel] at h
    split_ifs at h
    · cases h
    cases hi : dimIndex d p with
    | error e => rw [hi] at h; cases h
    | ok i => rw [hi] at h; cases h; simp
  | list l =>
    simp only [paramSel] at h
    split_ifs at h with h1 h2
    cases hi : listSeq (dimIndex d) l with
    | error e => rw [hi] at h; cases h
    | ok r =>
      rw [hi] at h
      cases h
      have := listSeq_length hi
      rintro rfl
      exact h2 (List.length_eq_zero_iff.mp this.symm)

lemma normVal_nonneg {k : Kernel d} (h : k.cacheNorm = none) : 0 ≤ k.normVal.1 := by
  simp only [Kernel.normVal, h]
  exact Real.sqrt_nonneg _

/-- **C05** for the class, in full: whatever the arguments of the constructor, the history of calls, the evaluation
points, `reflect`, `params` and `grid`, no value returned by `density` or `pdf` is negative. -/
theorem C05_kde_all {E : Ext} {a : KDEArgs d} {k : KDE d} (h : KDE.init E a = .ok k) (srt : List ℝ → List ℕ)
    (hd : 0 < d) (history : List (Spec.Call d)) (points : Option Pts) (reflect : Reflect) (params : ParamArg)
    (grid probability : Bool) (p : Pts) (arr : Arr)
    (hv : ((history.foldl (fun k c => (Spec.call E srt k c).2) k).density E srt points reflect params grid
      probability).1 = .ok (p, arr)) :
    ∀ v ∈ arr.vals, 0 ≤ v := by
  have hist := C14_history E srt h history (.density points reflect params grid probability)
  rw [Spec.call, Spec.call, Spec.Outcome.values.injEq] at hist
  rw [hist] at hv
  have hw : ∀ l, k.weights = some l → ∀ x ∈ l, 0 ≤ x := fun l hl => (stored_valid h hl).2.1
  have htot : 0 ≤ k.totalWeight := by
    unfold KDE.totalWeight
    split
    · positivity
    · next w hk => exact List.sum_nonneg (hw w hk)
  have hcache : k.kernel.cacheNorm = none ∧ k.kernel.cacheInv = none := by
    rw [← fresh_of_init h]
    exact ⟨rfl, rfl⟩
  obtain ⟨sel, squeeze, r, u, hs, hpk⟩ := density_packVals hv
  unfold packVals at hpk
  cases hc : toCols u.evalRows with
  | error e => rw [hc] at hpk; cases hpk
  | ok cols =>
    rw [hc] at hpk
    obtain ⟨vals, hvals, hres⟩ := map_ok hpk
    obtain ⟨vs, hvs, hout⟩ := map_ok hvals
    have hvs' : ∀ v ∈ vs, 0 ≤ v := by
      cases sel with
      | none =>
        rw [evalKernel_none] at hvs
        cases hcr : checkReflect k.dataset r with
        | error e => rw [hcr] at hvs; cases hvs
        | ok rr =>
          rw [hcr] at hvs
          simp only [Except.bind, Kernel.density_fst] at hvs
          refine densityCore_nonneg hd ?_ hw hvs
          refine normVal_nonneg ?_
          simp only [Kernel.matrixInv, hcache.2, hcache.1]
      | some ps =>
        rw [evalKernel_some] at hvs
        cases hcr : checkReflect (selectCols k.dataset ps) r with
        | error e => rw [hcr] at hvs; cases hvs
        | ok rr =>
          rw [hcr] at hvs
          simp only [Except.bind, Kernel.densityParams_fst] at hvs
          exact densityCore_nonneg (List.length_pos_iff.mpr (paramSel_ne_nil hs)) (Real.sqrt_nonneg _) hw hvs
    have hvals' : ∀ v ∈ vals, 0 ≤ v := by
      rw [← hout]
      split
      · intro v hv
        obtain ⟨x, hx, rfl⟩ := List.mem_map.mp hv
        exact div_nonneg (hvs' x hx) htot
      · exact hvs'
    have : arr.vals = vals := by
      have := congrArg (fun q => q.2.vals) hres
      simp only [packResult] at this
      rw [← this]
      split <;> rfl
    rw [this]
    exact hvals'

/-- Concrete case of the first hypothesis; results occur by `C02_kde_density`. -/
example : ∃ (E : Ext) (a : KDEArgs 2) (k : KDE 2), KDE.init E a = .ok k :=
  let ⟨k, hk, _⟩ := C16_accepted (d := 2) ⟨fun A => A, id⟩ [![0, 1], ![2, 5]] (by simp) [1, 3]
    ⟨rfl, by simp, 1, by simp, by norm_num⟩ .box rfl 1 1 (by simp)
  ⟨_, _, k, hk⟩

end Kalepy
