import Verif.Proofs.LawAll
import Verif.Proofs.MissingResample
import Verif.Props.MissingData
import Verif.Props.ReflectLaw
import Verif.Props.SampleMoments

/-!
# Resampling data with missing values (C146)

Without an explicit covariance `resample` raises an exception.  With one, and without boundaries, incomplete data
points are drawn like all others, and the samples have NaN in their missing dimensions.  With boundaries (in any
dimension) the incomplete points are silently dropped.
-/

namespace Kalepy

open Matrix MeasureTheory ProbabilityTheory

variable {d : ℕ}

/-- Specification: the argument `reflect` of `resample` on numbers (`none`: omitted, `some none`: `False`). -/
def Spec.boundaryArg : Option (Option (List ReflRow)) → Reflect
  | none => .none
  | some none => .false
  | some (some rows) => Reflect.ofChecked (some rows)

/-! ### Boundaries -/

lemma covKeepVarsN_some (M : Matrix (Fin d) (Fin d) ℝ) (keep : KeepArg) (rows : List ReflRow) :
    covKeepVarsN (Matrix.of fun i j => some (M i j)) keep rows =
      (covKeepVars M keep rows).map fun M' => Matrix.of fun i j => some (M' i j) := by
  have key : ∀ r : Res (List (Fin d)),
      (r.map fun ps => (Matrix.of fun i j => if i ∈ ps ∨ j ∈ ps then some 0 else some (M i j) :
        Matrix (Fin d) (Fin d) Num)) =
      (r.map fun ps => (Matrix.of fun i j => if i ∈ ps ∨ j ∈ ps then 0 else M i j : Matrix (Fin d) (Fin d) ℝ)).map
        fun M' => Matrix.of fun i j => some (M' i j) := by
    intro r
    cases r with
    | error e => rfl
    | ok ps =>
      refine congrArg Except.ok ?_
      ext1 i j
      simp only [Matrix.of_apply]
      split <;> rfl
  cases keep with
  | none => rfl
  | «false» => rfl
  | «true» => exact key _
  | dims l => exact key _

lemma rejectLoopN_lift (D : Dist) (data : List (Fin d → ℝ)) (w : Option (List ℝ)) (M : Matrix (Fin d) (Fin d) ℝ)
    (rows : List ReflRow) (size cs chunk : ℕ) (rnd : ℕ → ℕ → Draw d) : ∀ (fuel draw : ℕ) (s : LoopState d),
    rejectLoopN D (data.map liftCol) w (Matrix.of fun i j => some (M i j)) rows size cs chunk rnd fuel s.draws.length
        draw (s.good.map liftCol) =
      (rejectLoop D data w M rows size cs chunk rnd fuel draw s).map fun t => t.good.map liftCol := by
  intro fuel
  induction fuel with
  | zero => intro draw s; rfl
  | succ f ih =>
    intro draw s
    rw [rejectLoopN, rejectLoop, List.length_map, resampleClearN_lift]
    split
    · rfl
    · cases resampleClear D data draw w M .none (rnd s.draws.length) with
      | error e => rfl
      | ok trial =>
        have hf : ((trial.map liftCol).filter fun x => insideBoundsN rows x) =
            (trial.filter fun x => insideBounds rows x).map liftCol := by
          rw [List.filter_map]
          rfl
        simp only [Except.map, hf, ← List.map_take, ← List.map_append, List.length_map]
        have := ih (nextDraw d size (s.good ++ (trial.filter fun x => insideBounds rows x).take
          (size - s.good.length)).length cs chunk) ⟨s.good ++ (trial.filter fun x => insideBounds rows x).take
          (size - s.good.length), s.draws ++ [draw]⟩
        simp only [List.length_append, List.length_cons, List.length_nil, zero_add] at this
        simpa only [List.length_append, Except.map] using this

/-- With boundaries, incomplete points play no part. -/
lemma resampleReflectN_eq {k : MissKDE d} {K : Kernel d} {M : Matrix (Fin d) (Fin d) ℝ} (hD : K.dist = k.dist)
    (hM : k.matrix = Matrix.of fun i j => some (M i j)) (hM' : K.matrix = M)
    (hw : ∀ l, k.weights = some l → l.length = k.dataset.length ∧ (∀ x ∈ l, 0 ≤ x) ∧ 0 < l.sum)
    (size : ℕ) (rows : List ReflRow) (keep : KeepArg) (rnd : ℕ → ℕ → Draw d) :
    k.resampleReflect K.chunk size rows keep rnd =
      (resampleReflect K (completeRows k.dataset) size rows (k.weights.map (completeWeights k.dataset)) keep rnd).map
        fun r => r.1.map liftCol := by
  unfold MissKDE.resampleReflect resampleReflect
  rw [hM, covKeepVarsN_some, hM']
  cases covKeepVars M keep rows with
  | error e => rfl
  | ok M' =>
    simp only [Except.map, drawDataN_eq, drawWeightsN_eq _ _ _ hw, List.map_eq_nil_iff]
    split
    · rfl
    · split
      · rfl
      · have := rejectLoopN_lift k.dist (drawData (completeRows k.dataset) rows)
          (drawWeights (completeRows k.dataset) (k.weights.map (completeWeights k.dataset)) rows) M' rows size
          (chunking size K.chunk).2 K.chunk rnd (10 * (chunking size K.chunk).1) (chunking size K.chunk).2 ⟨[], []⟩
        simp only [List.length_nil, List.map_nil] at this
        rw [this, hD]
        cases rejectLoop k.dist (drawData (completeRows k.dataset) rows)
          (drawWeights (completeRows k.dataset) (k.weights.map (completeWeights k.dataset)) rows) M' rows size
          (chunking size K.chunk).2 K.chunk rnd (10 * (chunking size K.chunk).1) (chunking size K.chunk).2 ⟨[], []⟩ with
        | error e => rfl
        | ok s =>
          simp only [Except.map, List.length_map]
          split <;> rfl

lemma insideBoundsN_numbers {rows : List ReflRow} {x : Fin d → Num} (h : insideBoundsN rows x = true) (i : Fin d) :
    ∃ v, x i = some v := by
  unfold insideBoundsN at h
  rw [List.all_eq_true] at h
  have := h i (List.mem_finRange i)
  cases hx : x i with
  | none => rw [hx] at this; cases this
  | some v => exact ⟨v, rfl⟩

lemma rejectLoopN_inside {D : Dist} {data : List (Fin d → Num)} {w : Option (List ℝ)}
    {M : Matrix (Fin d) (Fin d) Num} {rows : List ReflRow} {size cs chunk : ℕ} {rnd : ℕ → ℕ → Draw d} :
    ∀ (fuel done draw : ℕ) (good l : List (Fin d → Num)), (∀ x ∈ good, insideBoundsN rows x = true) → good.length ≤ size →
      rejectLoopN D data w M rows size cs chunk rnd fuel done draw good = .ok l →
      (∀ x ∈ l, insideBoundsN rows x = true) ∧ l.length ≤ size := by
  intro fuel
  induction fuel with
  | zero => intro done draw good l hg hs h; cases h; exact ⟨hg, hs⟩
  | succ f ih =>
    intro done draw good l hg hs h
    rw [rejectLoopN] at h
    split at h
    · cases h; exact ⟨hg, hs⟩
    · split at h
      · cases h
      · refine ih _ _ _ _ ?_ (by rw [List.length_append, List.length_take]; omega) h
        intro x hx
        rw [List.mem_append] at hx
        rcases hx with hx | hx
        · exact hg x hx
        · exact (List.mem_filter.mp (List.mem_of_mem_take hx)).2

/-- **C146**, the claim: `resample` of data with missing values raises an exception or returns numbers. -/
def C146_Claim : Prop :=
  ∀ (d : ℕ) (a : MissArgs d) (k : MissKDE d), MissKDE.init a = .ok k →
    ∀ (chunk : ℕ) (size : Option ℕ) (keep : KeepArg) (reflect : Option (Option (List ReflRow)))
      (rnd : ℕ → ℕ → Draw d) (l : List (Fin d → Num)), (∀ m n, (rnd m n).Valid) →
      k.resample chunk size keep reflect rnd = .ok l → ∀ x ∈ l, ∀ i, ∃ v, x i = some v

lemma checkReflect_ofChecked_some {data : List (Fin d → ℝ)} {rows : List ReflRow} {r : Option (List ReflRow)}
    (h : checkReflect data (Reflect.ofChecked (some rows)) = .ok r) : ∃ rows', r = some rows' := by
  simp only [Reflect.ofChecked, checkReflect] at h
  split at h
  · cases h
  · obtain ⟨x, -, rfl⟩ := map_ok h
    exact ⟨x, rfl⟩

/-- **C146**, with boundaries in force (in any dimension; those of the constructor, or others given to `resample`), only
numbers are returned.  What is missing of the claim: calls without boundaries. -/
theorem C146_partial {a : MissArgs d} {k : MissKDE d} (h : MissKDE.init a = .ok k) (chunk : ℕ) (size : Option ℕ)
    (keep : KeepArg) (reflect : Option (Option (List ReflRow))) (hb : reflect.getD a.reflect ≠ none)
    (rnd : ℕ → ℕ → Draw d) {l : List (Fin d → Num)} (hl : k.resample chunk size keep reflect rnd = .ok l) :
    l.length = size.getD a.dataset.length ∧ ∀ x ∈ l, ∀ i, ∃ v, x i = some v := by
  obtain ⟨refl, weights, cov, bw0, D, e1, e2, e3, e4, e5, e6, rfl⟩ := missInit_inv h
  have hnn : ∀ r, checkReflect (a.dataset.map fillZero) (Reflect.ofChecked (reflect.getD refl)) = .ok r → r ≠ none := by
    intro r hr
    have hsome : ∃ rows, reflect.getD refl = some rows := by
      cases reflect with
      | none =>
        simp only [Option.getD_none] at hb ⊢
        obtain ⟨rows, hrows⟩ := Option.ne_none_iff_exists'.mp hb
        rw [hrows] at e1
        exact checkReflect_ofChecked_some e1
      | some r' => exact Option.ne_none_iff_exists'.mp hb
    obtain ⟨rows, hrows⟩ := hsome
    rw [hrows] at hr
    obtain ⟨rows', rfl⟩ := checkReflect_ofChecked_some hr
    simp
  unfold MissKDE.resample at hl
  dsimp only at hl
  split at hl
  · cases hl
  · rename_i hr; exact absurd rfl (hnn _ hr)
  · rename_i rows hr
    unfold MissKDE.resampleReflect at hl
    split at hl
    · cases hl
    · split at hl
      · cases hl
      · split at hl
        · cases hl
        · split at hl
          · cases hl
          · rename_i good hg
            split at hl
            · cases hl
            · rename_i hge
              obtain rfl := Except.ok.inj hl
              obtain ⟨h1, h2⟩ := rejectLoopN_inside _ _ _ _ _ (by simp) (by simp) hg
              exact ⟨le_antisymm h2 (not_lt.mp hge), fun x hx i => insideBoundsN_numbers (h1 x hx) i⟩

/-- **C146**, with boundaries in force and an explicit covariance, incomplete points are silently dropped: the samples
are those of the KDE `K` of the complete points with the same covariance and bandwidth, for the same random numbers. -/
theorem C146_reflect {E : Ext} {a : MissArgs d} {k : MissKDE d} {A : KDEArgs d} {K : KDE d}
    (h : MissKDE.init a = .ok k) (hK : KDE.init E A = .ok K)
    (hker : A.kernel = a.kernel) {C : Matrix (Fin d) (Fin d) ℝ} (hc : a.covariance = some C)
    (hc' : A.covariance = some C) {b : ℝ} (hb : a.bandwidth = .val (.num b)) (hb' : A.bandwidth = .val (.num b))
    (hdiag : A.diagonal = a.diagonal) (hresc : A.rescale = a.rescale) (hrefl : A.reflect = Reflect.ofChecked a.reflect)
    (hdata : A.dataset = completeRows a.dataset) (hweights : K.weights = k.weights.map (completeWeights a.dataset))
    (size : ℕ) (keep : KeepArg) (reflect : Option (Option (List ReflRow))) (hr : reflect.getD a.reflect ≠ none)
    (rnd : ℕ → ℕ → Draw d) :
    k.resample A.chunk (some size) keep reflect rnd =
      (K.resample (some size) keep (Spec.boundaryArg reflect) false rnd).map fun s => s.points.map fun x i => some (x i) := by
  have hKeq := resample_eq hK (some size) keep (Spec.boundaryArg reflect) false rnd
  obtain ⟨refl', weights', cov', bw0', D', out, eff, ext, g1, g2, g3, g4, g5, g6, g7, g8, g9, g10, hKe⟩ := init_inv hK
  obtain ⟨refl, weights, cov, bw0, D, e1, e2, e3, e4, e5, e6, hke⟩ := missInit_inv h
  have hD' : D' = D := by rw [hker, e6] at g6; exact (Except.ok.inj g6).symm
  have hcov : cov = Matrix.of fun i j => some (C i j) := by
    rw [hc] at e4; exact (Except.ok.inj e4).symm
  have hcov' : cov' = C := by rw [hc'] at g4; exact (Except.ok.inj g4).symm
  have hbw : bw0 = bw0' := by
    rw [hb] at e5
    rw [hb', hdiag] at g5
    simp only [bwMatrix, computeBw, Except.map, Except.ok.injEq] at e5 g5
    rw [← e5, ← g5]
  have hre : refl = refl' := by
    rw [hrefl] at g1
    rw [checkReflect_indep _ A.dataset, g1] at e1
    exact (Except.ok.inj e1).symm
  have hw' : weights' = weights.map (completeWeights a.dataset) := by
    rw [hKe, hke] at hweights
    exact hweights
  have hbound : Spec.boundaries K (Spec.boundaryArg reflect) =
      checkReflect (a.dataset.map fillZero) (Reflect.ofChecked (reflect.getD refl)) := by
    have hstored := checkReflect_stored hK
    cases reflect with
    | none =>
      simp only [Spec.boundaryArg, Spec.boundaries, Option.getD_none]
      rw [← hstored, checkReflect_indep _ (a.dataset.map fillZero), hKe, hre]
    | some r =>
      cases r with
      | none => exact absurd rfl hr
      | some rows =>
        simp only [Spec.boundaryArg, Spec.boundaries, Option.getD_some, Reflect.ofChecked]
        exact checkReflect_indep _ _ (some rows)
  have hnn : ∀ r, checkReflect (a.dataset.map fillZero) (Reflect.ofChecked (reflect.getD refl)) = .ok r → r ≠ none := by
    intro r hr'
    have hsome : ∃ rows, reflect.getD refl = some rows := by
      cases reflect with
      | none =>
        simp only [Option.getD_none] at hr ⊢
        obtain ⟨rows, hrows⟩ := Option.ne_none_iff_exists'.mp hr
        rw [hrows] at e1
        exact checkReflect_ofChecked_some e1
      | some r' => exact Option.ne_none_iff_exists'.mp hr
    obtain ⟨rows, hrows⟩ := hsome
    rw [hrows] at hr'
    obtain ⟨rows', rfl⟩ := checkReflect_ofChecked_some hr'
    simp
  rw [hKeq, hbound]
  unfold MissKDE.resample
  have hkr : k.reflect = refl := by rw [hke]
  have hkd : k.dataset = a.dataset := by rw [hke]
  rw [hkr, hkd]
  cases hcr : checkReflect (a.dataset.map fillZero) (Reflect.ofChecked (reflect.getD refl)) with
  | error e => rfl
  | ok r =>
    cases r with
    | none => exact absurd rfl (hnn _ hcr)
    | some rows =>
      simp only [Except.bind, Option.getD_some]
      have := resampleReflectN_eq (k := k) (K := K.kernel) (M := Matrix.of fun i j => C i j * rescaleBw bw0 a.rescale i j ^ 2)
        (by rw [hKe, hke, hD']; rfl)
        (by
          rw [hke, hcov]
          ext1 i j
          simp only [Matrix.of_apply, Num.mul_some])
        (by
          rw [hKe, hcov', ← hbw, hresc]
          rfl)
        (by
          rw [hke]
          intro l hl
          simp only at hl
          subst hl
          refine ⟨checkWeights_length e3 l rfl, ?_, sum_valid e3⟩
          rcases checkWeights_inv e3 with ⟨_, hh⟩ | ⟨l', _, hl', hv⟩
          · cases hh
          obtain rfl := Option.some.inj hl'
          exact hv.2.1) size rows keep rnd
      have hchunk : K.kernel.chunk = A.chunk := by rw [hKe]; rfl
      rw [hchunk] at this
      have hdat : K.dataset = completeRows k.dataset := by rw [hKe, hke, ← hdata]
      have hwts : K.weights = k.weights.map (completeWeights k.dataset) := by rw [hweights, hkd]
      rw [this, hdat, hwts]
      cases resampleReflect K.kernel (completeRows k.dataset) size rows (k.weights.map (completeWeights k.dataset)) keep
          rnd with
      | error e => rfl
      | ok r =>
        simp only [Except.map, squeezeSamples_points]
        rfl

/-- **C146**, if no point is complete, `resample` with boundaries raises an exception. -/
theorem C146_none {a : MissArgs d} {k : MissKDE d} (h : MissKDE.init a = .ok k) (hall : ∀ x ∈ a.dataset, ∃ i, x i = none)
    (chunk : ℕ) (size : Option ℕ) (keep : KeepArg) (reflect : Option (Option (List ReflRow)))
    (hb : reflect.getD a.reflect ≠ none) (rnd : ℕ → ℕ → Draw d) :
    ∃ e, k.resample chunk size keep reflect rnd = .error e := by
  cases hr : k.resample chunk size keep reflect rnd with
  | error e => exact ⟨e, rfl⟩
  | ok l =>
    exfalso
    obtain ⟨refl, weights, cov, bw0, D, e1, e2, e3, e4, e5, e6, rfl⟩ := missInit_inv h
    have hempty : completeRows a.dataset = [] := by
      unfold completeRows
      rw [List.filterMap_eq_nil_iff]
      intro x hx
      obtain ⟨i, hi⟩ := hall x hx
      cases hcx : completeCol x with
      | none => rfl
      | some y =>
        rw [completeCol_eq_some hcx] at hi
        cases hi
    have hdraw : ∀ rows, drawDataN a.dataset rows = [] := by
      intro rows
      rw [drawDataN_eq, hempty]
      have : reflectData ([] : List (Fin d → ℝ)) rows = [] := by
        simp only [reflectData, List.nil_append, List.flatMap_eq_nil_iff]
        intro i _
        cases rows.getD i none with
        | none => rfl
        | some p =>
          obtain ⟨lo, hi⟩ := p
          cases lo <;> cases hi <;> rfl
      simp [drawData, truncateData, this]
    unfold MissKDE.resample at hr
    dsimp only at hr
    split at hr
    · cases hr
    · rename_i hcr
      have hsome : ∃ rows, reflect.getD refl = some rows := by
        cases reflect with
        | none =>
          simp only [Option.getD_none] at hb ⊢
          obtain ⟨rows, hrows⟩ := Option.ne_none_iff_exists'.mp hb
          rw [hrows] at e1
          exact checkReflect_ofChecked_some e1
        | some r' => exact Option.ne_none_iff_exists'.mp hb
      obtain ⟨rows, hrows⟩ := hsome
      rw [hrows] at hcr
      obtain ⟨rows', hh⟩ := checkReflect_ofChecked_some hcr
      cases hh
    · unfold MissKDE.resampleReflect at hr
      split at hr
      · cases hr
      · rw [if_pos (hdraw _)] at hr
        cases hr

/-- **C146**, without an explicit covariance `resample` raises an exception (unless `size=0`). -/
theorem C146_covariance {a : MissArgs d} {k : MissKDE d} (h : MissKDE.init a = .ok k) (hc : a.covariance = none)
    (hm : Spec.HasMissing a.dataset none) (chunk : ℕ) (size : Option ℕ) (hsize : size ≠ some 0) (keep : KeepArg)
    (reflect : Option (Option (List ReflRow))) (rnd : ℕ → ℕ → Draw d) :
    ∃ e, k.resample chunk size keep reflect rnd = .error e := by
  obtain ⟨x, hx, i, hi⟩ := hasMissing_none hm
  have hmat := fun j => missing_matrix h hc hx hi j
  have hne : k.dataset ≠ [] := by
    obtain ⟨_, _, _, _, _, _, e2, _, _, _, _, rfl⟩ := missInit_inv h
    exact e2
  have clear : ∀ (M : Matrix (Fin d) (Fin d) Num) data n w kp r, M i i = none ∨ M i i = some 0 →
      ∃ e, resampleClearN k.dist data n w M kp r = .error e := by
    intro M data n w kp r hM
    unfold resampleClearN
    split
    · exact ⟨_, rfl⟩
    · split
      · exact ⟨_, rfl⟩
      · rename_i M' hM'
        rcases hM with hM | hM
        · rw [completeMatrix_none M i i hM] at hM'; cases hM'
        · have hz : M' i i = 0 := by
            unfold completeMatrix at hM'
            split at hM'
            · rw [← Option.some.inj hM']
              simp [hM]
            · cases hM'
          have hch : cholesky M' = none := by
            cases hU : cholesky M' with
            | none => rfl
            | some U =>
              have := cholesky_needs_pos hU i
              rw [hz] at this
              exact absurd this (lt_irrefl _)
          have : ∀ noise, ∃ e, addCov noise M' = .error e := by
            intro noise
            unfold addCov
            rw [hch]
            exact ⟨_, rfl⟩
          obtain ⟨e, he⟩ := this _
          rw [he]
          exact ⟨e, rfl⟩
  unfold MissKDE.resample
  split
  · exact ⟨_, rfl⟩
  · exact clear _ _ _ _ _ _ (Or.inl (hmat i))
  · rename_i rows hrows
    have hs : 0 < size.getD k.dataset.length := by
      cases size with
      | none => exact List.length_pos_iff.mpr hne
      | some n =>
        simp only [Option.getD_some]
        have : n ≠ 0 := fun h => hsize (by rw [h])
        omega
    unfold MissKDE.resampleReflect
    split
    · exact ⟨_, rfl⟩
    · rename_i M' hM'
      split
      · exact ⟨_, rfl⟩
      · split
        · exact ⟨_, rfl⟩
        · rename_i hnz
          have hM'i : M' i i = none ∨ M' i i = some 0 := by
            have zero : ∀ (r : Res (List (Fin d))), (r.map fun ps =>
                (Matrix.of fun i j => if i ∈ ps ∨ j ∈ ps then some 0 else k.matrix i j : Matrix (Fin d) (Fin d) Num)) = .ok M' →
                M' i i = none ∨ M' i i = some 0 := by
              intro r hr
              obtain ⟨ps, -, rfl⟩ := map_ok hr
              simp only [Matrix.of_apply]
              split
              · exact Or.inr rfl
              · exact Or.inl (hmat i)
            cases keep with
            | none => obtain rfl := Except.ok.inj hM'; exact Or.inl (hmat i)
            | «false» => obtain rfl := Except.ok.inj hM'; exact Or.inl (hmat i)
            | «true» => exact zero _ hM'
            | dims l => exact zero _ hM'
          obtain ⟨c1, c2⟩ := chunking_spec (size.getD k.dataset.length) chunk (by omega)
          obtain ⟨f, hf⟩ : ∃ f, 10 * (chunking (size.getD k.dataset.length) chunk).1 = f + 1 := by
            have : 1 ≤ (chunking (size.getD k.dataset.length) chunk).1 := by rw [c1]; unfold Spec.numChunks; omega
            exact ⟨10 * (chunking (size.getD k.dataset.length) chunk).1 - 1, by omega⟩
          rw [hf, rejectLoopN, if_neg (by simp; omega)]
          obtain ⟨e, he⟩ := clear M' (drawDataN k.dataset rows) (chunking (size.getD k.dataset.length) chunk).2
            (drawWeightsN k.dataset k.weights rows) .none (rnd 0) hM'i
          rw [he]
          exact ⟨e, rfl⟩

/-! ### No boundaries -/

/-- **C146**, without boundaries and with an explicit covariance incomplete points are drawn like all others.  Whatever
numbers are filled in for the missing values (`A`), the samples are those of the filled data, but with NaN in the
missing dimensions of the chosen point; which point is chosen depends on the random number and the weights only. -/
theorem C146_plain {E : Ext} {a : MissArgs d} {k : MissKDE d} {A : KDEArgs d} {K : KDE d} (hF : Spec.Fills a A)
    (h : MissKDE.init a = .ok k) (hK : KDE.init E A = .ok K) {C : Matrix (Fin d) (Fin d) ℝ} (hc : a.covariance = some C)
    (chunk : ℕ) (size : Option ℕ) (keep : KeepArg) (reflect : Option (Option (List ReflRow)))
    (hr : reflect.getD a.reflect = none) (squeeze : Bool) (rnd : ℕ → ℕ → Draw d) :
    (∃ e, k.resample chunk size keep reflect rnd = .error e ∧
      K.resample size keep (Spec.boundaryArg reflect) squeeze rnd = .error e) ∨
    ∃ l s, k.resample chunk size keep reflect rnd = .ok l ∧
      K.resample size keep (Spec.boundaryArg reflect) squeeze rnd = .ok s ∧
      l.length = size.getD a.dataset.length ∧ s.points.length = size.getD a.dataset.length ∧
      ∀ n (hn : n < l.length) (hn' : n < s.points.length),
        ∃ x, a.dataset[choiceIndex a.dataset.length k.weights (rnd 0 n).pick]? = some x ∧
          ∀ i, l[n] i = if x i = none then none else some (s.points[n] i) := by
  have hKeq := resample_eq hK size keep (Spec.boundaryArg reflect) squeeze rnd
  obtain ⟨refl', weights', cov', bw0', D', out, eff, ext, g1, g2, g3, g4, g5, g6, g7, g8, g9, g10, hKe⟩ := init_inv hK
  obtain ⟨refl, weights, cov, bw0, D, e1, e2, e3, e4, e5, e6, hke⟩ := missInit_inv h
  have hlen := hF.dataset.length_eq
  have hD' : D' = D := by rw [hF.kernel, e6] at g6; exact (Except.ok.inj g6).symm
  have hw : weights' = weights := by rw [hF.weights, ← hlen, e3] at g3; exact (Except.ok.inj g3).symm
  have hcov : cov = Matrix.of fun i j => some (C i j) := by
    rw [hc] at e4; exact (Except.ok.inj e4).symm
  have hcov' : cov' = C := by rw [hF.covariance, hc] at g4; exact (Except.ok.inj g4).symm
  have hbw : bw0 = bw0' := by
    rw [hF.bandwidth, hF.diagonal, hF.neff, ← hlen, hw, e5] at g5
    exact Except.ok.inj g5
  have hre : refl = refl' := by
    rw [hF.reflect] at g1
    rw [checkReflect_indep _ A.dataset, g1] at e1
    exact (Except.ok.inj e1).symm
  have hrefl : reflect.getD refl = none := by
    cases reflect with
    | none =>
      simp only [Option.getD_none] at hr ⊢
      rw [hr] at e1
      exact (Except.ok.inj e1).symm
    | some r => exact hr
  have hbound : Spec.boundaries K (Spec.boundaryArg reflect) = .ok none := by
    cases reflect with
    | none =>
      simp only [Spec.boundaryArg, Spec.boundaries]
      rw [hKe, ← hre]
      simpa using hrefl
    | some r =>
      obtain rfl : r = none := hr
      rfl
  have hk : k.resample chunk size keep reflect rnd =
      resampleClearN k.dist a.dataset (size.getD a.dataset.length) weights k.matrix keep (rnd 0) := by
    have hkr : k.reflect = refl := by rw [hke]
    unfold MissKDE.resample
    rw [hkr, hrefl]
    simp only [Reflect.ofChecked, checkReflect]
    rw [hke]
  have hm : k.matrix = Matrix.of fun i j => some (K.kernel.matrix i j) := by
    rw [hke, hKe, hcov, hcov', ← hbw, hF.rescale]
    ext1 i j
    simp only [Matrix.of_apply, Num.mul_some, Kernel.init]
  have hdist : K.kernel.dist = k.dist := by rw [hKe, hke, hD']; rfl
  have hdat : K.dataset = A.dataset := by rw [hKe]
  have hwts : K.weights = weights := by rw [hKe, hw]
  have hkw : k.weights = weights := by rw [hke]
  rw [hKeq, hbound, hk, hm, hdist, hdat, hwts, hkw]
  simp only [Except.bind]
  rcases resampleClearN_fill (D := k.dist) hF.dataset (size.getD a.dataset.length) weights K.kernel.matrix keep (rnd 0) with
    ⟨e, h1, h2⟩ | ⟨l, l', h1, h2, l1, l2, hall⟩
  · left
    refine ⟨e, h1, ?_⟩
    rw [← hlen, h2]
    rfl
  · right
    refine ⟨l, squeezeSamples squeeze l', h1, ?_, l1, ?_, ?_⟩
    · rw [← hlen, h2]
      rfl
    · rw [squeezeSamples_points, l2]
    · have hp := squeezeSamples_points squeeze l'
      revert hp
      generalize (squeezeSamples squeeze l').points = q
      rintro rfl
      exact hall

/-- The number that chooses the data point is uniform. -/
lemma pick_law (d : ℕ) : MeasurePreserving (fun t : DrawTuple d => t.2.2.2.2) (Spec.drawLaw d) Spec.unitLaw :=
  ((measurePreserving_snd.comp measurePreserving_snd).comp measurePreserving_snd).comp measurePreserving_snd

/-- **C146**, how often this happens.  With random numbers as promised by numpy and a positive definite kernel matrix,
`resample` without boundaries almost surely returns, and the `n`-th sample has NaN in dimension `i` with a probability
that is the weight of the points without a value in this dimension, divided by the total weight. -/
theorem C146_share {E : Ext} {a : MissArgs d} {k : MissKDE d} {A : KDEArgs d} {K : KDE d} (hF : Spec.Fills a A)
    (h : MissKDE.init a = .ok k) (hK : KDE.init E A = .ok K) {C : Matrix (Fin d) (Fin d) ℝ} (hc : a.covariance = some C)
    (hM : (Spec.kernelMatrix K.covariance K.bandwidth).PosDef) (hd : 0 < d)
    {Ω : Type} [MeasurableSpace Ω] (μ : Measure Ω) (rnd : Ω → ℕ → ℕ → Draw d) (hrnd : Spec.RandomNumbers μ rnd)
    (chunk : ℕ) (size : ℕ) (reflect : Option (Option (List ReflRow))) (hr : reflect.getD a.reflect = none) :
    (∀ᵐ ω ∂μ, ∃ l, k.resample chunk (some size) .none reflect (rnd ω) = .ok l ∧ l.length = size) ∧
    ∀ n < size, ∀ i, μ {ω | ∃ l x, k.resample chunk (some size) .none reflect (rnd ω) = .ok l ∧ l[n]? = some x ∧
        x i = none} =
      ENNReal.ofReal ((∑ j : Fin a.dataset.length, if a.dataset[j] i = none then Spec.weightAt k.weights j else 0) /
        k.totalWeight) := by
  classical
  have hplain := fun ω => C146_plain hF h hK hc chunk (some size) .none reflect hr false (rnd ω)
  have hlen := hF.dataset.length_eq
  obtain ⟨refl, weights, cov, bw0, D, e1, e2, e3, e4, e5, e6, hke⟩ := missInit_inv h
  have hkw : k.weights = weights := by rw [hke]
  have hN : 0 < a.dataset.length := List.length_pos_iff.mpr e2
  have hokw : OkW a.dataset.length weights := by
    rintro l rfl
    refine ⟨checkWeights_length e3 l rfl, ?_, sum_valid e3⟩
    rcases checkWeights_inv e3 with ⟨_, hh⟩ | ⟨l', _, hl', hv⟩
    · cases hh
    obtain rfl := Option.some.inj hl'
    exact hv.2.1
  have htot : totW a.dataset.length weights = k.totalWeight := by
    rw [hke]
    cases weights <;> rfl
  have hb : Spec.boundaries K (Spec.boundaryArg reflect) = .ok none := by
    have hrr : refl = K.reflect := by
      obtain ⟨_, _, _, _, _, _, _, _, g1, _, _, _, _, _, _, _, _, _, hKe⟩ := init_inv hK
      rw [hF.reflect] at g1
      rw [checkReflect_indep _ A.dataset, g1] at e1
      rw [hKe]
      exact (Except.ok.inj e1).symm
    cases reflect with
    | none =>
      simp only [Option.getD_none] at hr
      rw [hr] at e1
      simp only [Spec.boundaryArg, Spec.boundaries]
      rw [← hrr, (Except.ok.inj e1).symm]
    | some r =>
      obtain rfl : r = none := hr
      rfl
  have hgood : ∀ n, ∀ᵐ ω ∂μ, rad (rnd ω 0 n).gauss ≠ 0 ∧ (∀ i, 0 ≤ (rnd ω 0 n).unif i ∧ (rnd ω 0 n).unif i < 1) ∧
      0 ≤ (rnd ω 0 n).pick ∧ (rnd ω 0 n).pick < 1 := by
    intro n
    have h3 := ae_good hd
    have h4 := hrnd.law 0 n
    rw [← h4.map_eq] at h3
    exact ae_of_ae_map h4.aemeasurable h3
  have hret : ∀ᵐ ω ∂μ, ∃ l, k.resample chunk (some size) .none reflect (rnd ω) = .ok l ∧ l.length = size ∧
      ∀ n (hn : n < l.length), ∃ x, a.dataset[choiceIndex a.dataset.length weights (rnd ω 0 n).pick]? = some x ∧
        ∀ i, l[n] i = none ↔ x i = none := by
    filter_upwards [ae_all_iff.mpr hgood] with ω hω
    have hsam := fun n => sample_noiseFn K.kernel.dist (hω n).2.1 (hω n).1
    obtain ⟨s, hs⟩ := resample_returns hK hM (some size) .none (by simp) (Spec.boundaryArg reflect) false (rnd ω)
      (fun n => ⟨_, hsam n⟩) (fun n => (hω n).2.2) hb
    rcases hplain ω with ⟨e, _, h2⟩ | ⟨l, s', h1, h2, l1, l2, hall⟩
    · rw [hs] at h2; cases h2
    · simp only [Option.getD_some] at l1 l2
      refine ⟨l, h1, l1, fun n hn => ?_⟩
      obtain ⟨x, hx, hi⟩ := hall n hn (by omega)
      rw [hkw] at hx
      refine ⟨x, hx, fun i => ?_⟩
      rw [hi i]
      split <;> simp_all
  refine ⟨hret.mono fun ω ⟨l, h1, h2, _⟩ => ⟨l, h1, h2⟩, fun n hn i => ?_⟩
  let J : Set ℕ := {j | ∃ x, a.dataset[j]? = some x ∧ x i = none}
  have hev : {ω | ∃ l x, k.resample chunk (some size) .none reflect (rnd ω) = .ok l ∧ l[n]? = some x ∧ x i = none}
      =ᵐ[μ] (fun ω => (rnd ω 0 n).tuple) ⁻¹' ((fun t : DrawTuple d => t.2.2.2.2) ⁻¹'
        (choiceIndex a.dataset.length weights ⁻¹' J)) := by
    filter_upwards [hret] with ω ⟨l, h1, h2, h3⟩
    apply propext
    obtain ⟨x, hx, hxi⟩ := h3 n (by omega)
    constructor
    · rintro ⟨l', y, hl', hy, hyi⟩
      obtain rfl := Except.ok.inj (h1.symm.trans hl')
      rw [List.getElem?_eq_getElem (by omega)] at hy
      rw [← Option.some.inj hy] at hyi
      exact ⟨x, hx, (hxi i).mp hyi⟩
    · rintro ⟨y, hy, hyi⟩
      have : y = x := Option.some.inj (hy.symm.trans hx)
      subst this
      exact ⟨l, l[n], h1, List.getElem?_eq_getElem (by omega), (hxi i).mpr hyi⟩
  have hJ : MeasurableSet J := trivial
  have hmJ := measurable_choiceIndex a.dataset.length weights hJ
  rw [measure_congr hev, ← Measure.map_apply_of_aemeasurable (hrnd.law 0 n).aemeasurable ((pick_law d).measurable hmJ),
    (hrnd.law 0 n).map_eq, ← Measure.map_apply (pick_law d).measurable hmJ, (pick_law d).map_eq,
    ← Measure.map_apply (measurable_choiceIndex _ _) hJ, choice_law hN hokw, Measure.finsetSum_apply]
  simp only [Measure.smul_apply, Measure.dirac_apply' _ hJ, smul_eq_mul, Set.indicator_apply, Pi.one_apply, mul_ite,
    mul_one, mul_zero]
  rw [← Fin.sum_univ_eq_sum_range (fun j => if j ∈ J then ENNReal.ofReal (Spec.weightAt weights j /
    totW a.dataset.length weights) else 0), hkw, ← htot, Finset.sum_div, ENNReal.ofReal_sum_of_nonneg]
  · refine Finset.sum_congr rfl fun j _ => ?_
    have : (j : ℕ) ∈ J ↔ a.dataset[j] i = none := by
      simp only [J, Set.mem_setOf_eq, Fin.getElem_fin]
      rw [List.getElem?_eq_getElem j.2]
      simp
    by_cases hj : a.dataset[j] i = none
    · rw [if_pos (this.mpr hj), if_pos hj]
    · rw [if_neg (fun h => hj (this.mp h)), if_neg hj]
      simp
  · intro j _
    split
    · exact weightAt_nonneg hokw j
    · simp

/-! ### The claim fails without boundaries -/

/-- One-dimensional data `[NaN, 0]` with the weights 1 and 3, and the data `[7, 0]` that fill it in. -/
lemma missDraw_init : ∃ (k : MissKDE 1) (K : KDE 1),
    MissKDE.init { missExample .box with weights := .arr [.fin 1, .fin 3] } = .ok k ∧
    KDE.init ⟨fun A => A, id⟩ { dataset := [fun _ => 7, fun _ => 0]
                                weights := .arr ([1, 3].map Flt.fin)
                                kernel := .cls .box
                                bandwidth := .val (.num 1)
                                covariance := some 1 } = .ok K ∧
    Spec.Fills { missExample .box with weights := .arr [.fin 1, .fin 3] }
      ({ dataset := [fun _ => 7, fun _ => 0]
         weights := .arr ([1, 3].map Flt.fin)
         kernel := .cls .box
         bandwidth := .val (.num 1)
         covariance := some 1 } : KDEArgs 1) ∧
    (Spec.kernelMatrix K.covariance K.bandwidth).PosDef ∧ K.reflect = none ∧ k.weights = some [1, 3] := by
  obtain ⟨K, hK, hw, hD, hM⟩ := unit_init (d := 1) ⟨fun A => A, id⟩ [fun _ => 7, fun _ => 0] (by simp) [1, 3]
    (by simp [Spec.ValidW]) .box rfl
  have hr : K.reflect = none := by
    obtain ⟨_, _, _, _, _, _, _, _, hr, _, _, _, _, _, _, _, _, _, he⟩ := init_inv hK
    rw [he]
    simpa [checkReflect, eq_comm] using hr
  have hcw : checkWeights 2 (.arr [.fin 1, .fin 3]) = .ok (some [1, 3]) := by
    have := checkWeights_valid (n := 2) (l := [1, 3]) ⟨rfl, by simp, 1, by simp, by norm_num⟩
    simpa using this
  have hk := missInit_ok (a := { missExample .box with weights := .arr [.fin 1, .fin 3] }) (reflect := none)
    (weights := some [1, 3]) (cov := Matrix.of fun i j => some ((1 : Matrix (Fin 1) (Fin 1) ℝ) i j))
    (bw0 := Matrix.of fun _ _ => 1) (D := .box) rfl (by simp [missExample]) hcw rfl
    (by simp [missExample, bwMatrix, computeBw, Except.map]) rfl
  refine ⟨_, K, hk, hK, ⟨?_, rfl, rfl, rfl, rfl, rfl, rfl, rfl, rfl⟩, by rw [hM]; exact PosDef.one, hr, rfl⟩
  exact List.Forall₂.cons (fun i v h => by cases h) (List.Forall₂.cons (fun i v h => Option.some.inj h) List.Forall₂.nil)

/-- **C146** is false: without boundaries, `resample(1)` of `[NaN, 0]` returns NaN if the first point is chosen. -/
theorem C146_refuted : ¬ C146_Claim := by
  intro hC
  obtain ⟨k, K, hk, hK, hF, hpd, hr, hw⟩ := missDraw_init
  have hv : ∀ m n : ℕ, ((fun _ _ => Spec.fixedDraw (fun _ => 0) 1 : ℕ → ℕ → Draw 1) m n).Valid ∧
      rad ((fun _ _ => Spec.fixedDraw (fun _ => 0) 1 : ℕ → ℕ → Draw 1) m n).gauss ≠ 0 := fun _ _ =>
    ⟨fixedDraw_valid (fun _ => by norm_num) (by norm_num), fixedDraw_rad (by norm_num) _ _⟩
  have hb : Spec.boundaries K .none = .ok none := by simp [Spec.boundaries, hr]
  obtain ⟨s, hs, hl⟩ := C26_succeeds hK hpd (some 1) .none (by simp) .none false _ hv hb
  rcases C146_plain hF hk hK rfl 100000 (some 1) .none none rfl false
    (fun _ _ => Spec.fixedDraw (fun _ => 0) 1) with ⟨e, _, h2⟩ | ⟨l, s', h1, h2, l1, l2, hall⟩
  · rw [Spec.boundaryArg, hs] at h2; cases h2
  · simp only [Option.getD_some] at l1 l2
    obtain ⟨x, hx, hi⟩ := hall 0 (by omega) (by omega)
    obtain ⟨v, hv'⟩ := hC 1 _ k hk 100000 (some 1) .none none _ l (fun m n => (hv m n).1) h1 l[0] (List.getElem_mem _) 0
    have hidx : choiceIndex 2 (some [1, 3]) 0 = 0 := by
      simp only [choiceIndex, npCumsum, searchRight]
      norm_num [npCumsum]
    have hx0 : x = fun _ => none := by
      rw [hw] at hx
      have : ([fun _ => none, fun _ => some 0] : List (Fin 1 → Num))[choiceIndex 2 (some [1, 3]) 0]? = some x := hx
      rw [hidx] at this
      exact (Option.some.inj this).symm
    rw [hi 0, hx0] at hv'
    simp at hv'

/-- Concrete case of the hypotheses of `C146_plain` and `C146_share`: the data `[NaN, 0]` with the weights 1 and 3; a
quarter of the samples is NaN. -/
example : ∃ (k : MissKDE 1) (K : KDE 1) (A : KDEArgs 1) (a : MissArgs 1) (Ω : Type) (_ : MeasurableSpace Ω)
    (μ : Measure Ω) (rnd : Ω → ℕ → ℕ → Draw 1), MissKDE.init a = .ok k ∧ KDE.init ⟨fun A => A, id⟩ A = .ok K ∧
    Spec.Fills a A ∧ a.covariance = some 1 ∧ (Spec.kernelMatrix K.covariance K.bandwidth).PosDef ∧
    Spec.RandomNumbers μ rnd ∧
    μ {ω | ∃ l x, k.resample 100000 (some 5) .none none (rnd ω) = .ok l ∧ l[2]? = some x ∧ x 0 = none} =
      ENNReal.ofReal (1 / 4) := by
  obtain ⟨k, K, hk, hK, hF, hpd, hr, hw⟩ := missDraw_init
  refine ⟨k, K, _, _, _, _, _, _, hk, hK, hF, rfl, hpd, exists_randomNumbers 1, ?_⟩
  rw [(C146_share hF hk hK rfl hpd one_pos _ _ (exists_randomNumbers 1) 100000 5 none rfl).2 2 (by norm_num) 0]
  congr 1
  simp only [MissKDE.totalWeight, hw]
  change (∑ j : Fin 2, if ([fun _ => none, fun _ => some 0] : List (Fin 1 → Num))[j] 0 = none
    then Spec.weightAt (some [1, 3]) j else 0) / ([1, 3] : List ℝ).sum = 1 / 4
  rw [Fin.sum_univ_two]
  simp [Spec.weightAt]
  norm_num

/-- Concrete case of the hypotheses of `C146_reflect` and `C146_partial`: the data `[NaN, 0]` with boundaries at -1 and
1, drawn once; the sample is that of the complete point. -/
example : ∃ (k : MissKDE 1) (K : KDE 1) (A : KDEArgs 1) (rnd : ℕ → ℕ → Draw 1) (l : List (Fin 1 → Num)),
    MissKDE.init { missExample .box with reflect := some [some (some (-1), some 1)] } = .ok k ∧
    KDE.init ⟨fun A => A, id⟩ A = .ok K ∧ A.dataset = completeRows (missExample .box).dataset ∧
    K.weights = k.weights.map (completeWeights (missExample .box).dataset) ∧
    k.resample A.chunk (some 1) .none none rnd = .ok l ∧ l = [fun _ => some 0] := by
  have h1 : completeCol (fun _ : Fin 1 => (none : Num)) = none := by simp [completeCol]
  have h2 : completeCol (fun _ : Fin 1 => (some 0 : Num)) = some fun _ => 0 := completeCol_lift fun _ => 0
  have hdata : [fun _ : Fin 1 => (0 : ℝ)] = completeRows (missExample .box).dataset := by
    simp [missExample, completeRows, h1, h2]
  obtain ⟨K, hK, hw, hD, hM, hr, hc, hdat⟩ := unit_init_reflect (d := 1) ⟨fun A => A, id⟩ [fun _ => 0] (by simp) .box rfl
    [some (some (-1), some 1)] rfl (by
      intro lo hi h
      simp only [List.mem_cons, Option.some.injEq, Prod.mk.injEq, List.not_mem_nil, or_false] at h
      rw [h.1, h.2]; norm_num) ⟨(some (-1), some 1), by simp⟩
  have hcr := checkReflect_stored hK
  rw [hr, checkReflect_indep _ ((missExample .box).dataset.map fillZero)] at hcr
  have hk := missInit_ok (a := { missExample .box with reflect := some [some (some (-1), some 1)] })
    (reflect := some [some (some (-1), some 1)])
    (weights := none) (cov := Matrix.of fun i j => some ((1 : Matrix (Fin 1) (Fin 1) ℝ) i j))
    (bw0 := Matrix.of fun _ _ => 1) (D := .box) hcr (by simp [missExample]) rfl rfl
    (by simp [missExample, bwMatrix, computeBw, Except.map]) rfl
  have hkm : K.kernel.matrix = 1 := by rw [(C18_matrix hK).1, hM]
  have hb : Spec.boundaries K .none = .ok (some [some (some (-1), some 1)]) := by simp only [Spec.boundaries, hr]
  have hU : cholesky (1 : Matrix (Fin 1) (Fin 1) ℝ) = some 1 := by
    obtain ⟨U, hU⟩ := cholesky_of_posDef (PosDef.one : (1 : Matrix (Fin 1) (Fin 1) ℝ).PosDef)
    rw [hU]
    have h1 := cholesky_mul Matrix.isSymm_one hU
    have h2 := cholesky_diag_pos hU 0
    congr 1
    ext i j
    rw [Subsingleton.elim i 0, Subsingleton.elim j 0]
    have := congrFun (congrFun h1 0) 0
    simp [Matrix.mul_apply] at this
    simp
    nlinarith
  have hclear : resampleClear .box [fun _ : Fin 1 => (0 : ℝ)] 1 none 1 .none
      (fun _ => Spec.fixedDraw (fun _ => 0) 0) = .ok [fun _ => 0] := by
    have e2 : choiceDatum [fun _ : Fin 1 => (0 : ℝ)] none (Spec.fixedDraw (fun _ : Fin 1 => 0) 0).pick
        = .ok fun _ => 0 := by
      simp [choiceDatum, choiceIndex, Spec.fixedDraw]
    unfold resampleClear
    simp only [Dist.sample, if_true, List.range_one, listSeq, addCov, hU, e2, keepDims, choiceOk]
    simp only [List.length_cons, List.length_nil, List.map_cons, List.map_nil, List.zipWith_cons_cons, List.zipWith_nil_left]
    rw [if_pos (by simp)]
    refine congrArg Except.ok (congrArg (fun z => [z]) ?_)
    funext i
    simp [zeroDims, Spec.fixedDraw]
  have hin : insideBounds [some (some (-1), some 1)] (fun _ : Fin 1 => (0 : ℝ)) = true := by
    simp [insideBounds, inRow, boundOf]
  have hdraw : drawData [fun _ : Fin 1 => (0 : ℝ)] [some (some (-1), some 1)] = [fun _ => 0] :=
    drawData_inside (by
      intro x hx
      rw [← insideBounds_iff]
      simp only [List.mem_singleton] at hx
      subst hx
      exact hin)
  have hs : K.resample (some 1) .none .none false (fun _ _ => Spec.fixedDraw (fun _ => 0) 0) =
      .ok (squeezeSamples false [fun _ => 0]) := by
    rw [resample_eq hK, hb]
    simp only [Except.bind, Option.getD_some]
    unfold resampleReflect
    simp only [covKeepVars, hdat, hdraw, hw, hD, hkm, hc, show chunking 1 100000 = (1, 1) by decide, drawWeights,
      Option.map_none, mul_one]
    have hfirst := rejectLoop_first (D := .box) (data := [fun _ : Fin 1 => (0 : ℝ)]) (w := none) (M := 1)
      (refl := [some (some (-1), some 1)]) (size := 1) (cs := 1) (chunk := 100000)
      (rnd := fun _ _ => Spec.fixedDraw (fun _ => 0) 0) (fuel := 9) (draw := 1) one_pos hclear rfl (by
        intro x hx
        rw [List.mem_singleton] at hx
        subst hx
        exact hin)
    rw [if_neg (by simp), if_neg (by norm_num), hfirst]
    simp [Except.map]
  refine ⟨_, K, _, fun _ _ => Spec.fixedDraw (fun _ => 0) 0, _, hk, hK, hdata, hw, ?_, rfl⟩
  have := C146_reflect hk hK rfl rfl rfl rfl rfl rfl rfl rfl hdata hw 1 .none none (by simp)
    (fun _ _ => Spec.fixedDraw (fun _ => 0) 0)
  rw [this, Spec.boundaryArg, hs]
  simp [Except.map, squeezeSamples_points]

/-- Concrete case of the hypotheses of `C146_covariance`: data `[NaN, 0, 1]` without an explicit covariance. -/
example : ∃ k, MissKDE.init ({ dataset := [fun _ => none, fun _ => some 0, fun _ => some 1] } : MissArgs 1) = .ok k ∧
    ∀ rnd, ∃ e, k.resample 100000 none .none none rnd = .error e := by
  have hc : ∃ cov, covArgN ([fun _ => none, fun _ => some 0, fun _ => some 1] : List (Fin 1 → Num)) none none = .ok cov := by
    simp only [covArgN, npCovN]
    rw [if_neg (by simp [covFact])]
    exact ⟨_, rfl⟩
  obtain ⟨cov, hcov⟩ := hc
  have hi := missInit_ok (a := ({ dataset := [fun _ => none, fun _ => some 0, fun _ => some 1] } : MissArgs 1))
    (reflect := none) (weights := none) (cov := cov) (bw0 := Matrix.of fun _ _ => scottFactor 1 3) (D := .gaussian)
    rfl (by simp) rfl hcov (by simp [bwMatrix, computeBw, Except.map, effNum]) rfl
  exact ⟨_, hi, C146_covariance hi rfl ⟨fun _ => none, by simp, 0, by simp, rfl⟩ 100000 none (by simp) .none none⟩

/-- Concrete case of the hypotheses of `C146_none`: a single point, missing. -/
example : ∃ k, MissKDE.init ({ missExample .box with dataset := [fun _ => none] }) = .ok k ∧
    ∀ rnd, ∃ e, k.resample 100000 (some 2) .none (some (some [some (some 0, none)])) rnd = .error e := by
  have hi := missInit_ok (a := { missExample .box with dataset := [fun _ => none] }) (reflect := none)
    (weights := none) (cov := Matrix.of fun i j => some ((1 : Matrix (Fin 1) (Fin 1) ℝ) i j))
    (bw0 := Matrix.of fun _ _ => 1) (D := .box) rfl (by simp) rfl rfl
    (by simp [missExample, bwMatrix, computeBw, Except.map]) rfl
  exact ⟨_, hi, C146_none hi (by simp) 100000 (some 2) .none _ (by simp)⟩

end Kalepy
