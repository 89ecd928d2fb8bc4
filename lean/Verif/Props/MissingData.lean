import Verif.Props.Missing

/-!
# Missing values in the data (C145): where they do no harm, what the box kernel makes of them, boundaries
-/

namespace Kalepy

open Matrix

variable {d : ℕ}

/-! ### Numbers in place of the missing ones -/

lemma zipWith_fill {α β : Type*} {f : α → ℝ → Num} {g : β → ℝ → ℝ} {data : List α} {data' : List β}
    (h : List.Forall₂ (fun x y => ∀ a, f x a = some (g y a)) data data') (w : List ℝ) :
    List.zipWith f data w = (List.zipWith g data' w).map some := by
  induction h generalizing w with
  | nil => simp
  | cons hx _ ih =>
    cases w with
    | nil => simp
    | cons a w => simp only [List.zipWith_cons_cons, List.map_cons, hx, ih w]

lemma forall₂_complete {data : List (Fin d → Num)} {data' : List (Fin d → ℝ)}
    (h : List.Forall₂ (fun x y => ∀ i v, x i = some v → y i = v) data data') (p : Fin d → Prop)
    (hp : ∀ x ∈ data, ∀ i, p i → x i ≠ none) :
    List.Forall₂ (fun x y => ∀ i, p i → x i = some (y i)) data data' := by
  induction h with
  | nil => exact .nil
  | @cons x y data data' hx _ ih =>
    refine .cons (fun i hi => ?_) (ih fun x hx => hp x (List.mem_cons_of_mem _ hx))
    cases hxi : x i with
    | none => exact absurd hxi (hp x List.mem_cons_self i hi)
    | some v => rw [hx i v hxi]

lemma wMeanN_fill {data : List (Fin d → Num)} {data' : List (Fin d → ℝ)} {p : Fin d → Prop}
    (h : List.Forall₂ (fun x y => ∀ i, p i → x i = some (y i)) data data') (w : List ℝ) {i : Fin d} (hi : p i) :
    wMeanN data w i = some (wMean data' w i) := by
  unfold wMeanN wMean
  rw [zipWith_fill (g := fun y a => a * y i) (h.imp fun x y hxy a => by rw [hxy i hi, Num.mul_some]), Num.sum_some,
    Num.div_some]

lemma wCrossN_fill {data : List (Fin d → Num)} {data' : List (Fin d → ℝ)} {p : Fin d → Prop}
    (h : List.Forall₂ (fun x y => ∀ i, p i → x i = some (y i)) data data') (w : List ℝ) {i j : Fin d} (hi : p i)
    (hj : p j) : wCrossN data w i j = some (wCross data' w i j) := by
  unfold wCrossN wCross
  rw [wMeanN_fill h w hi, wMeanN_fill h w hj]
  rw [zipWith_fill (g := fun y a => a * ((y i - wMean data' w i) * (y j - wMean data' w j)))
    (h.imp fun x y hxy a => by rw [hxy i hi, hxy j hj]; simp), Num.sum_some]

lemma covFact_fill {α β : Type*} {data : List α} {data' : List β} (h : data.length = data'.length)
    (w : Option (List ℝ)) : covFact data w = covFact data' w := by
  cases w with
  | none => simp [covFact, h]
  | some w => rfl

lemma onesIfNone_fill {α β : Type*} {data : List α} {data' : List β} (h : data.length = data'.length)
    (w : Option (List ℝ)) : onesIfNone data w = onesIfNone data' w := by
  cases w with
  | none => simp [onesIfNone, h]
  | some w => rfl

/-- The covariance of the complete dimensions is that of the filled data. -/
lemma covArgN_fill {data : List (Fin d → Num)} {data' : List (Fin d → ℝ)} (hlen : data.length = data'.length)
    (w : Option (List ℝ)) (c : Option (Matrix (Fin d) (Fin d) ℝ)) {cov' : Matrix (Fin d) (Fin d) ℝ}
    (hc : covArg data' w c = .ok cov') :
    ∃ cov, covArgN data w c = .ok cov ∧ ∀ p : Fin d → Prop,
      List.Forall₂ (fun x y => ∀ i, p i → x i = some (y i)) data data' → ∀ i j, p i → p j → cov i j = some (cov' i j) := by
  cases c with
  | some c =>
    refine ⟨_, rfl, fun p _ i j _ _ => ?_⟩
    rw [← Except.ok.inj hc]
    rfl
  | none =>
    simp only [covArg, npCov] at hc
    split at hc
    · cases hc
    · rename_i hf
      refine ⟨Matrix.of fun i j => Num.div (wCrossN data (onesIfNone data w) i j) (some (covFact data w)), ?_, ?_⟩
      · simp only [covArgN, npCovN]
        rw [if_neg (by rw [covFact_fill hlen]; exact hf)]
      · intro p hp i j hi hj
        rw [← Except.ok.inj hc]
        simp only [Matrix.of_apply]
        rw [wCrossN_fill hp _ hi hj, covFact_fill hlen, onesIfNone_fill hlen, Num.div_some]

lemma density_probability (E : Ext) (srt : List ℝ → List ℕ) (K : KDE d) (points : List (List ℝ)) (reflect : Reflect)
    (params : ParamArg) (prob : Bool) {γ : Type*} (f : ℝ → γ) :
    ((K.density E srt (some (.rows points)) reflect params false prob).1.map fun p => p.2.vals.map f) =
      (K.density E srt (some (.rows points)) reflect params false false).1.map
        fun p => p.2.vals.map fun v => f (if prob then v / K.totalWeight else v) := by
  unfold KDE.density
  cases paramSel d params with
  | error e => rfl
  | ok ss =>
    obtain ⟨sel, sq⟩ := ss
    simp only
    cases reflectLength d (numSel sel) (K.defaultReflect sel reflect) with
    | error e => rfl
    | ok r' =>
      simp only [KDE.choosePoints]
      cases toCols (PtsUse.evalRows ⟨.rows points, false, sq⟩) with
      | error e => rfl
      | ok cols =>
        have ht : (K.evalKernel E sel cols r').2.totalWeight = K.totalWeight := by
          unfold KDE.evalKernel
          cases sel with
          | none => dsimp only; split <;> rfl
          | some ps => dsimp only; split <;> rfl
        simp only
        generalize hv : K.evalKernel E sel cols r' = vk at ht
        obtain ⟨v, K'⟩ := vk
        cases v with
        | error e => rfl
        | ok vals =>
          simp only at ht
          simp only [Except.map, packResult]
          rw [← ht]
          split <;> split <;> cases prob <;> simp [Function.comp_def]

/-- **C145**, missing values in other dimensions do no harm.  If the evaluated dimensions are complete, then the
density is the same as with any numbers in place of the missing ones (provided LAPACK returns something for the
inverse of the whole matrix).  In particular, for data without missing values this model agrees with the model on
real numbers. -/
theorem C145_params {E : Ext} {N : NanInv} {a : MissArgs d} {A : KDEArgs d} {K : KDE d} (hF : Spec.Fills a A)
    (hK : KDE.init E A = .ok K) : ∃ k, MissKDE.init a = .ok k ∧
      ∀ (srt : List ℝ → List ℕ) (points : List (List ℝ)) (reflect : Option (List ReflRow)) (params : ParamArg)
        (prob : Bool) (sel sq), paramSel d params = .ok (sel, sq) → ¬ Spec.HasMissing a.dataset sel →
        (sel = none ∨ ∃ B, matrixInvertN E N k.matrix = .ok B) →
        k.density E N (points.map fun r => r.map some) reflect params prob =
          (K.density E srt (some (.rows points)) (Reflect.ofChecked reflect) params false prob).1.map
            fun p => p.2.vals.map some := by
  obtain ⟨refl, weights, cov, bw0, D, out, eff, ext, g1, g2, g3, g4, g5, g6, g7, g8, g9, g10, hKe⟩ := init_inv hK
  have hlen : a.dataset.length = A.dataset.length := hF.dataset.length_eq
  have hne : a.dataset ≠ [] := by
    intro h
    apply g2
    rw [← List.length_eq_zero_iff, ← hlen, h]
    rfl
  obtain ⟨covN, hcovN, hcovE⟩ := covArgN_fill hlen weights A.covariance g4
  have e1 : checkReflect (a.dataset.map fillZero) (Reflect.ofChecked a.reflect) = .ok refl := by
    rw [checkReflect_indep _ A.dataset, ← hF.reflect]; exact g1
  have e3 : checkWeights a.dataset.length a.weights = .ok weights := by rw [hlen, ← hF.weights]; exact g3
  have e4 : covArgN a.dataset weights a.covariance = .ok covN := by rw [← hF.covariance]; exact hcovN
  have e5 : bwMatrix d (effNum a.dataset.length weights a.neff) a.diagonal a.bandwidth = .ok bw0 := by
    rw [hlen, ← hF.neff, ← hF.diagonal, ← hF.bandwidth]; exact g5
  have e6 : getDistribution a.kernel = .ok D := by rw [← hF.kernel]; exact g6
  refine ⟨_, missInit_ok e1 hne e3 e4 e5 e6, ?_⟩
  intro srt points reflect params prob sel sq hsel hm hinv
  rw [density_probability, missDensity_same (K := K) srt (by rw [hKe]) points reflect params prob]
  · have ht : ∀ (M : Matrix (Fin d) (Fin d) Num), MissKDE.totalWeight
        { dataset := a.dataset, weights := weights, matrix := M, dist := D, reflect := refl } = K.totalWeight := by
      intro M
      rw [hKe]
      cases weights with
      | none => simp [MissKDE.totalWeight, KDE.totalWeight, hlen]
      | some w => rfl
    rw [ht]
  · rw [hKe]
    intro sel' sq' cols r hsel'
    have : sel' = sel := by rw [hsel] at hsel'; exact (congrArg Prod.fst (Except.ok.inj hsel')).symm
    subst this
    cases sel' with
    | none =>
      have hall : List.Forall₂ (fun x y => ∀ i : Fin d, True → x i = some (y i)) a.dataset A.dataset :=
        forall₂_complete hF.dataset _ fun x hx i _ hi => hm ⟨x, hx, i, by simp, hi⟩
      have hdata : a.dataset = A.dataset.map liftCol := by
        clear hm hcovE hcovN e1 e3 e4 e5 e6 hinv hK g1 g2 g3 g4 g5 g6 g7 g8 g9 g10 hlen hne
        generalize A.dataset = l' at hall
        generalize a.dataset = l at hall
        induction hall with
        | nil => rfl
        | @cons x y l l' hx _ ih =>
          rw [List.map_cons, ← ih]
          congr 1
          funext i
          exact hx i trivial
      refine evalKernel_same ?_ ?_ ?_ ?_ ?_ ?_ ?_ cols r
      · rfl
      · ext1 i j
        simp only [Matrix.of_apply, Kernel.init]
        rw [hcovE (fun _ => True) hall i j trivial trivial, hF.rescale, Num.mul_some]
      · rfl
      · rfl
      · exact fun w h => checkWeights_length e3 w h
      · exact fun w h => checkWeights_length g3 w h
      · intro white
        simp only
        rw [onesIfNone_fill hlen, hdata]
        exact sameSums_lift D white A.dataset _
    | some ps =>
      have hall : List.Forall₂ (fun x y => ∀ i : Fin d, i ∈ ps → x i = some (y i)) a.dataset A.dataset :=
        forall₂_complete hF.dataset _ fun x hx i hi hn => hm ⟨x, hx, i, by rintro _ ⟨⟩; exact hi, hn⟩
      refine evalKernel_same_params ?_ ps ?_ ?_ ?_ ?_ ?_ cols r
      · rfl
      · exact hinv.resolve_left (by simp)
      · ext1 i j
        simp only [Matrix.of_apply, Matrix.submatrix_apply, Kernel.init]
        rw [hcovE (fun i => i ∈ ps) hall _ _ (List.get_mem ps i) (List.get_mem ps j), hF.rescale, Num.mul_some]
      · exact fun w h => checkWeights_length e3 w h
      · rfl
      · simp only [selectColsN, selectCols, List.map_map]
        clear hm hcovE hcovN e1 e3 e4 e5 e6 hinv hK g1 g2 g3 g4 g5 g6 g7 g8 g9 g10 hlen hne
        generalize A.dataset = l' at hall
        generalize a.dataset = l at hall
        induction hall with
        | nil => rfl
        | @cons x y l l' hx _ ih =>
          rw [List.map_cons, List.map_cons, ih]
          congr 1
          funext i
          exact hx _ (List.get_mem ps i)

/-! ### The box kernel -/

lemma onesIfNone_complete (data : List (Fin d → Num)) (w : Option (List ℝ)) :
    onesIfNone (completeRows data) (w.map (completeWeights data)) = completeWeights data (onesIfNone data w) := by
  cases w with
  | none => simp only [onesIfNone, Option.map_none, completeWeights_ones]
  | some w => rfl

lemma sum_valid {n : ℕ} {a : WArg} {w : List ℝ} (h : checkWeights n a = .ok (some w)) : 0 < w.sum := by
  rcases checkWeights_inv h with ⟨_, hh⟩ | ⟨l, _, hl, hv⟩
  · cases hh
  obtain rfl := Option.some.inj hl
  obtain ⟨_, h0, x, hx, hx0⟩ := hv
  have := List.single_le_sum h0 x hx
  linarith

/-- **C145**, the box kernel with an explicit covariance drops the incomplete points: the density is that of the KDE
`K` of the complete points with the same covariance and bandwidth, and `pdf` is the one of `K` times the fraction of
the weight that is complete.  So `pdf` does not integrate to one. -/
theorem C145_box {E : Ext} {N : NanInv} {a : MissArgs d} {k : MissKDE d} {A : KDEArgs d} {K : KDE d}
    (h : MissKDE.init a = .ok k) (hK : KDE.init E A = .ok K) (hbox : getDistribution a.kernel = .ok .box)
    (hker : A.kernel = a.kernel) {C : Matrix (Fin d) (Fin d) ℝ} (hc : a.covariance = some C)
    (hc' : A.covariance = some C) {b : ℝ} (hb : a.bandwidth = .val (.num b)) (hb' : A.bandwidth = .val (.num b))
    (hdiag : A.diagonal = a.diagonal) (hresc : A.rescale = a.rescale) (hrefl : A.reflect = Reflect.ofChecked a.reflect)
    (hdata : A.dataset = completeRows a.dataset) (hweights : K.weights = k.weights.map (completeWeights a.dataset))
    (srt : List ℝ → List ℕ) (points : List (List ℝ)) (reflect : Option (List ReflRow)) :
    k.density E N (points.map fun r => r.map some) reflect .none false =
      (K.density E srt (some (.rows points)) (Reflect.ofChecked reflect) .none false false).1.map
        (fun p => p.2.vals.map some) ∧
    k.density E N (points.map fun r => r.map some) reflect .none true =
      (K.density E srt (some (.rows points)) (Reflect.ofChecked reflect) .none false true).1.map
        (fun p => p.2.vals.map fun v => some (v * (K.totalWeight / k.totalWeight))) := by
  obtain ⟨refl', weights', cov', bw0', D', out, eff, ext, g1, g2, g3, g4, g5, g6, g7, g8, g9, g10, hKe⟩ := init_inv hK
  obtain ⟨refl, weights, cov, bw0, D, e1, e2, e3, e4, e5, e6, hke⟩ := missInit_inv h
  have hD : D = .box := by rw [hbox] at e6; exact (Except.ok.inj e6).symm
  have hD' : D' = .box := by rw [hker, hbox] at g6; exact (Except.ok.inj g6).symm
  subst hD hD'
  have hcov : cov = Matrix.of fun i j => some (C i j) := by
    rw [hc] at e4; exact (Except.ok.inj e4).symm
  have hcov' : cov' = C := by rw [hc'] at g4; exact (Except.ok.inj g4).symm
  have hbw : bw0 = bw0' := by
    rw [hb] at e5
    rw [hb', hdiag] at g5
    simp only [bwMatrix, computeBw, Except.map, Except.ok.injEq] at e5 g5
    rw [← e5, ← g5]
  have hre : refl = refl' := by
    rw [hrefl] at g1
    rw [checkReflect_indep _ A.dataset, g1] at e1
    exact (Except.ok.inj e1).symm
  have hw' : weights' = weights.map (completeWeights a.dataset) := by
    rw [hKe, hke] at hweights
    exact hweights
  have hkw : ∀ w, weights = some w → w.length = a.dataset.length := checkWeights_length e3
  have main : ∀ prob, k.density E N (points.map fun r => r.map some) reflect .none prob =
      (K.density E srt (some (.rows points)) (Reflect.ofChecked reflect) .none false false).1.map
        fun p => p.2.vals.map fun v => some (if prob then v / k.totalWeight else v) := by
    intro prob
    refine missDensity_same srt (by rw [hKe, hke, hre]) points reflect .none prob ?_
    intro sel sq cols r hsel
    have hs : sel = none := (congrArg Prod.fst (Except.ok.inj hsel)).symm
    subst hs
    rw [hKe, hke]
    refine evalKernel_same ?_ ?_ ?_ ?_ ?_ ?_ ?_ cols r
    · rfl
    · ext1 i j
      simp only [Matrix.of_apply, Kernel.init, hcov, hcov', hbw, hresc, Num.mul_some]
    · rfl
    · rfl
    · exact hkw
    · exact checkWeights_length g3
    · intro white
      simp only
      rw [hdata, hw', onesIfNone_complete]
      exact sameSums_box white a.dataset _
  refine ⟨by simpa using main false, ?_⟩
  rw [main true, density_probability E srt K points _ .none true]
  have hpos : K.totalWeight ≠ 0 := by
    rw [hKe]
    simp only [KDE.totalWeight]
    cases weights' with
    | none => simpa using g2
    | some w => exact (sum_valid g3).ne'
  have : ∀ v : ℝ, v / k.totalWeight = v / K.totalWeight * (K.totalWeight / k.totalWeight) := by
    intro v
    rw [div_mul_div_cancel₀ hpos]
  congr 1
  funext p
  apply List.map_congr_left
  intro v _
  exact congrArg some (this v)

/-! ### Boundaries -/

/-- **C145** with boundaries: for kernels other than the box, the density is NaN at every point that is not outside
of a boundary. -/
theorem C145_reflect {E : Ext} {N : NanInv} {a : MissArgs d} {k : MissKDE d} (h : MissKDE.init a = .ok k)
    (hk : getDistribution a.kernel ≠ .ok .box) (points : List (List Num)) {rows : List ReflRow} (hrows : rows.length = d)
    (prob : Bool) (hm : Spec.HasMissing a.dataset none) {vals : List Num}
    (hv : k.density E N points (some rows) .none prob = .ok vals) (n : ℕ) (v : Num) (hn : vals[n]? = some v)
    (hin : ∀ i lo hi, rows[i]? = some (some (lo, hi)) → ∀ x, (points.getD i []).getD n none = some x →
      (∀ b, lo = some b → b ≤ x) ∧ (∀ b, hi = some b → x ≤ b)) : v = none := by
  obtain ⟨cols, vals0, hcols, hv0, hvals⟩ := missDensity_inv (sel := none) (sq := false) rfl hv
  obtain ⟨reflect, weights, cov, bw0, D, -, -, -, -, -, hD, hke⟩ := missInit_inv h
  have hD' : D ≠ .box := fun hh => hk (by rw [hD, hh])
  have hvals0 : ∃ u, vals0[n]? = some u ∧ (u = none → v = none) := by
    rw [hvals] at hn
    cases prob with
    | false => exact ⟨v, by simpa using hn, id⟩
    | true =>
      simp only [if_true, List.getElem?_map] at hn
      cases hu : vals0[n]? with
      | none => rw [hu] at hn; cases hn
      | some u =>
        rw [hu] at hn
        refine ⟨u, rfl, ?_⟩
        rintro rfl
        simpa [eq_comm] using hn
  obtain ⟨u, hu, huv⟩ := hvals0
  apply huv
  rw [hke] at hv0
  unfold MissKDE.evalKernel MissKDE.defaultReflect at hv0
  simp only at hv0
  split at hv0
  · cases hv0
  · rename_i r hr
    have hr' := checkReflect_rows hrows hr
    subst hr'
    split at hv0
    · cases hv0
    · obtain ⟨hp, w, M, white, hw, _, _, hh | ⟨rows', hl, hh, hres⟩⟩ := densityCoreN_inv hv0
      · cases hh.1
      · obtain rfl := Option.some.inj hh
        have key := reflectFoldN_none D.evalN white a.dataset (cols.cols.map fun c => fun i => c (Fin.cast hp.symm i)) w
          (fun i => rows.get (Fin.cast hl.symm i)) (List.finRange d)
          (evaluateN white a.dataset (cols.cols.map fun c => fun i => c (Fin.cast hp.symm i)) w D.evalN) (by
            have hnone := evaluateN_missing D hD' white a.dataset
              (cols.cols.map fun c => fun i => c (Fin.cast hp.symm i)) w hw (hasMissing_none hm)
            have hlen := evaluateN_length D.evalN white a.dataset
              (cols.cols.map fun c => fun i => c (Fin.cast hp.symm i)) w
            rw [List.forall₂_iff_get]
            exact ⟨hlen.symm, fun i h1 h2 _ => hnone _ (List.get_mem _ _)⟩)
        rw [hres, List.getElem?_map] at hu
        rw [List.forall₂_iff_get] at key
        obtain ⟨klen, key⟩ := key
        generalize (List.finRange d).foldl _ _ = res at hu klen key
        cases hz : res[n]? with
        | none => rw [hz] at hu; cases hu
        | some z =>
          rw [hz] at hu
          obtain ⟨hnr, hzn⟩ := List.getElem?_eq_some_iff.mp hz
          have hnc : n < (cols.cols.map fun c => fun i : Fin d => c (Fin.cast hp.symm i)).length := by rw [klen]; exact hnr
          have hz0 : z = none := by
            rw [← hzn]
            refine key n hnc hnr ?_
            intro i b hb
            simp only [List.get_eq_getElem, List.getElem_map]
            have hnc' : n < cols.cols.length := by simpa using hnc
            have hcoord : cols.cols[n] (Fin.cast hp.symm i) = (points.getD i []).getD n none := by
              cases points with
              | nil => cases hcols
              | cons r rs =>
                simp only [toColsN] at hcols
                split at hcols
                · obtain rfl := Except.ok.inj hcols
                  simp only [List.getElem_map, List.getElem_range, List.get_eq_getElem]
                  have hir : (i : ℕ) < (r :: rs).length := by
                    have : (r :: rs).length = d := hp
                    omega
                  rw [List.getD_eq_getElem _ _ hir]
                  rfl
                · cases hcols
            rw [hcoord]
            cases hx : (points.getD i []).getD n none with
            | none => rfl
            | some x =>
              obtain ⟨lo, hi⟩ := b
              have hii : (i : ℕ) < rows.length := by rw [hrows]; exact i.2
              have hri : rows[(i : ℕ)]? = some (some (lo, hi)) := by
                rw [List.getElem?_eq_getElem hii]
                simpa using hb
              obtain ⟨h1, h2⟩ := hin i lo hi hri x hx
              simp only [outsideRowN, outsideRow, Bool.or_eq_false_iff]
              constructor
              · cases lo with
                | none => rfl
                | some b => simpa using h1 b rfl
              · cases hi with
                | none => rfl
                | some b => simpa using h2 b rfl
          rw [hz0] at hu
          simpa [eq_comm] using hu

/-! ### Missing coordinates of evaluation points -/

/-- **C145**, evaluation points: at a point with a missing coordinate the density is NaN, and zero for the box kernel. -/
theorem C145_points {E : Ext} {N : NanInv} (hN : Spec.Propagates N) {a : MissArgs d} {k : MissKDE d}
    (h : MissKDE.init a = .ok k) (hr : a.reflect = none) (points : List (List Num)) (prob : Bool) {vals : List Num}
    (hv : k.density E N points none .none prob = .ok vals) (n : ℕ) (v : Num) (hn : vals[n]? = some v) (i : Fin d)
    (hi : (points.getD i []).getD n none = none) :
    v = if getDistribution a.kernel = .ok .box then some 0 else none := by
  obtain ⟨cols, vals0, hcols, hv0, hvals⟩ := missDensity_inv (sel := none) (sq := false) rfl hv
  obtain ⟨reflect, weights, cov, bw0, D, hr', hne, -, -, -, hD, hke⟩ := missInit_inv h
  have hrefl : reflect = none := by
    rw [hr] at hr'
    simp only [Reflect.ofChecked, checkReflect] at hr'
    exact (Except.ok.inj hr').symm
  subst hrefl
  have key : ∀ u, vals0[n]? = some u → u = if D = .box then some 0 else none := by
    intro u hu
    have hkd : k.dist = D := by rw [hke]
    have hkr : k.reflect = none := by rw [hke]
    have hks : k.dataset = a.dataset := by rw [hke]
    unfold MissKDE.evalKernel MissKDE.defaultReflect at hv0
    simp only [hkr, Reflect.ofChecked, checkReflect] at hv0
    split at hv0
    · cases hv0
    · rename_i minv hinv
      obtain ⟨hp, w, M, white, hw, hM, _, hh | ⟨rows', hl, hh, hres⟩⟩ := densityCoreN_inv hv0
      swap
      · cases hh
      have hnorm : ∃ x, normN k.matrix = some x := by
        unfold normN
        cases hc : completeMatrix k.matrix with
        | some M => exact ⟨_, rfl⟩
        | none =>
          exfalso
          have hex : ∃ i j, k.matrix i j = none := by
            unfold completeMatrix at hc
            split at hc
            · cases hc
            · rename_i hx
              push Not at hx
              exact hx
          rw [matrixInvertN_nan hN hex hinv] at hM
          cases hM
      obtain ⟨x, hx⟩ := hnorm
      rw [hh.2] at hu
      simp only [evaluateN, List.map_map, List.getElem?_map] at hu
      cases hcn : cols.cols[n]? with
      | none => rw [hcn] at hu; cases hu
      | some c =>
        rw [hcn] at hu
        simp only [Option.map_some, Function.comp, Option.some.injEq] at hu
        obtain ⟨hnc, hcc⟩ := List.getElem?_eq_some_iff.mp hcn
        have hcoord : c (Fin.cast hp.symm i) = none := by
          rw [← hcc, ← hi]
          cases points with
          | nil => cases hcols
          | cons r rs =>
            simp only [toColsN] at hcols
            split at hcols
            · obtain rfl := Except.ok.inj hcols
              simp only [List.getElem_map, List.getElem_range, List.get_eq_getElem]
              have hir : (i : ℕ) < (r :: rs).length := by
                have : (r :: rs).length = d := hp
                omega
              rw [List.getD_eq_getElem _ _ hir]
              rfl
            · cases hcols
        have hdist : ∀ y : Fin d → Num, whitenedDist2N white (fun i => c (Fin.cast hp.symm i)) y = none :=
          fun y => whitenedDist2N_point white _ y i hcoord
        simp only [hdist] at hu
        rw [hkd, hx] at hu
        have hzip : ∀ (f : ℝ → Num) (l : List (Fin d → Num)), w.length = l.length →
            List.zipWith (fun _ a => f a) l w = w.map f := by
          intro f l hl
          clear hw hv0 hvals hh hu
          induction w generalizing l with
          | nil => cases l <;> simp_all
          | cons a w ih =>
            cases l with
            | nil => simp at hl
            | cons y l => simp [ih l (by simpa using hl)]
        rw [hzip _ _ hw] at hu
        by_cases hb : D = .box
        · subst hb
          rw [if_pos rfl, ← hu]
          simp only [evalN_box_none, Num.mul_some, zero_mul]
          have : (w.map fun _ => (some 0 : Num)) = (w.map fun _ => (0 : ℝ)).map some := by simp
          rw [this, Num.sum_some]
          simp
        · rw [if_neg hb, ← hu, evalN_none D hb]
          have hwne : w ≠ [] := by
            rintro rfl
            apply hne
            rw [← hks, ← List.length_eq_zero_iff, ← hw]
            rfl
          rw [Num.sum_none]
          · simp
          · obtain ⟨a0, w', rfl⟩ := List.exists_cons_of_ne_nil hwne
            simp
  have hDb : (getDistribution a.kernel = .ok .box) ↔ D = .box := by
    rw [hD]
    exact ⟨fun h => Except.ok.inj h, fun h => by rw [h]⟩
  simp only [hDb]
  rw [hvals] at hn
  cases prob with
  | false => exact key v (by simpa using hn)
  | true =>
    simp only [if_true, List.getElem?_map] at hn
    cases hu : vals0[n]? with
    | none => rw [hu] at hn; cases hn
    | some u =>
      rw [hu] at hn
      have := key u hu
      simp only [Option.map_some, Option.some.injEq] at hn
      rw [← hn, this]
      split <;> simp

/-! ### The claim fails for the box kernel -/

/-- One-dimensional data `[NaN, 0]`, covariance and bandwidth one. -/
noncomputable def missExample (D : Dist) : MissArgs 1 where
  dataset := [fun _ => none, fun _ => some 0]
  kernel := .cls D
  covariance := some 1
  bandwidth := .val (.num 1)

lemma missExample_init (D : Dist) : MissKDE.init (missExample D) = .ok
    { dataset := [fun _ => none, fun _ => some 0]
      weights := none
      matrix := Matrix.of fun i j => some ((1 : Matrix (Fin 1) (Fin 1) ℝ) i j)
      dist := D
      reflect := none } := by
  have := missInit_ok (a := missExample D) (reflect := none) (weights := none)
    (cov := Matrix.of fun i j => some ((1 : Matrix (Fin 1) (Fin 1) ℝ) i j)) (bw0 := Matrix.of fun _ _ => 1) (D := D)
    rfl (by simp [missExample]) rfl rfl (by simp [missExample, bwMatrix, computeBw, Except.map]) rfl
  rw [this]
  congr 2
  ext1 i j
  simp [missExample, rescaleBw]

lemma cholesky_one_dim : cholesky (1 : Matrix (Fin 1) (Fin 1) ℝ) ≠ none := by
  obtain ⟨U, hU⟩ := cholesky_of_posDef (A := (1 : Matrix (Fin 1) (Fin 1) ℝ)) Matrix.PosDef.one
  rw [hU]
  simp

lemma missExample_density (E : Ext) (N : NanInv) (D : Dist) {k : MissKDE 1} (hk : MissKDE.init (missExample D) = .ok k) :
    ∃ vals, vals.length = 1 ∧ k.density E N [[some 0]] none .none false = .ok vals ∧
      (D = .box → ∀ v ∈ vals, v ≠ none) := by
  rw [missExample_init] at hk
  obtain rfl := Except.ok.inj hk
  obtain ⟨U, hU⟩ := Option.ne_none_iff_exists'.mp cholesky_one_dim
  have hinv : matrixInvert E (1 : Matrix (Fin 1) (Fin 1) ℝ) = 1 := by simp [matrixInvert]
  have hcols : toColsN [[some 0]] = .ok (liftCols ⟨1, [fun _ => 0]⟩) := by
    simp only [toColsN]
    rw [if_pos (by simp)]
    refine congrArg Except.ok (cols_ext rfl ?_)
    simp only [liftCols, List.map_map]
    rw [show List.range ([some (0 : ℝ)] : List Num).length = [0] from rfl]
    simp only [List.map_cons, List.map_nil]
    congr 1
    funext i
    have : i = 0 := Subsingleton.elim _ _
    subst this
    rfl
  have hdens : ∃ vals : List Num, vals.length = 1 ∧
      densityCoreN D (some (Real.sqrt |(1 : Matrix (Fin 1) (Fin 1) ℝ).det|))
        (Matrix.of fun i j => some ((1 : Matrix (Fin 1) (Fin 1) ℝ) i j)) (liftCols ⟨1, [fun _ => 0]⟩)
        [fun _ => none, fun _ => some 0] none none = .ok vals := by
    have hn1 : ¬ (some (Real.sqrt |(1 : Matrix (Fin 1) (Fin 1) ℝ).det|) = some 0) := by simp
    unfold densityCoreN
    rw [dif_pos (show (liftCols ⟨1, [fun _ => 0]⟩).dim = 1 from rfl), completeMatrix_some]
    simp only [hU, if_neg hn1]
    refine ⟨_, ?_, rfl⟩
    simp [evaluateN, liftCols]
  obtain ⟨vals, hl, hd⟩ := hdens
  refine ⟨vals, hl, ?_, ?_⟩
  · unfold MissKDE.density
    simp only [paramSel, MissKDE.defaultReflect, Reflect.ofChecked, reflectLength, hcols, MissKDE.evalKernel, checkReflect,
      matrixInvertN, completeMatrix_some, hinv, normN, Option.map_some, hd]
    simp
  · rintro rfl v hv rfl
    have := densityCoreN_same (D := .box) (Real.sqrt |(1 : Matrix (Fin 1) (Fin 1) ℝ).det|) 1 ⟨1, [fun _ => 0]⟩
      [fun _ => none, fun _ => some 0] (completeRows [fun _ => none, fun _ => some 0]) none none none (by simp) (by simp)
      (fun white => by
        have := sameSums_box white [fun _ => none, fun _ => some 0] (onesIfNone
          ([fun _ => none, fun _ => some 0] : List (Fin 1 → Num)) none)
        rw [← onesIfNone_complete] at this
        exact this)
    rw [hd] at this
    cases hdc : densityCore .box (Real.sqrt |(1 : Matrix (Fin 1) (Fin 1) ℝ).det|) 1 ⟨1, [fun _ => 0]⟩
        (completeRows [fun _ => none, fun _ => some 0]) none none with
    | error e => rw [hdc] at this; cases this
    | ok l =>
      rw [hdc] at this
      rw [Except.ok.inj this] at hv
      simp at hv

/-- A model of LAPACK that propagates NaN. -/
def nanAll : NanInv := fun {_} A => .ok A

lemma nanAll_propagates : Spec.Propagates nanAll := by
  intro m A B hA hB
  rw [← Except.ok.inj hB]
  exact hA

lemma missExample_missing (D : Dist) : Spec.HasMissing (missExample D).dataset none :=
  ⟨fun _ => none, by simp [missExample], 0, by simp, rfl⟩

/-- **C145** is false: the box kernel with an explicit covariance returns numbers for the data `[NaN, 0]`. -/
theorem C145_refuted : ¬ C145_Claim := by
  intro hC
  obtain ⟨vals, hl, hv, hne⟩ := missExample_density ⟨fun A => A, id⟩ nanAll .box (missExample_init .box)
  match vals, hl with
  | [v], _ =>
    exact hne rfl v (by simp) (hC 1 ⟨fun A => A, id⟩ nanAll nanAll_propagates _ _ (missExample_init .box) rfl _ .none false
      none false rfl (missExample_missing .box) _ hv v (by simp))

/-- Concrete case of the hypotheses of `C145_partial`: the Gaussian kernel on `[NaN, 0]` returns NaN at 0. -/
example : ∃ k vals, MissKDE.init (missExample .gaussian) = .ok k ∧
    k.density ⟨fun A => A, id⟩ nanAll [[some 0]] none .none false = .ok vals ∧ vals.length = 1 ∧ ∀ v ∈ vals, v = none := by
  obtain ⟨vals, hl, hv, _⟩ := missExample_density ⟨fun A => A, id⟩ nanAll .gaussian (missExample_init .gaussian)
  exact ⟨_, vals, missExample_init _, hv, hl, C145_partial nanAll_propagates (missExample_init _) rfl
    (Or.inl (by simp [missExample, getDistribution])) _ .none false rfl (missExample_missing _) hv⟩

/-- Concrete case of the hypotheses of `C145_covariance`: data `[NaN, 0, 1]` without an explicit covariance. -/
example : ∃ k, MissKDE.init ({ dataset := [fun _ => none, fun _ => some 0, fun _ => some 1] } : MissArgs 1) = .ok k ∧
    ∃ e, k.density ⟨fun A => A, id⟩ nanAll [[some 0]] none .none false = .error e := by
  have hc : ∃ cov, covArgN ([fun _ => none, fun _ => some 0, fun _ => some 1] : List (Fin 1 → Num)) none none = .ok cov := by
    simp only [covArgN, npCovN]
    rw [if_neg (by simp [covFact])]
    exact ⟨_, rfl⟩
  obtain ⟨cov, hcov⟩ := hc
  have hi := missInit_ok (a := ({ dataset := [fun _ => none, fun _ => some 0, fun _ => some 1] } : MissArgs 1))
    (reflect := none) (weights := none) (cov := cov) (bw0 := Matrix.of fun _ _ => scottFactor 1 3) (D := .gaussian)
    rfl (by simp) rfl hcov (by simp [bwMatrix, computeBw, Except.map, effNum]) rfl
  exact ⟨_, hi, C145_covariance nanAll_propagates hi rfl _ none .none false (sel := none) (sq := false) rfl
    ⟨fun _ => none, by simp, 0, by simp, rfl⟩⟩

/-- Two-dimensional data with a missing value in the first dimension. -/
noncomputable def missExample2 : MissArgs 2 where
  dataset := [![none, some 0], ![some 1, some 2]]
  kernel := .cls .box
  covariance := some 1
  bandwidth := .val (.num 1)

/-- Concrete case of the hypotheses of `C145_params`: two dimensions, a missing value in the first only; the second
is evaluated. -/
example : ∃ k, MissKDE.init missExample2 = .ok k ∧ ¬ Spec.HasMissing missExample2.dataset (some [1]) ∧
    paramSel 2 (.scalar 1) = .ok (some [1], true) ∧ ∃ B, matrixInvertN ⟨fun A => A, id⟩ nanAll k.matrix = .ok B := by
  have hi := missInit_ok (a := missExample2)
    (reflect := none) (weights := none) (cov := Matrix.of fun i j => some ((1 : Matrix (Fin 2) (Fin 2) ℝ) i j))
    (bw0 := Matrix.of fun _ _ => 1) (D := .box) rfl (by simp [missExample2]) rfl rfl
    (by simp [missExample2, bwMatrix, computeBw, Except.map]) rfl
  refine ⟨_, hi, ?_, rfl, ?_⟩
  · rintro ⟨x, hx, i, hi, hn⟩
    have : i = 1 := by simpa using hi [1] rfl
    subst this
    simp only [missExample2, List.mem_cons, List.not_mem_nil, or_false] at hx
    rcases hx with rfl | rfl <;> simp at hn
  · unfold matrixInvertN
    split
    · exact ⟨_, rfl⟩
    · exact ⟨_, rfl⟩

/-- Concrete case of the hypotheses of `C145_box`: the data `[NaN, 0]` with the weights 1 and 2; `pdf` is two thirds of
that of the complete point. -/
example : ∃ (k : MissKDE 1) (K : KDE 1), MissKDE.init { missExample .box with weights := .arr [.fin 1, .fin 2] } = .ok k ∧
    KDE.init ⟨fun A => A, id⟩ { dataset := [fun _ => 0]
                                weights := .arr [.fin 2]
                                kernel := .cls .box
                                bandwidth := .val (.num 1)
                                covariance := some 1 } = .ok K ∧
    ([fun _ => 0] : List (Fin 1 → ℝ)) = completeRows (missExample .box).dataset ∧
    K.weights = k.weights.map (completeWeights (missExample .box).dataset) ∧ K.totalWeight / k.totalWeight = 2 / 3 := by
  have h1 : completeCol (fun _ : Fin 1 => (none : Num)) = none := by simp [completeCol]
  have h2 : completeCol (fun _ : Fin 1 => (some 0 : Num)) = some fun _ => 0 := completeCol_lift fun _ => 0
  obtain ⟨K, hK, hw⟩ := C16_accepted ⟨fun A => A, id⟩ [fun _ : Fin 1 => (0 : ℝ)] (by simp) [2]
    ⟨rfl, by simp, 2, by simp, by norm_num⟩ .box rfl 1 (1 : Matrix (Fin 1) (Fin 1) ℝ) (by simp)
  have hcw : checkWeights 2 (.arr [.fin 1, .fin 2]) = .ok (some [1, 2]) := by
    have := checkWeights_valid (n := 2) (l := [1, 2]) ⟨rfl, by simp, 1, by simp, by norm_num⟩
    simpa using this
  have hk := missInit_ok (a := { missExample .box with weights := .arr [.fin 1, .fin 2] }) (reflect := none)
    (weights := some [1, 2]) (cov := Matrix.of fun i j => some ((1 : Matrix (Fin 1) (Fin 1) ℝ) i j))
    (bw0 := Matrix.of fun _ _ => 1) (D := .box) rfl (by simp [missExample]) hcw rfl
    (by simp [missExample, bwMatrix, computeBw, Except.map]) rfl
  refine ⟨_, K, hk, by simpa using hK, ?_, ?_, ?_⟩
  · simp [missExample, completeRows, h1, h2]
  · rw [hw]
    simp [missExample, completeWeights, h1, h2]
  · simp only [KDE.totalWeight, hw, MissKDE.totalWeight]
    norm_num

/-- Concrete case of the hypotheses of `C145_reflect` and `C145_points`: the triweight kernel on `[NaN, 0]`, evaluated at
0 and at NaN, with a boundary at -1 and without boundaries. -/
example (x : Num) (rows : Option (List ReflRow)) (hr : rows = none ∨ rows = some [some (some (-1), none)]) :
    ∃ k vals, MissKDE.init (missExample .triweight) = .ok k ∧
      k.density ⟨fun A => A, id⟩ nanAll [[x]] rows .none false = .ok vals ∧ vals.length = 1 := by
  obtain ⟨U, hU⟩ := Option.ne_none_iff_exists'.mp cholesky_one_dim
  have hinv : matrixInvert ⟨fun A => A, id⟩ (1 : Matrix (Fin 1) (Fin 1) ℝ) = 1 := by simp [matrixInvert]
  have hcols : toColsN [[x]] = .ok ⟨1, [fun _ => x]⟩ := by
    simp only [toColsN]
    rw [if_pos (by simp)]
    refine congrArg Except.ok (cols_ext rfl ?_)
    rw [show List.range ([x] : List Num).length = [0] from rfl]
    simp only [List.map_cons, List.map_nil]
    congr 1
    funext i
    have : i = 0 := Subsingleton.elim _ _
    subst this
    rfl
  have hdens : ∃ vals : List Num, vals.length = 1 ∧
      densityCoreN .triweight (some (Real.sqrt |(1 : Matrix (Fin 1) (Fin 1) ℝ).det|))
        (Matrix.of fun i j => some ((1 : Matrix (Fin 1) (Fin 1) ℝ) i j)) ⟨1, [fun _ => x]⟩
        [fun _ => none, fun _ => some 0] none rows = .ok vals := by
    have hn1 : ¬ (some (Real.sqrt |(1 : Matrix (Fin 1) (Fin 1) ℝ).det|) = some 0) := by simp
    unfold densityCoreN
    rw [dif_pos rfl, completeMatrix_some]
    simp only [hU, if_neg hn1]
    rcases hr with rfl | rfl
    · refine ⟨_, ?_, rfl⟩
      simp [evaluateN]
    · dsimp only
      rw [dif_pos (by simp)]
      refine ⟨_, ?_, rfl⟩
      simp [List.finRange_succ, reflectStepN, reflectAddN, evaluateN]
  obtain ⟨vals, hl, hd⟩ := hdens
  refine ⟨_, vals, missExample_init _, ?_, hl⟩
  unfold MissKDE.density
  rcases hr with rfl | rfl
  · simp only [paramSel, MissKDE.defaultReflect, Reflect.ofChecked, reflectLength, hcols, MissKDE.evalKernel, checkReflect,
      matrixInvertN, completeMatrix_some, hinv, normN, Option.map_some, hd]
    simp
  · have hc : checkReflect (([fun _ => none, fun _ => some 0] : List (Fin 1 → Num)).map fillZero)
        (Reflect.ofChecked (some [some (some (-1), none)])) = .ok (some [some (some (-1), none)]) :=
      by simp [Reflect.ofChecked, checkReflect, reflectRows, checkDims, Except.map, ReflRow.toDim, checkDim, RefDim.good, orderedPair, fillLo,
        fillHi]
    simp only [paramSel, MissKDE.defaultReflect, hcols, MissKDE.evalKernel, hc, matrixInvertN, completeMatrix_some, hinv,
      normN, Option.map_some, hd]
    simp [Reflect.ofChecked, reflectLength, numSel]

end Kalepy
