import Verif.Props.Evaluate
import Verif.Props.Covariance
import Verif.Props.Quantiles

/-!
# Invariances of the class: order of the data (C03), scale of the weights (C06)
-/

namespace Kalepy

open Matrix

variable {d : ℕ}

/-! ### The kernel sum -/

lemma densityCore_perm {m : ℕ} (D : Dist) (nrm : ℝ) (minv : Matrix (Fin m) (Fin m) ℝ) (cols : Cols ℝ)
    (data data' : List (Fin m → ℝ)) (w w' : Option (List ℝ)) (refl : Option (List ReflRow))
    (hw : ∀ l, w = some l → l.length = data.length) (hw' : ∀ l, w' = some l → l.length = data'.length)
    (hp : (Spec.weighted data' w').Perm (Spec.weighted data w)) :
    densityCore D nrm minv cols data' w' refl = densityCore D nrm minv cols data w refl := by
  have hb : badWeights data w = false := by
    cases w with | none => rfl | some l => exact badWeights_some_false (hw l rfl)
  have hb' : badWeights data' w' = false := by
    cases w' with | none => rfl | some l => exact badWeights_some_false (hw' l rfl)
  obtain ⟨n, pts⟩ := cols
  by_cases hn : n = m
  · subst hn
    rw [densityCore_eq_plan, densityCore_eq_plan, corePlan_eq_env _ _ _ _ _ hb, corePlan_eq_env _ _ _ _ _ hb']
    cases planEnv nrm minv refl with
    | error e => rfl
    | ok e =>
      simp only [Except.map, Except.ok.injEq]
      refine List.map_congr_left fun x _ => ?_
      congr 1
      refine (reflAt_rel (n := 1) (fun a x => a 0 = x) rfl (by
        intro a b x y h1 h2; simp [h1, h2]) e.1 D.eval (fun _ => data') (fun _ => usedWeights data' w')
        data (usedWeights data w) ?_ e.2 x)
      intro f x
      apply kval_perm
      rw [weighted_eq, weighted_eq] at hp
      have h1 := hp.map (Prod.map f id)
      rwa [List.zip_map_left, List.zip_map_left]
  · rw [densityCore_dim_ne _ _ _ _ hn, densityCore_dim_ne _ _ _ _ hn]

lemma densityCore_smul {m : ℕ} (D : Dist) (nrm : ℝ) (minv : Matrix (Fin m) (Fin m) ℝ) (cols : Cols ℝ)
    (data : List (Fin m → ℝ)) (w : List ℝ) (c : ℝ) (refl : Option (List ReflRow)) (hw : w.length = data.length) :
    densityCore D nrm minv cols data (some (w.map (c * ·))) refl
      = (densityCore D nrm minv cols data (some w) refl).map fun vs => vs.map (c * ·) := by
  obtain ⟨n, pts⟩ := cols
  by_cases hn : n = m
  · subst hn
    rw [densityCore_eq_plan, densityCore_eq_plan, corePlan_eq_env _ _ _ _ _ (badWeights_some_false hw),
      corePlan_eq_env _ _ _ _ _ (badWeights_some_false (by simp [hw]))]
    cases planEnv nrm minv refl with
    | error e => rfl
    | ok e =>
      simp only [Except.map, Except.ok.injEq, List.map_map]
      refine List.map_congr_left fun x _ => ?_
      simp only [Function.comp]
      rw [← mul_div_assoc]
      congr 1
      refine (reflAt_rel (n := 1) (fun a x => x = c * a 0) (by simp) (by
        intro a b x y h1 h2; simp [h1, h2]; ring) e.1 D.eval (fun _ => data) (fun _ => w)
        data (w.map (c * ·)) ?_ e.2 x)
      intro f x
      exact kval_smul _ _ _ _ _ _
  · rw [densityCore_dim_ne _ _ _ _ hn, densityCore_dim_ne _ _ _ _ hn]
    rfl

/-! ### Two objects with the same density -/

lemma evalKernel_none (E : Ext) (k : KDE d) (cols : Cols ℝ) (r : Reflect) :
    (k.evalKernel E none cols r).1 = (checkReflect k.dataset r).bind fun r =>
      (k.kernel.density E cols k.dataset k.weights r).1 := by
  simp only [KDE.evalKernel]
  cases checkReflect k.dataset r <;> rfl

lemma evalKernel_some (E : Ext) (k : KDE d) (ps : List (Fin d)) (cols : Cols ℝ) (r : Reflect) :
    (k.evalKernel E (some ps) cols r).1 = (checkReflect (selectCols k.dataset ps) r).bind fun r =>
      (k.kernel.densityParams E ps cols (selectCols k.dataset ps) k.weights r).1 := by
  simp only [KDE.evalKernel]
  cases checkReflect (selectCols k.dataset ps) r <;> rfl

/-- The values for the given columns, before packing. -/
noncomputable def outVals (E : Ext) (k : KDE d) (probability : Bool) (sel : Option (List (Fin d))) (cols : Cols ℝ)
    (r : Reflect) : Res (List ℝ) :=
  (k.evalKernel E sel cols r).1.map fun v => if probability then v.map (· / k.totalWeight) else v

/-- `packResult` after `outVals`. -/
noncomputable def packVals (E : Ext) (k : KDE d) (probability : Bool) (sel : Option (List (Fin d))) (r : Reflect)
    (u : PtsUse) : Res (Pts × Arr) :=
  match toCols u.evalRows with
  | .error e => .error e
  | .ok cols => (outVals E k probability sel cols r).map (packResult u)

lemma evalPoints_fst (E : Ext) (k : KDE d) (probability : Bool) (sel : Option (List (Fin d))) (r : Reflect)
    (u : PtsUse) : (evalPoints E sel r probability u k).1 = packVals E k probability sel r u := by
  simp only [evalPoints, packVals]
  cases toCols u.evalRows with
  | error e => rfl
  | ok cols =>
    simp only [outVals]
    have ht := evalKernel_data E k sel cols r
    rcases hk : k.evalKernel E sel cols r with ⟨_ | v, k2⟩
    · rfl
    · rw [hk] at ht
      simp only at ht
      simp only [andThen, finish, Except.map, ht]

lemma outVals_pointsVal (E : Ext) (k : KDE d) (probability : Bool) (sel : Option (List (Fin d))) (cols : Cols ℝ)
    (r : Reflect) (v : Option (List (List ℝ))) :
    outVals E { k with pointsVal := v } probability sel cols r = outVals E k probability sel cols r := by
  cases sel <;> simp only [outVals, KDE.totalWeight, evalKernel_none, evalKernel_some]

lemma packVals_pointsVal (E : Ext) (k : KDE d) (probability : Bool) (sel : Option (List (Fin d))) (r : Reflect)
    (u : PtsUse) (v : Option (List (List ℝ))) :
    packVals E { k with pointsVal := v } probability sel r u = packVals E k probability sel r u := by
  simp only [packVals]
  cases toCols u.evalRows with
  | error e => rfl
  | ok cols =>
    simp only [outVals_pointsVal]

lemma density_congr (E : Ext) (srt : List ℝ → List ℕ) (k k' : KDE d) (points : Option Pts) (reflect : Reflect)
    (params : ParamArg) (grid probability : Bool) (hr : k'.reflect = k.reflect)
    (hv : ∀ sel cols r, outVals E k' probability sel cols r = outVals E k probability sel cols r)
    (hp : points = none → k'.computePoints srt = k.computePoints srt ∧ k'.pointsVal = k.pointsVal ∧
      k'.squeeze = k.squeeze) :
    (k'.density E srt points reflect params grid probability).1
      = (k.density E srt points reflect params grid probability).1 := by
  have hpk : ∀ sel r u, packVals E k' probability sel r u = packVals E k probability sel r u := by
    intro sel r u
    simp only [packVals, hv]
  cases hs : paramSel d params with
  | error e => simp only [KDE.density, hs]
  | ok s =>
    obtain ⟨sel, squeeze⟩ := s
    have hdr : k'.defaultReflect sel reflect = k.defaultReflect sel reflect := by
      cases reflect <;> simp only [KDE.defaultReflect, hr]
    cases hrl : reflectLength d (numSel sel) (k.defaultReflect sel reflect) with
    | error e => simp only [KDE.density, hs, hdr, hrl]
    | ok r =>
      rw [density_eq_steps E srt k _ _ _ _ _ hs hrl, density_eq_steps E srt k' _ _ _ _ _ hs (hdr ▸ hrl)]
      cases points with
      | some p =>
        cases p <;> simp only [KDE.choosePoints, andThen, evalPoints_fst, hpk]
      | none =>
        obtain ⟨h1, h2, h3⟩ := hp rfl
        have hshape : ∀ rows, k'.shapePoints rows = k.shapePoints rows := fun rows => by
          simp only [KDE.shapePoints, h3]
        simp only [KDE.choosePoints, KDE.points, h1, h2]
        cases k.pointsVal with
        | some rows => simp only [hshape]; cases sel <;> simp only [andThen, evalPoints_fst, hpk]
        | none =>
          cases k.computePoints srt with
          | error e => rfl
          | ok rows =>
            simp only
            cases sel <;>
              simp only [andThen, evalPoints_fst, packVals_pointsVal, hpk, hshape]

lemma cdf_congr (E : Ext) (srt : List ℝ → List ℕ) (k k' : KDE d) (pnts : Pts) (params : ParamArg) (reflect : Reflect)
    (hr : k'.reflect = k.reflect)
    (hv : ∀ sel cols r, outVals E k' true sel cols r = outVals E k true sel cols r)
    (hp : k'.computePoints srt = k.computePoints srt) (h1 : k.pointsVal = none) (h1' : k'.pointsVal = none)
    (h2 : k'.squeeze = k.squeeze) (h3 : k.cdfCache = none) (h3' : k'.cdfCache = none) :
    (k'.cdf E srt pnts params reflect).1 = (k.cdf E srt pnts params reflect).1 := by
  have hg : (k'.cdfGrid E srt).1 = (k.cdfGrid E srt).1 := by
    rw [(cdfGrid_plain E srt k h3).1, (cdfGrid_plain E srt k' h3').1]
    simp only [cdfPlain, KDE.points, h1, h1', hp]
    cases k.computePoints srt with
    | error e => rfl
    | ok rows =>
      have hshape : k'.shapePoints rows = k.shapePoints rows := by simp only [KDE.shapePoints, h2]
      have hd := density_congr E srt { k with pointsVal := some rows } { k' with pointsVal := some rows }
        (some (k.shapePoints rows)) .none .none true true hr
        (fun sel cols r => (outVals_pointsVal E k' true sel cols r _).trans
          ((hv sel cols r).trans (outVals_pointsVal E k true sel cols r _).symm)) (fun h => by cases h)
      simp only [andThen, cdfEval, hshape]
      revert hd
      rcases KDE.density E srt { k with pointsVal := some rows } (some (k.shapePoints rows)) .none .none true true
        with ⟨_ | x, k1⟩ <;>
      rcases KDE.density E srt { k' with pointsVal := some rows } (some (k.shapePoints rows)) .none .none true true
        with ⟨_ | y, k2⟩ <;> intro hd <;> simp only [reduceCtorEq, Except.ok.injEq, Except.error.injEq] at hd
      · simp only [hd]
      · simp only [hd, cdfFinish]
  unfold KDE.cdf
  split
  · revert hg
    rcases KDE.cdfGrid E srt k with ⟨_ | x, k1⟩ <;>
    rcases KDE.cdfGrid E srt k' with ⟨_ | y, k2⟩ <;> intro hd <;>
      simp only [reduceCtorEq, Except.ok.injEq, Except.error.injEq] at hd
    · simp only [hd]
    · simp only [hd]
  · rfl

/-! ### The stages of the constructor -/

lemma init_of_stages {E : Ext} {a : KDEArgs d} {reflect weights cov bw0 D out eff ext}
    (h1 : checkReflect a.dataset a.reflect = .ok reflect) (h2 : a.dataset ≠ [])
    (h3 : checkWeights a.dataset.length a.weights = .ok weights)
    (h4 : covArg a.dataset weights a.covariance = .ok cov)
    (h5 : bwMatrix d (effNum a.dataset.length weights a.neff) a.diagonal a.bandwidth = .ok bw0)
    (h6 : getDistribution a.kernel = .ok D) (h7 : a.extra = [])
    (h8 : kernelOut E D (effNum a.dataset.length weights a.neff) = .ok out)
    (h9 : effExtrema a.dataset (Kernel.init D (rescaleBw bw0 a.rescale) cov a.helper a.chunk).matrix out = .ok eff)
    (h10 : parseExtrema eff (extremaArg a.extrema reflect) = .ok ext) :
    KDE.init E a = .ok
      { squeeze := a.squeeze
        dataset := a.dataset
        weights := weights
        neff := effNum a.dataset.length weights a.neff
        covariance := cov
        bandwidth := rescaleBw bw0 a.rescale
        kernel := Kernel.init D (rescaleBw bw0 a.rescale) cov a.helper a.chunk
        extrema := ext
        reflect := reflect
        pointsSpec := a.points
        pointsVal := none
        cdfCache := none } := by
  unfold KDE.init
  simp only [h1, if_neg h2, h3, h4, h5, h6, h8, h9, h10]
  rw [if_neg (by simpa using h7)]

lemma npMinR_perm {l l' : List ℝ} (h : l.Perm l') : npMinR l = npMinR l' ∧ npMaxR l = npMaxR l' := by
  cases l with
  | nil => have := h.nil_eq; subst this; exact ⟨rfl, rfl⟩
  | cons x l =>
    cases l' with
    | nil => exact absurd h.eq_nil (by simp)
    | cons y l' =>
      have e1 : IsExtrema (x :: l) (npMin x l) (npMax x l) :=
        ⟨(npMin_spec x l).1, (npMax_spec x l).1, fun z hz => ⟨(npMin_spec x l).2 z hz, (npMax_spec x l).2 z hz⟩⟩
      have e2 : IsExtrema (y :: l') (npMin y l') (npMax y l') :=
        ⟨(npMin_spec y l').1, (npMax_spec y l').1,
          fun z hz => ⟨(npMin_spec y l').2 z hz, (npMax_spec y l').2 z hz⟩⟩
      have e3 : IsExtrema (x :: l) (npMin y l') (npMax y l') :=
        ⟨h.mem_iff.mpr e2.1, h.mem_iff.mpr e2.2.1, fun z hz => e2.2.2 z (h.mem_iff.mp hz)⟩
      obtain ⟨a, b⟩ := e1.unique e3
      exact ⟨by rw [npMinR, npMinR, a], by rw [npMaxR, npMaxR, b]⟩

lemma dataRow_perm {data data' : List (Fin d → ℝ)} (h : data'.Perm data) (i : Fin d) :
    npMinR (dataRow data' i) = npMinR (dataRow data i) ∧ npMaxR (dataRow data' i) = npMaxR (dataRow data i) :=
  npMinR_perm (h.map _)

lemma checkReflect_perm {data data' : List (Fin d → ℝ)} (h : data'.Perm data) (r : Reflect) :
    checkReflect data' r = checkReflect data r := by
  have hd : ∀ i r, checkDim (dataRow data' i) r = checkDim (dataRow data i) r := by
    intro i r
    have h1 : ∀ v, fillLo (dataRow data' i) v = fillLo (dataRow data i) v := by
      intro v; cases v <;> simp only [fillLo, (dataRow_perm h i).1]
    have h2 : ∀ v, fillHi (dataRow data' i) v = fillHi (dataRow data i) v := by
      intro v; cases v <;> simp only [fillHi, (dataRow_perm h i).2]
    cases r with
    | seq l =>
      match l with
      | [] => rfl
      | [_] => rfl
      | [a, b] => simp only [checkDim, h1, h2]
      | _ :: _ :: _ :: _ => rfl
    | _ => simp only [checkDim, h1, h2]
  have hds : ∀ l n, checkDims data' n l = checkDims data n l := by
    intro l
    induction l with
    | nil => intro n; rfl
    | cons r l ih => intro n; simp only [checkDims, hd, ih]
  cases r <;> simp only [checkReflect, hds]

lemma dataExtrema_perm {data data' : List (Fin d → ℝ)} (h : data'.Perm data) :
    dataExtrema data' = dataExtrema data := by
  by_cases hne : data = []
  · subst hne
    rw [h.eq_nil]
  · obtain ⟨dat, h1, h2⟩ := dataExtrema_spec hne
    obtain ⟨dat', h1', h2'⟩ := dataExtrema_spec (data := data') fun h0 => hne (by subst h0; exact h.nil_eq.symm)
    rw [h1, h1']
    congr 1
    funext i
    have e3 : IsExtrema (data.map (· i)) (dat' i).1 (dat' i).2 :=
      ⟨(h.map _).mem_iff.mp (h2' i).1, (h.map _).mem_iff.mp (h2' i).2.1,
        fun z hz => (h2' i).2.2 z ((h.map _).mem_iff.mpr hz)⟩
    obtain ⟨a, b⟩ := (h2 i).unique e3
    exact Prod.ext a.symm b.symm

/-! ## C03 -/

lemma effNum_eq {n : ℕ} (hn : n ≠ 0) (w : Option (List ℝ)) (neff : Option ℝ) (data : List (Fin d → ℝ))
    (hl : data.length = n) :
    effNum n w neff = neff.getD ((onesIfNone data w).sum ^ 2 / ((onesIfNone data w).map (· ^ 2)).sum) := by
  subst hl
  cases neff with
  | some x => rfl
  | none =>
    cases w with
    | none =>
      have : (data.length : ℝ) ≠ 0 := by exact_mod_cast hn
      simp only [effNum, onesIfNone, Option.getD_none, List.map_replicate, List.sum_replicate, nsmul_eq_mul,
        mul_one, one_pow]
      field_simp
    | some l => rfl

/-- Specification: weights as the argument `weights`. -/
def Spec.warg (w : Option (List ℝ)) : WArg := w.elim .none fun l => .arr (l.map Flt.fin)

/-- **C03** for the class: if the data are given in another order, together with their weights, the construction
succeeds as well and gives an object that agrees in everything but the data and weights themselves: effective
number, covariance, bandwidth, kernel, extrema and reflection.  Every density at given points is the same. -/
theorem C03_kde_perm {E : Ext} {a : KDEArgs d} {k : KDE d} (h : KDE.init E a = .ok k) (data' : List (Fin d → ℝ))
    (w' : Option (List ℝ)) (hl : ∀ l, w' = some l → l.length = data'.length)
    (hp : (Spec.weighted data' w').Perm (Spec.weighted a.dataset k.weights)) :
    KDE.init E { a with dataset := data', weights := Spec.warg w' }
      = .ok { k with dataset := data', weights := w' } ∧
    ∀ srt points reflect params grid probability,
      ({ k with dataset := data', weights := w' }.density E srt (some points) reflect params grid probability).1
        = (k.density E srt (some points) reflect params grid probability).1 := by
  have hw : ∀ l, k.weights = some l → l.length = a.dataset.length := fun l hl => (stored_valid h hl).1
  have hfst : ∀ (data : List (Fin d → ℝ)) (w : Option (List ℝ)), (∀ l, w = some l → l.length = data.length) →
      (Spec.weighted data w).map Prod.fst = data := by
    intro data w hw
    cases w with
    | none => simp [Spec.weighted, Function.comp_def]
    | some l => simp only [Spec.weighted]; rw [List.map_fst_zip]; exact (hw l rfl).ge
  have hpd : data'.Perm a.dataset := by
    have := hp.map Prod.fst
    rwa [hfst _ _ hl, hfst _ _ hw] at this
  have hpw : (onesIfNone data' w').Perm (onesIfNone a.dataset k.weights) := by
    have := hp.map Prod.snd
    rwa [weighted_snd _ _ hl, weighted_snd _ _ hw] at this
  have hne := (C16_weights h).1
  have hne' : data' ≠ [] := fun h0 => hne (by subst h0; exact hpd.nil_eq.symm)
  have hlen : data'.length = a.dataset.length := hpd.length_eq
  have hval : ∀ l, w' = some l → Spec.ValidW data'.length l := by
    rintro l rfl
    refine ⟨hl l rfl, fun x hx => ?_, ?_⟩
    · have hx' := hpw.mem_iff.mp hx
      cases hk : k.weights with
      | none => rw [hk] at hx'; rw [List.eq_of_mem_replicate hx']; norm_num
      | some l' => rw [hk] at hx'; exact (stored_valid h hk).2.1 x hx'
    · cases hk : k.weights with
      | none =>
        rw [hk] at hpw
        have : (1:ℝ) ∈ onesIfNone a.dataset none := by
          simp only [onesIfNone, List.mem_replicate, and_true]
          exact fun h0 => hne (List.eq_nil_of_length_eq_zero h0)
        exact ⟨1, hpw.mem_iff.mpr this, by norm_num⟩
      | some l' =>
        rw [hk] at hpw
        obtain ⟨x, hx, h0⟩ := (stored_valid h hk).2.2
        exact ⟨x, hpw.mem_iff.mpr hx, h0⟩
  have htot : ∀ (k : KDE d) , k.totalWeight = (onesIfNone k.dataset k.weights).sum := by
    intro k
    cases hk : k.weights <;> simp [KDE.totalWeight, hk, onesIfNone]
  have heff : effNum data'.length w' a.neff = effNum a.dataset.length k.weights a.neff := by
    have h0 : a.dataset.length ≠ 0 := fun h0 => hne (List.eq_nil_of_length_eq_zero h0)
    rw [effNum_eq (hlen ▸ h0) w' a.neff data' rfl, effNum_eq h0 _ _ a.dataset rfl, hpw.sum_eq, (hpw.map _).sum_eq]
  constructor
  · obtain ⟨reflect, w, cov, bw0, D, out, eff, ext, g1, g2, g3, g4, g5, g6, g7, g8, g9, g10, hk⟩ := init_inv h
    have hkw : k.weights = w := by rw [hk]
    have hkr : k.reflect = reflect := by rw [hk]
    rw [hkw] at hp heff hpw
    have g4' : covArg data' w' a.covariance = .ok cov := by
      cases hc : a.covariance with
      | some C => rw [hc] at g4; exact g4
      | none =>
        rw [hc] at g4
        simp only [covArg] at g4 ⊢
        rw [npCov_eq _ hne' _ hl, sampleCov_perm hp, covFact_eq _ hne', hpw.sum_eq, (hpw.map _).sum_eq,
          ← covFact_eq _ hne, ← npCov_eq _ hne _ (hkw ▸ hw)]
        exact g4
    have g9' : effExtrema data' (Kernel.init D (rescaleBw bw0 a.rescale) cov a.helper a.chunk).matrix out
        = .ok eff := by
      rw [← g9]; simp only [effExtrema, dataExtrema_perm hpd]
    have g3' : checkWeights data'.length (Spec.warg w') = .ok w' := by
      cases w' with
      | none => rfl
      | some l => exact checkWeights_valid (hval l rfl)
    rw [init_of_stages (a := { a with dataset := data', weights := Spec.warg w' })
      ((checkReflect_perm hpd _).trans g1) hne' g3' g4'
      (by rw [← g5]; simp only [heff]) g6 g7 (by rw [← g8]; simp only [heff]) g9' g10]
    simp only [heff]
    rw [hk]
  · intro srt points reflect params grid probability
    refine density_congr E srt k _ _ _ _ _ _ rfl ?_ ?_
    · intro sel cols r
      have ht : ({ k with dataset := data', weights := w' } : KDE d).totalWeight = k.totalWeight := by
        have hkd : k.dataset = a.dataset := by
          obtain ⟨_, _, _, _, _, _, _, _, _, _, _, _, _, _, _, _, _, _, rfl⟩ := init_inv h
          rfl
        rw [htot, htot k, hkd]
        exact hpw.sum_eq
      have hkd : k.dataset = a.dataset := by
        obtain ⟨_, _, _, _, _, _, _, _, _, _, _, _, _, _, _, _, _, _, rfl⟩ := init_inv h
        rfl
      simp only [outVals, ht]
      congr 1
      cases sel with
      | none =>
        rw [evalKernel_none, evalKernel_none]
        simp only
        rw [hkd, checkReflect_perm hpd]
        congr 1
        funext r
        rw [Kernel.density_fst, Kernel.density_fst]
        exact densityCore_perm _ _ _ _ _ _ _ _ _ hw hl hp
      | some ps =>
        rw [evalKernel_some, evalKernel_some]
        simp only
        have hps : (selectCols data' ps).Perm (selectCols a.dataset ps) := hpd.map _
        rw [hkd, checkReflect_perm hps]
        congr 1
        funext r
        rw [Kernel.densityParams_fst, Kernel.densityParams_fst]
        have hsel : ∀ (data : List (Fin d → ℝ)) (w : Option (List ℝ)), Spec.weighted (selectCols data ps) w
            = (Spec.weighted data w).map fun q => ((fun i => q.1 (ps.get i)), q.2) := by
          intro data w
          cases w with
          | none => simp [Spec.weighted, selectCols]
          | some l => simp only [Spec.weighted, selectCols, List.zip_map_left]; rfl
        refine densityCore_perm _ _ _ _ _ _ _ _ _ ?_ ?_ ?_
        · intro l hl'; rw [selectCols, List.length_map]; exact hw l hl'
        · intro l hl'; rw [selectCols, List.length_map]; exact hl l hl'
        · rw [hsel, hsel]; exact hp.map _
    · intro h0; cases h0

/-- Concrete case of the hypotheses of `C03_kde_perm`. -/
example : ∃ (a : KDEArgs 1) (k : KDE 1), KDE.init ⟨fun A => A, id⟩ a = .ok k ∧
    (Spec.weighted [![2], ![0]] (some [3, 1])).Perm (Spec.weighted a.dataset k.weights) := by
  obtain ⟨k, hk, hw⟩ := auto_init ⟨fun A => A, id⟩ [![(0:ℝ)], ![2]] (by simp) (some [1, 3])
    (by rintro l h; cases h; exact ⟨rfl, by simp, 1, by simp, by norm_num⟩) (by norm_num [covFact]) .box rfl 2
  refine ⟨_, k, hk, ?_⟩
  rw [hw]
  exact List.Perm.swap _ _ _

/-! ## C06 -/

lemma sum_smul (w : List ℝ) (c : ℝ) :
    (w.map (c * ·)).sum = c * w.sum ∧ ((w.map (c * ·)).map (· ^ 2)).sum = c ^ 2 * (w.map (· ^ 2)).sum := by
  constructor
  · rw [List.sum_map_mul_left]; simp
  · rw [List.map_map, show ((fun x : ℝ => x ^ 2) ∘ fun x => c * x) = fun x => c ^ 2 * x ^ 2 by
      funext x; simp [mul_pow], List.sum_map_mul_left]

lemma covFact_smul (data : List (Fin d → ℝ)) (w : List ℝ) {c : ℝ} (hc : c ≠ 0) :
    covFact data (some (w.map (c * ·))) = c * covFact data (some w) := by
  simp only [covFact, (sum_smul w c).1, (sum_smul w c).2]
  by_cases hs : w.sum = 0
  · simp [hs]
  · field_simp

lemma npCov_smul (data : List (Fin d → ℝ)) (w : List ℝ) {c : ℝ} (hc : 0 < c) :
    npCov data (some (w.map (c * ·))) = npCov data (some w) := by
  have hz : ∀ f : (Fin d → ℝ) → ℝ, List.zipWith (fun x a => a * f x) data (w.map (c * ·))
      = (List.zipWith (fun x a => a * f x) data w).map (c * ·) := by
    intro f
    rw [List.zipWith_map_right, List.map_zipWith]
    simp only [mul_assoc]
  have hm : wMean data (w.map (c * ·)) = wMean data w := by
    funext i
    rw [wMean, hz fun x => x i, (sum_smul _ c).1, (sum_smul w c).1, mul_div_mul_left _ _ hc.ne', wMean]
  have hx : ∀ i j, wCross data (w.map (c * ·)) i j = c * wCross data w i j := by
    intro i j
    rw [wCross, hm, hz fun x => (x i - wMean data w i) * (x j - wMean data w j), (sum_smul _ c).1, wCross]
  simp only [npCov, covFact_smul data w hc.ne', onesIfNone, hx]
  have h0 : c * covFact data (some w) ≤ 0 ↔ covFact data (some w) ≤ 0 := by
    constructor
    · intro h; by_contra h'; push Not at h'; exact absurd h (not_le.mpr (mul_pos hc h'))
    · intro h; exact mul_nonpos_of_nonneg_of_nonpos hc.le h
  simp only [h0, mul_div_mul_left _ _ hc.ne']

lemma guessEdges_smul (srt : List ℝ → List ℕ) (data : List ℝ) (extrema : ℝ × ℝ) (w : List ℝ) {c : ℝ} (hc : c ≠ 0)
    (ndim : ℕ) (nmin nmax : ℤ) (refine : ℝ) (bw : Option ℝ) :
    guessEdges srt data extrema (some (w.map (c * ·))) ndim nmin nmax refine bw
      = guessEdges srt data extrema (some w) ndim nmin nmax refine bw := by
  have h1 : guessNeff data (some (w.map (c * ·))) = guessNeff data (some w) := by
    simp only [guessNeff, List.length_map, (sum_smul w c).1, (sum_smul w c).2, mul_pow,
      mul_div_mul_left _ _ (pow_ne_zero 2 hc), mul_eq_zero, pow_eq_zero_iff (two_ne_zero), hc, false_or]
  have h2 : iqrange srt data (some (w.map (c * ·))) = iqrange srt data (some w) := by
    simp only [iqrange, C35_rescale srt data _ w false hc]
  simp only [guessEdges, h1, h2]

lemma computePoints_smul (srt : List ℝ → List ℕ) (k : KDE d) (w : List ℝ) (hw : k.weights = some w) {c : ℝ}
    (hc : c ≠ 0) : ({ k with weights := some (w.map (c * ·)) } : KDE d).computePoints srt = k.computePoints srt := by
  simp only [KDE.computePoints, parseEdges, hw]
  simp only [getEdges1d, guessEdges_smul _ _ _ w hc]

/-- **C06.** If all weights are multiplied by the same positive number, the construction succeeds as well and gives
an object that agrees in everything but the weights themselves: effective number, covariance, bandwidth, kernel
matrix, extrema, reflection.  For all arguments (given or default points, reflection, parameters, grid) the pdf is
the same, and so is the cumulative distribution. -/
theorem C06_weights_scale {E : Ext} {a : KDEArgs d} {k : KDE d} (h : KDE.init E a = .ok k) {w : List ℝ}
    (hw : k.weights = some w) {c : ℝ} (hc : 0 < c) :
    KDE.init E { a with weights := .arr ((w.map (c * ·)).map Flt.fin) }
      = .ok { k with weights := some (w.map (c * ·)) } ∧
    (∀ srt points reflect params grid,
      ({ k with weights := some (w.map (c * ·)) }.pdf E srt points reflect params grid).1
        = (k.pdf E srt points reflect params grid).1) ∧
    ∀ srt pnts params reflect,
      ({ k with weights := some (w.map (c * ·)) }.cdf E srt pnts params reflect).1
        = (k.cdf E srt pnts params reflect).1 := by
  have hv := stored_valid h hw
  have hval : Spec.ValidW a.dataset.length (w.map (c * ·)) := by
    obtain ⟨h1, h2, x, hx, h3⟩ := hv
    refine ⟨by simpa using h1, ?_, c * x, List.mem_map_of_mem hx, mul_pos hc h3⟩
    intro y hy
    obtain ⟨z, hz, rfl⟩ := List.mem_map.mp hy
    exact mul_nonneg hc.le (h2 z hz)
  have heff : effNum a.dataset.length (some (w.map (c * ·))) a.neff = effNum a.dataset.length (some w) a.neff := by
    cases hn : a.neff with
    | some n => rfl
    | none =>
      simp only [effNum, (sum_smul w c).1, (sum_smul w c).2, mul_pow, mul_div_mul_left _ _ (pow_ne_zero 2 hc.ne')]
  have hkd : k.dataset = a.dataset := by
    obtain ⟨_, _, _, _, _, _, _, _, _, _, _, _, _, _, _, _, _, _, rfl⟩ := init_inv h
    rfl
  have hpv : k.pointsVal = none ∧ k.cdfCache = none := by
    obtain ⟨_, _, _, _, _, _, _, _, _, _, _, _, _, _, _, _, _, _, rfl⟩ := init_inv h
    exact ⟨rfl, rfl⟩
  obtain ⟨hpv, hcc⟩ := hpv
  have hout : ∀ sel cols r, outVals E { k with weights := some (w.map (c * ·)) } true sel cols r
      = outVals E k true sel cols r := by
    intro sel cols r
    have ht : ({ k with weights := some (w.map (c * ·)) } : KDE d).totalWeight = c * k.totalWeight := by
      simp only [KDE.totalWeight, hw, (sum_smul w c).1]
    have key : ∀ x : Res (List ℝ), (x.map fun vs => vs.map (c * ·)).map
        (fun v => v.map (· / (c * k.totalWeight))) = x.map fun v => v.map (· / k.totalWeight) := by
      intro x
      cases x with
      | error e => rfl
      | ok v =>
        simp only [Except.map, List.map_map, Except.ok.injEq]
        refine List.map_congr_left fun y _ => ?_
        simp only [Function.comp, mul_div_mul_left _ _ hc.ne']
    simp only [outVals, ht, if_true]
    have hmap : ∀ (A B : Type) (x : Res A) (f g : A → Res (List ℝ)) (_ : ∀ y, f y = (g y).map fun vs => vs.map (c * ·)),
        x.bind f = (x.bind g).map fun vs => vs.map (c * ·) := by
      intro A B x f g hfg
      cases x with
      | error e => rfl
      | ok y => exact hfg y
    cases sel with
    | none =>
      rw [evalKernel_none, evalKernel_none, ← key]
      simp only
      congr 1
      apply hmap _ Unit
      intro r
      rw [Kernel.density_fst, Kernel.density_fst, hw, densityCore_smul]
      rw [hkd]; exact hv.1
    | some ps =>
      rw [evalKernel_some, evalKernel_some, ← key]
      simp only
      congr 1
      apply hmap _ Unit
      intro r
      rw [Kernel.densityParams_fst, Kernel.densityParams_fst, hw, densityCore_smul]
      rw [hkd, selectCols, List.length_map]; exact hv.1
  constructor
  · obtain ⟨reflect, w0, cov, bw0, D, out, eff, ext, g1, g2, g3, g4, g5, g6, g7, g8, g9, g10, hk⟩ := init_inv h
    have hkw : w0 = some w := by rw [← hw, hk]
    subst hkw
    rw [init_of_stages (a := { a with weights := .arr ((w.map (c * ·)).map Flt.fin) }) (cov := cov) (bw0 := bw0)
      (out := out) g1 g2 (checkWeights_valid hval) ?_ (by rw [← g5]; simp only [heff]) g6 g7
      (by rw [← g8]; simp only [heff]) g9 g10]
    · simp only [heff]
      rw [hk]
    · rw [← g4]
      cases a.covariance with
      | some C => rfl
      | none => exact npCov_smul _ _ hc
  · exact ⟨fun srt points reflect params grid => density_congr E srt k _ _ _ _ _ _ rfl hout fun _ =>
      ⟨computePoints_smul srt k w hw hc.ne', rfl, rfl⟩,
      fun srt pnts params reflect => cdf_congr E srt k _ pnts params reflect rfl hout
        (computePoints_smul srt k w hw hc.ne') hpv hpv rfl hcc hcc⟩

/-- Concrete case of the hypotheses of `C06_weights_scale`. -/
example : ∃ (a : KDEArgs 1) (k : KDE 1), KDE.init ⟨fun A => A, id⟩ a = .ok k ∧ k.weights = some [1, 3] := by
  obtain ⟨k, hk, hw⟩ := auto_init ⟨fun A => A, id⟩ [![(0:ℝ)], ![2]] (by simp) (some [1, 3])
    (by rintro l h; cases h; exact ⟨rfl, by simp, 1, by simp, by norm_num⟩) (by norm_num [covFact]) .box rfl 2
  exact ⟨_, k, hk, hw⟩

end Kalepy
