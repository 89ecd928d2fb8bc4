import Verif.Props.Hist1d
import Verif.Props.Dist2dOk
import Verif.Props.Confidence
import Verif.Props.Marginal

/-!
# C100, C101, C102: `dist1d`
-/

namespace Kalepy

open Spec MeasureTheory

variable {d : ℕ}

/-! ### specification -/

/-- The `params` argument for the single parameter `i`; one-dimensional KDEs have no choice. -/
def Spec.single (i : Fin d) : ParamArg := if d = 1 then .none else .list [(i : ℤ)]

/-- Coordinates as if the plot had not been rotated. -/
def Spec.upright {α : Type*} (rotate : Bool) (p : α × α) : α × α := if rotate then p.swap else p

/-- Everything drawn by `dist1d` shows parameter `i`: the curve its density (times `scale`), the steps the densities of its bins, the bands and the
points its data. -/
structure Spec.Shows1d (E : Ext) (srt : List ℝ → List ℕ) (auto : List ℝ → ℕ) (k : KDE d) (i : Fin d) (a : Dist1dArgs) (scale : ℝ)
    (out : Dist1dOut) : Prop where
  curve : ∀ c, out.curve = some c → ∀ p ∈ c, ∃ v,
    (k.density E srt (some (.rows [[(upright a.rotate p).1]])) .none (single i) false a.probability).1
      = .ok (.rows [[(upright a.rotate p).1]], ⟨[1], [v]⟩) ∧ (upright a.rotate p).2 = v * scale
  hist : ∀ h, out.hist = some h → ∃ hist e, hist1d auto false (dataRow k.dataset i) (histArgs a.edges k.weights true a.probability true a.rotate)
    = .ok (hist, e, h)
  bands : ∀ b, out.bands = some b → confidence srt (dataRow k.dataset i) none (defaultQuantiles a.quantiles none).1 true a.rotate = .ok b
  carpet : ∀ m, out.carpet = some m → (m.map fun q => if a.rotate then q.y else q.x).Subperm (dataRow k.dataset i)

/-! ### proofs -/

lemma packVals_single (E : Ext) (k : KDE d) (probability : Bool) (sel : Option (List (Fin d))) (r : Reflect) (u : PtsUse)
    (hg : u.grid = false) {l : List ℝ} (hl : u.pts.toRows = [l]) {P : Pts} {arr : Arr}
    (h : packVals E k probability sel r u = .ok (P, arr)) :
    packVals E k probability sel r ⟨.rows [l], false, false⟩ = .ok (.rows [l], ⟨[arr.vals.length], arr.vals⟩) ∧ P.toRows = [l] := by
  unfold packVals at h ⊢
  simp only [PtsUse.evalRows, hg, Bool.false_eq_true, if_false, hl] at h
  simp only [PtsUse.evalRows, Pts.toRows, Bool.false_eq_true, if_false]
  cases hc : toCols [l] with
  | error e => rw [hc] at h; cases h
  | ok cols =>
    rw [hc] at h
    simp only at h ⊢
    cases ho : outVals E k probability sel cols r with
    | error e => rw [ho] at h; cases h
    | ok vals =>
      rw [ho] at h
      simp only [Except.map, packResult, hg, hl, valShape, Except.ok.injEq, Bool.false_eq_true, if_false] at h ⊢
      cases hs : u.squeeze with
      | true =>
        rw [hs] at h
        simp only [if_true, Prod.mk.injEq] at h
        obtain ⟨rfl, rfl⟩ := h
        exact ⟨rfl, rfl⟩
      | false =>
        rw [hs] at h
        simp only [Bool.false_eq_true, if_false, Prod.mk.injEq] at h
        obtain ⟨rfl, rfl⟩ := h
        exact ⟨rfl, hl⟩

/-- The parameter selection made by a scalar and by `single`. -/
lemma scalar_single {q : ℤ} {i : Fin d} (hq : Names q i) {s : Option (List (Fin d)) × Bool} (h : paramSel d (.scalar q) = .ok s) :
    ∃ b, paramSel d (single i) = .ok (s.1, false) ∧ s.2 = b ∧ (d ≠ 1 → s.1 = some [i]) ∧ (d = 1 → s.1 = none ∧ b = false) := by
  by_cases hd : d = 1
  · simp only [paramSel, if_pos hd] at h
    split at h
    · cases h
      exact ⟨false, by rw [single, if_pos hd]; rfl, rfl, fun h => absurd hd h, fun _ => ⟨rfl, rfl⟩⟩
    · cases h
  · simp only [paramSel, if_neg hd, dimIndex_names hq, Except.map] at h
    cases h
    exact ⟨true, by
      rw [single, if_neg hd]
      exact paramSel_names hd (by simp) (.cons (Or.inl rfl) .nil), rfl, fun _ => rfl, fun h => absurd h hd⟩

/-- The density used by `dist1d` for one row of points. -/
lemma dist1dDensity_rows {E : Ext} {srt : List ℝ → List ℕ} {k : KDE d} {edges : BinArg} {q : ℤ} {i : Fin d} (hq : Names q i)
    {probability : Bool} {P : Pts} {arr : Arr} {l : List ℝ} (hP : P.toRows = [l])
    (h : dist1dDensity E srt k edges q probability = .ok (P, arr)) :
    (k.density E srt (some (.rows [l])) .none (single i) false probability).1 = .ok (.rows [l], ⟨[arr.vals.length], arr.vals⟩) := by
  cases hs : paramSel d (.scalar q) with
  | error e =>
    cases edges <;> simp [dist1dDensity, KDE.density, hs] at h
  | ok s =>
    obtain ⟨b, h1, h2, h3, h4⟩ := scalar_single hq hs
    obtain ⟨sel, sq⟩ := s
    simp only at h1 h2 h3 h4
    subst h2
    cases hr : reflectLength d (numSel sel) (k.defaultReflect sel .none) with
    | error e =>
      cases edges <;> simp [dist1dDensity, KDE.density, hs, hr] at h
    | ok r =>
      rw [density_eq_steps E srt _ _ _ _ _ _ h1 hr]
      simp only [KDE.choosePoints, andThen]
      rw [evalPoints_fst]
      cases edges with
      | none =>
        simp only [dist1dDensity] at h
        rw [density_eq_steps E srt _ _ _ _ _ _ hs hr] at h
        simp only [KDE.choosePoints] at h
        cases hk : k.points srt with
        | mk res k1 =>
          cases res with
          | error e => rw [hk] at h; cases h
          | ok pts =>
            obtain ⟨v, hv⟩ := points_pointsVal (by rw [hk] : (k.points srt).1 = .ok pts)
            rw [hv] at h
            cases sel with
            | none =>
              have hd : d = 1 := by
                by_contra hd
                cases h3 hd
              simp only [andThen] at h
              rw [evalPoints_pointsVal, evalPoints_fst] at h
              have hu : decide (1 < d) = false := by simp [hd]
              rw [hu] at h
              obtain ⟨rfl⟩ : sq = false := (h4 hd).2
              have hP' : P = pts := by
                unfold packVals at h
                split at h
                · cases h
                · cases ho : outVals E k probability none _ r with
                  | error e => rw [ho] at h; cases h
                  | ok vals => rw [ho] at h; cases h; rfl
              subst hP'
              exact (packVals_single E k probability none r ⟨P, false, false⟩ rfl hP h).1
            | some ps =>
              have hd : d ≠ 1 := by
                intro hd
                cases (h4 hd).1
              obtain ⟨rfl⟩ : ps = [i] := by simpa using h3 hd
              simp only [andThen] at h
              rw [evalPoints_pointsVal, evalPoints_fst] at h
              have hu : decide (1 < [i].length) = false := by simp
              rw [hu] at h
              obtain ⟨g1, g2⟩ := packVals_single E k probability (some [i]) r _ rfl rfl h
              rw [hP] at g2
              rw [List.cons.injEq] at g2
              rw [g2.1]
              exact g1
      | arr l' =>
        simp only [dist1dDensity] at h
        rw [density_eq_steps E srt _ _ _ _ _ _ hs hr] at h
        simp only [KDE.choosePoints, andThen] at h
        rw [evalPoints_fst] at h
        obtain ⟨g1, g2⟩ := packVals_single E k probability sel r _ rfl rfl h
        rw [hP, List.cons.injEq] at g2
        rw [g2.1]
        exact g1
      | int n =>
        simp only [dist1dDensity] at h
        rw [density_eq_steps E srt _ _ _ _ _ _ hs hr] at h
        simp only [KDE.choosePoints, andThen] at h
        rw [evalPoints_fst] at h
        split at h
        · cases h
        · rename_i r' hr'
          split at h
          · cases h
            obtain ⟨g1, g2⟩ := packVals_single E k probability sel r _ rfl rfl hr'
            rw [hP, List.cons.injEq] at g2
            rw [g2.1]
            exact g1
          · cases h

lemma plotPairs_ok {r : Pts × Arr} {c : List (ℝ × ℝ)} (h : plotPairs r = .ok c) :
    ∃ l, r.1.toRows = [l] ∧ l.length = r.2.vals.length ∧ c = l.zip r.2.vals := by
  obtain ⟨P, a⟩ := r
  cases P with
  | flat l =>
    simp only [plotPairs] at h
    split at h
    · rename_i he
      cases h
      exact ⟨l, rfl, he, rfl⟩
    · cases h
  | rows l =>
    unfold plotPairs at h
    split at h
    · rename_i he
      cases he
    · rename_i he
      simp only [Prod.mk.injEq, Pts.rows.injEq] at he
      obtain ⟨rfl, rfl⟩ := he
      split at h
      · split at h
        · rename_i he
          cases h
          exact ⟨_, rfl, by simp [he], rfl⟩
        · cases h
      · cases h
      · cases h

lemma dist1dCurve_ok {E : Ext} {srt : List ℝ → List ℕ} {k : KDE d} {edges : BinArg} {q : ℤ} {i : Fin d} (hq : Names q i)
    {probability rotate : Bool} {scale : ℝ} {c : List (ℝ × ℝ)} (h : dist1dCurve E srt k edges q probability rotate scale = .ok c) :
    ∃ l vals, l.length = vals.length ∧
      (k.density E srt (some (.rows [l])) .none (single i) false probability).1 = .ok (.rows [l], ⟨[vals.length], vals⟩) ∧
      c = (l.zip vals).map fun p => upright rotate (p.1, p.2 * scale) := by
  unfold dist1dCurve at h
  split at h
  · cases h
  rename_i r hr
  split at h
  · cases h
  rename_i c' hc'
  cases h
  obtain ⟨l, h1, h2, rfl⟩ := plotPairs_ok hc'
  refine ⟨l, r.2.vals, h2, dist1dDensity_rows hq h1 hr, ?_⟩
  cases rotate <;> rfl

lemma density_single {E : Ext} {srt : List ℝ → List ℕ} {k : KDE d} {l : List ℝ} {params : ParamArg} {probability : Bool} {vals : List ℝ}
    (h : (k.density E srt (some (.rows [l])) .none params false probability).1 = .ok (.rows [l], ⟨[vals.length], vals⟩))
    (hp : ∀ q, params ≠ .scalar q) {n : ℕ} {x v : ℝ} (hx : l[n]? = some x) (hv : vals[n]? = some v) :
    (k.density E srt (some (.rows [[x]])) .none params false probability).1 = .ok (.rows [[x]], ⟨[1], [v]⟩) := by
  rw [← C15_single E srt k (.rows [l]) l rfl] at h
  obtain ⟨-, -, -, g⟩ := C15_grid E srt k [l] .none params hp probability _ _ h
  have hn : n < l.length := (List.getElem?_eq_some_iff.mp hx).1
  obtain ⟨w, w1, w2⟩ := g (fun _ => n) (fun j => by fin_cases j; exact hn)
  have e1 : ravelIdx (fun i : Fin [l].length => ([l].get i).length) (fun _ => n) = n := by
    simp [ravelIdx]
  rw [e1] at w1
  simp only at w1
  rw [hv] at w1
  cases w1
  have e2 : gridPoint [l] (fun _ => n) = [[x]] := by
    simp [gridPoint, List.getD_eq_getElem?_getD, hx]
  rwa [e2] at w2

lemma single_not_scalar (i : Fin d) (q : ℤ) : single i ≠ .scalar q := by
  unfold single
  split <;> simp

lemma withArg_ok {α β : Type*} {o : Option β} {f : β → Res α} {r : Option α} (h : withArg o f = .ok r) {x : α} (hx : r = some x) :
    ∃ b, o = some b ∧ f b = .ok x := by
  subst hx
  cases o with
  | none => cases h
  | some b =>
    simp only [withArg] at h
    cases hf : f b with
    | error e => rw [hf] at h; cases h
    | ok y => rw [hf] at h; cases h; exact ⟨b, rfl, hf⟩

lemma dist1dDraw_ok {srt : List ℝ → List ℕ} {auto : List ℝ → ℕ} {sel : ℕ → ℕ → List ℕ} {fuzz : ℕ → ℝ} {top : ℝ} {isList : Bool}
    {data : List ℝ} {weights : Option (List ℝ)} {mkCurve : ℝ → Res (List (ℝ × ℝ))} {dens : Option ℝ} {hist : Bool} {a : Dist1dArgs}
    {out : Dist1dOut} (h : dist1dDraw srt auto sel fuzz top isList data weights mkCurve dens hist a = .ok out) :
    ∃ limit, scatterLimit a.carpet = .ok limit ∧ withArg dens mkCurve = .ok out.curve ∧
      (∀ p, out.hist = some p → ∃ hs e, hist1d auto isList data (histArgs a.edges weights true a.probability true a.rotate) = .ok (hs, e, p)) ∧
      (∀ b, out.bands = some b → dist1dConfidence srt data weights (defaultQuantiles a.quantiles none).1 a.rotate = .ok b) ∧
      (∀ m, out.carpet = some m → ∃ r, carpet srt sel fuzz data weights top { limit := limit, rotate := a.rotate } = .ok (m, r)) ∧
      (out.hist.isSome = hist) ∧ (out.bands.isSome = a.confidence) ∧ (out.carpet = none ↔ limit = .none) := by
  unfold dist1dDraw at h
  split at h
  · cases h
  rename_i limit h1
  split at h
  · cases h
  rename_i curve h2
  split at h
  · cases h
  rename_i hh h3
  split at h
  · cases h
  rename_i bands h4
  split at h
  · cases h
  rename_i points h5
  cases h
  refine ⟨limit, h1, h2, ?_, ?_, ?_, ?_, ?_, ?_⟩
  · intro p hp
    cases hh with
    | none => cases hp
    | some r =>
      obtain ⟨hs, e, p'⟩ := r
      cases hp
      obtain ⟨-, -, h⟩ := withArg_ok h3 rfl
      exact ⟨hs, e, h⟩
  · rintro b rfl
    obtain ⟨-, -, h⟩ := withArg_ok h4 rfl
    exact h
  · intro m hm
    cases points with
    | none => cases hm
    | some r =>
      cases hm
      obtain ⟨l, hl, h⟩ := withArg_ok h5 rfl
      cases limit <;> cases hl <;> exact ⟨_, h⟩
  · cases hist with
    | true =>
      simp only [if_true, withArg] at h3
      cases hf : hist1d auto isList data { edges := a.edges, weights := weights, density := true, probability := a.probability, rotate := a.rotate } with
      | error e => rw [hf] at h3; cases h3
      | ok y => rw [hf] at h3; cases h3; rfl
    | false => cases h3; rfl
  · cases hc : a.confidence with
    | true =>
      rw [hc] at h4
      simp only [if_true, withArg] at h4
      cases hf : dist1dConfidence srt data weights (defaultQuantiles a.quantiles none).1 a.rotate with
      | error e => rw [hf] at h4; cases h4
      | ok y => rw [hf] at h4; cases h4; rfl
    | false => rw [hc] at h4; cases h4; rfl
  · cases limit with
    | none => cases h5; simp
    | inf =>
      simp only [withArg] at h5
      cases hf : carpet srt sel fuzz data weights top { limit := .inf, rotate := a.rotate } with
      | error e => rw [hf] at h5; cases h5
      | ok y => rw [hf] at h5; cases h5; simp
    | num n =>
      simp only [withArg] at h5
      cases hf : carpet srt sel fuzz data weights top { limit := .num n, rotate := a.rotate } with
      | error e => rw [hf] at h5; cases h5
      | ok y => rw [hf] at h5; cases h5; simp

/-- **C100.** Every component of `dist1d` of a KDE shows the chosen parameter: each point of the curve is the density of this parameter
(marginalised by `params`) at its abscissa, times `density` if that is a number; the steps are those of `hist1d` of the data of this parameter with the
weights of the KDE and the same normalisation; the bands are those of `confidence` (without the weights, see C68); the points are distinct data of
this parameter.  Exactly the requested components are drawn. -/
theorem C100_components (E : Ext) (srt : List ℝ → List ℕ) (auto : List ℝ → ℕ) (sel : ℕ → ℕ → List ℕ) (hsel : IsChoice sel) (fuzz : ℕ → ℝ) (top : ℝ)
    (k : KDE d) (hw : ∀ w, k.weights = some w → w.length = k.dataset.length) (a : Dist1dArgs) (i : Fin d) (hq : Names a.param i)
    (out : Dist1dOut) (h : dist1d E srt auto sel fuzz top k a = .ok out) :
    Shows1d E srt auto k i a ((a.density.getD (some 1)).getD 0) out ∧
    (out.curve = none ↔ a.density = some none) ∧ (out.hist.isSome = a.hist.getD false) ∧ (out.bands.isSome = a.confidence) ∧
    (out.carpet = none ↔ a.carpet = .no ∨ a.carpet = .none) := by
  unfold dist1d at h
  rw [dimIndex_names hq] at h
  obtain ⟨limit, h1, h2, h3, h4, h5, h6, h7, h8⟩ := dist1dDraw_ok h
  refine ⟨⟨?_, h3, h4, ?_⟩, ?_, h6, h7, ?_⟩
  · intro c hc p hp
    obtain ⟨s, hs, hcurve⟩ := withArg_ok h2 hc
    obtain ⟨l, vals, c1, c2, rfl⟩ := dist1dCurve_ok hq hcurve
    obtain ⟨⟨x, v⟩, hxv, rfl⟩ := List.mem_map.mp hp
    obtain ⟨n, hn⟩ := List.mem_iff_getElem?.mp hxv
    rw [List.getElem?_zip_eq_some] at hn
    rw [hs]
    refine ⟨v, ?_, ?_⟩
    · have e : (upright a.rotate (upright a.rotate (x, v * s))).1 = x := by cases a.rotate <;> rfl
      rw [e]
      exact density_single c2 (single_not_scalar i) hn.1 hn.2
    · cases a.rotate <;> rfl
  · intro m hm
    obtain ⟨⟨lo, hi⟩, hr⟩ := h5 m hm
    exact (C90_points srt sel hsel fuzz _ k.weights (fun w e => by simp [dataRow, hw w e]) top _ m lo hi hr).2.1
  · rcases hd : a.density with _ | _ | s
    · rw [hd] at h2
      cases hc : out.curve with
      | none => rw [hc] at h2; simp only [Option.getD_none, withArg] at h2; revert h2; cases dist1dCurve E srt k a.edges a.param a.probability a.rotate 1 <;> simp [Except.map]
      | some c => simp
    · rw [hd] at h2
      have h2' : out.curve = none := (Except.ok.inj h2).symm
      simp [h2']
    · rw [hd] at h2
      cases hc : out.curve with
      | none => rw [hc] at h2; simp only [Option.getD_some, withArg] at h2; revert h2; cases dist1dCurve E srt k a.edges a.param a.probability a.rotate s <;> simp [Except.map]
      | some c => simp
  · rw [h8]
    cases hc : a.carpet <;> rw [hc] at h1 <;> simp only [scatterLimit] at h1
    · cases h1; simp
    · cases h1; simp
    · cases h1; simp
    · split at h1
      · cases h1
      · cases h1; simp

/-! ### C101 -/

/-- The density without normalisation is the total weight times the one with it. -/
lemma density_unnormalised {E : Ext} {srt : List ℝ → List ℕ} {k : KDE d} {pts : List (List ℝ)} {params : ParamArg} {P : Pts} {s : List ℕ} {v : List ℝ}
    (ht : k.totalWeight ≠ 0) (h : (k.density E srt (some (.rows pts)) .none params false true).1 = .ok (P, ⟨s, v⟩)) :
    (k.density E srt (some (.rows pts)) .none params false false).1 = .ok (P, ⟨s, v.map (· * k.totalWeight)⟩) := by
  cases hs : paramSel d params with
  | error e => simp [KDE.density, hs] at h
  | ok s' =>
    obtain ⟨sel, sq⟩ := s'
    cases hr : reflectLength d (numSel sel) (k.defaultReflect sel .none) with
    | error e => simp [KDE.density, hs, hr] at h
    | ok r =>
      rw [density_eq_steps E srt _ _ _ _ _ _ hs hr] at h ⊢
      simp only [KDE.choosePoints, andThen] at h ⊢
      rw [evalPoints_fst] at h ⊢
      unfold packVals outVals at h ⊢
      cases hc : toCols (PtsUse.evalRows ⟨.rows pts, false, sq⟩) with
      | error e => rw [hc] at h; cases h
      | ok cols =>
        rw [hc] at h
        simp only at h ⊢
        cases hv : (k.evalKernel E sel cols r).1 with
        | error e => rw [hv] at h; cases h
        | ok v0 =>
          rw [hv] at h
          simp only [Except.map, Except.ok.injEq, if_true, Bool.false_eq_true, if_false, packResult, List.length_map] at h ⊢
          have e0 : (v0.map (· / k.totalWeight)).map (· * k.totalWeight) = v0 := by
            rw [List.map_map]
            conv_rhs => rw [← List.map_id v0]
            exact List.map_congr_left fun x _ => by simp [div_mul_cancel₀ _ ht]
          split at h <;> simp only [Prod.mk.injEq, Arr.mk.injEq] at h <;> obtain ⟨rfl, rfl, rfl⟩ := h <;> simp_all

lemma mixture_normalised {n : ℕ} (hn : 0 < n) (D : Dist) {M : Matrix (Fin n) (Fin n) ℝ} (hM : M.PosDef) (P : List ((Fin n → ℝ) × ℝ)) {T : ℝ}
    (hT : (P.map Prod.snd).sum = T) (h0 : T ≠ 0) :
    Integrable (fun x => Spec.kernelSum D M P x / (Real.sqrt M.det * D.norm n) / T) ∧
    ∫ x, Spec.kernelSum D M P x / (Real.sqrt M.det * D.norm n) / T = 1 := by
  have hnorm := mul_pos (Real.sqrt_pos.mpr hM.det_pos) (D.norm_pos n hn)
  obtain ⟨h1, h2⟩ := integral_listSum P (fun p x => p.2 * Spec.shape D (Spec.dist2 M (x - p.1)))
    fun p _ => (integrable_shape_dist2 hn _ hM p.1).const_mul p.2
  refine ⟨(h1.div_const _).div_const _, ?_⟩
  simp only [Spec.kernelSum]
  rw [integral_div, integral_div, h2]
  simp only [integral_const_mul, integral_shape_dist2 hn _ hM]
  rw [List.sum_map_mul_right, hT]
  field_simp
  exact div_self hnorm.ne'

lemma line_integral {G : (Fin 1 → ℝ) → ℝ} (hi : Integrable G) {T : ℝ} (h : ∫ x, G x = T) :
    Integrable (fun x : ℝ => G fun _ => x) ∧ ∫ x : ℝ, G (fun _ => x) = T := by
  have hp := (volume_preserving_funUnique (Fin 1) ℝ).symm
  exact ⟨(hp.integrable_comp_emb (MeasurableEquiv.measurableEmbedding _)).mpr hi, h ▸ hp.integral_comp' G⟩

/-- The density of one parameter is a function of the point, with integral one. -/
lemma single_density {E : Ext} {args : KDEArgs d} {k : KDE d} (h : KDE.init E args = .ok k) (srt : List ℝ → List ℕ) (hr : args.reflect = .none)
    (hM : (Spec.kernelMatrix k.covariance k.bandwidth).PosDef) (i : Fin d) :
    ∃ F : ℝ → ℝ, Integrable F ∧ ∫ x, F x = 1 ∧
      ∀ l, (k.density E srt (some (.rows [l])) .none (single i) false true).1 = .ok (.rows [l], ⟨[l.length], l.map F⟩) := by
  have hl : ∀ l : List ℝ, rowsOf (l.map fun x => (fun _ : Fin 1 => x)) = [l] := fun l => by simp [rowsOf, Function.comp_def]
  by_cases hd : d = 1
  · subst hd
    obtain ⟨G, h1, h2, h3⟩ := C07_normalised h srt one_pos hr hM
    obtain ⟨h4, h5⟩ := line_integral h2 h3
    refine ⟨_, h4, h5, fun l => ?_⟩
    have := h1 [] (l.map fun x => (fun _ : Fin 1 => x))
    rw [hl, List.foldl_nil, KDE.pdf, List.length_map, List.map_map] at this
    rw [single, if_pos rfl]
    exact this
  · have hM' : ((Spec.kernelMatrix k.covariance k.bandwidth).submatrix [i].get [i].get).PosDef :=
      hM.submatrix (fun a b _ => Subsingleton.elim (α := Fin 1) a b)
    have hw := (weighted_total_pos h).1
    obtain ⟨h2, h3⟩ := mixture_normalised (n := 1) one_pos k.kernel.dist hM' (Spec.weighted (args.dataset.map (Spec.project [i])) k.weights)
      (T := ((Spec.weighted args.dataset k.weights).map Prod.snd).sum) (by
        cases k.weights with
        | none => simp [Spec.weighted, Function.comp_def]
        | some w => simp [Spec.weighted, List.zip_map_left, Function.comp_def]) hw.ne'
    obtain ⟨h4, h5⟩ := line_integral h2 h3
    refine ⟨_, h4, h5, fun l => ?_⟩
    have := C10_params_density h srt hd hr [i] (by simp) hM' [] (l.map fun x => (fun _ : Fin 1 => x))
    have hl' : rowsOf (m := [i].length) (l.map fun x => (fun _ : Fin 1 => x)) = [l] := hl l
    rw [hl', List.foldl_nil, KDE.pdf, List.length_map, List.map_map] at this
    rw [single, if_neg hd]
    exact this

/-- The same with or without normalisation. -/
lemma single_density_at {E : Ext} {args : KDEArgs d} {k : KDE d} (hk : KDE.init E args = .ok k) (srt : List ℝ → List ℕ) (hr : args.reflect = .none)
    (hM : (Spec.kernelMatrix k.covariance k.bandwidth).PosDef) (i : Fin d) (probability : Bool) :
    ∃ F : ℝ → ℝ, Integrable F ∧ ∫ x, F x = (if probability then 1 else dataWeight (dataRow k.dataset i) k.weights) ∧
      ∀ l, (k.density E srt (some (.rows [l])) .none (single i) false probability).1 = .ok (.rows [l], ⟨[l.length], l.map F⟩) := by
  have hne := dataset_ne hk
  obtain ⟨F1, f1, f2, f3⟩ := single_density hk srt hr hM i
  have hT : k.totalWeight = dataWeight (dataRow k.dataset i) k.weights := by
    cases hkw : k.weights with
    | none => simp [KDE.totalWeight, hkw, dataWeight, dataRow]
    | some w => simp [KDE.totalWeight, hkw, dataWeight]
  have hT0 : k.totalWeight ≠ 0 := by
    cases hkw : k.weights with
    | none => simpa [KDE.totalWeight, hkw] using hne
    | some w => simpa [KDE.totalWeight, hkw] using (stored_weights hk hkw).2.2.ne'
  cases probability with
  | true => exact ⟨F1, f1, by simpa using f2, f3⟩
  | false =>
    refine ⟨fun x => F1 x * k.totalWeight, f1.mul_const _, ?_, fun l => ?_⟩
    · rw [integral_mul_const, f2, hT]; simp
    · have := density_unnormalised hT0 (f3 l)
      rwa [List.map_map] at this

lemma single_density_of {E : Ext} {args : KDEArgs d} {k : KDE d} (hk : KDE.init E args = .ok k) (srt : List ℝ → List ℕ) (hr : args.reflect = .none)
    (hM : (Spec.kernelMatrix k.covariance k.bandwidth).PosDef) (i : Fin d) (probability : Bool) :
    ∃ F : ℝ → ℝ,
      ∀ l, (k.density E srt (some (.rows [l])) .none (single i) false probability).1 = .ok (.rows [l], ⟨[l.length], l.map F⟩) := by
  obtain ⟨F, -, -, h⟩ := single_density_at hk srt hr hM i probability
  exact ⟨F, h⟩

/-- **C101.** The curve and the histogram drawn by `dist1d` have the same normalisation: without reflection, the curve follows (times `density`) a
function whose integral is one, or the total weight of the data with `probability=False`; the area under the steps is the same if the histogram
chooses its edges, and otherwise the weight of the data within the given edges, in the same units. -/
theorem C101_same_scale {E : Ext} {args : KDEArgs d} {k : KDE d} (hk : KDE.init E args = .ok k) (hr : args.reflect = .none)
    (hM : (Spec.kernelMatrix k.covariance k.bandwidth).PosDef) (srt : List ℝ → List ℕ) (auto : List ℝ → ℕ) (sel : ℕ → ℕ → List ℕ)
    (hsel : IsChoice sel) (fuzz : ℕ → ℝ) (top : ℝ) (a : Dist1dArgs) (hb : BinsOk a.edges) (i : Fin d) (ha : 1 ≤ auto (dataRow k.dataset i))
    (hq : Names a.param i) (out : Dist1dOut) (h : dist1d E srt auto sel fuzz top k a = .ok out) :
    ∃ F : ℝ → ℝ, Integrable F ∧ ∫ x, F x = (if a.probability then 1 else dataWeight (dataRow k.dataset i) k.weights) ∧
      (∀ l, (k.density E srt (some (.rows [l])) .none (single i) false a.probability).1 = .ok (.rows [l], ⟨[l.length], l.map F⟩)) ∧
      (∀ c, out.curve = some c → ∀ p ∈ c, (upright a.rotate p).2 = F (upright a.rotate p).1 * (a.density.getD (some 1)).getD 0) ∧
      ∀ s, out.hist = some s →
        ((∀ l, a.edges ≠ .arr l) → areaUnder ((visible s).map (upright a.rotate))
          = if a.probability then 1 else dataWeight (dataRow k.dataset i) k.weights) ∧
        ∀ l, a.edges = .arr l → areaUnder ((visible s).map (upright a.rotate))
          = weightOf (InRangeOf l) (dataRow k.dataset i) (k.weights.getD ((dataRow k.dataset i).map fun _ => 1))
            / (if a.probability then dataWeight (dataRow k.dataset i) k.weights else 1) := by
  have hne := dataset_ne hk
  have hw : ∀ w, k.weights = some w → w.length = k.dataset.length := fun w e => (stored_weights hk e).1
  obtain ⟨hs, -⟩ := C100_components E srt auto sel hsel fuzz top k hw a i hq out h
  have key := single_density_at hk srt hr hM i a.probability
  obtain ⟨F, g1, g2, g3⟩ := key
  refine ⟨F, g1, g2, g3, ?_, ?_⟩
  · intro c hc p hp
    obtain ⟨v, hv, he⟩ := hs.curve c hc p hp
    rw [g3] at hv
    simp only [Except.ok.injEq, Prod.mk.injEq, Arr.mk.injEq, List.map_cons, List.map_nil, List.cons.injEq, and_true] at hv
    rw [he, ← hv.2.2]
  · intro s hs'
    obtain ⟨hist, e, hh⟩ := hs.hist s hs'
    have hvw : ValidWeights (dataRow k.dataset i).length k.weights := validWeights_stored hk (by simp [dataRow])
    have hne' : dataRow k.dataset i ≠ [] := by simpa [dataRow] using hne
    obtain ⟨-, c1, c2, c3⟩ := C99_area auto false _ hne' ha k.weights hvw a.edges hb a.probability true a.rotate hist e s hh
    refine ⟨c3, fun l hl => ?_⟩
    rw [c1 l hl] at c2
    exact c2

/-! ### C102 -/

lemma packVals_of_single {E : Ext} {k : KDE d} {probability : Bool} {sel : Option (List (Fin d))} {r : Reflect} {l : List ℝ} {arr : Arr}
    (h : packVals E k probability sel r ⟨.rows [l], false, false⟩ = .ok (.rows [l], arr)) {pts : Pts} (hp : pts.toRows = [l]) (sq : Bool) :
    ∃ s, packVals E k probability sel r ⟨pts, false, sq⟩ = .ok (if sq then .flat l else pts, ⟨s, arr.vals⟩) := by
  have he : PtsUse.evalRows ⟨pts, false, sq⟩ = [l] := hp
  have he' : PtsUse.evalRows ⟨.rows [l], false, false⟩ = [l] := rfl
  unfold packVals at h ⊢
  rw [he] 
  rw [he'] at h
  cases hc : toCols [l] with
  | error e => rw [hc] at h; cases h
  | ok cols =>
    rw [hc] at h
    simp only at h ⊢
    cases ho : outVals E k probability sel cols r with
    | error e => rw [ho] at h; cases h
    | ok vals =>
      rw [ho] at h
      simp only [Except.map, packResult, Bool.false_eq_true, if_false, Except.ok.injEq, Prod.mk.injEq, true_and] at h
      subst h
      cases sq <;> simp [Except.map, packResult, hp]

/-- The abscissae of the curve: the given edges, the points of the KDE, or the single point at the given integer. -/
lemma scalar_density {E : Ext} {srt : List ℝ → List ℕ} {k : KDE d} {q : ℤ} {i : Fin d} (hq : Names q i) (h1 : d = 1 → q = 0) {probability : Bool}
    {F : ℝ → ℝ} (hF : ∀ l, (k.density E srt (some (.rows [l])) .none (single i) false probability).1 = .ok (.rows [l], ⟨[l.length], l.map F⟩)) :
    (∀ l, ∃ s, (k.density E srt (some (.flat l)) .none (.scalar q) false probability).1 = .ok (.flat l, ⟨s, l.map F⟩)) ∧
    (∀ l, ∃ P s, (k.density E srt (some (.rows [l])) .none (.scalar q) false probability).1 = .ok (P, ⟨s, l.map F⟩) ∧ (d = 1 → P = .rows [l])) ∧
    (∀ p, (k.points srt).1 = .ok p → (d = 1 → ∃ l, p.toRows = [l]) → ∃ P s,
      (k.density E srt none .none (.scalar q) false probability).1 = .ok (P, ⟨s, (p.toRows.getD i []).map F⟩) ∧
      P = if d = 1 then p else .flat (p.toRows.getD i [])) := by
  obtain ⟨s, hs⟩ : ∃ s, paramSel d (.scalar q) = .ok s := by
    by_cases hd : d = 1
    · exact ⟨(none, false), by simp only [paramSel, if_pos hd, if_pos (h1 hd)]⟩
    · exact ⟨(some [i], true), by simp only [paramSel, if_neg hd, dimIndex_names hq, Except.map]⟩
  obtain ⟨b, h2, h3, h4, h5⟩ := scalar_single hq hs
  obtain ⟨sel, sq⟩ := s
  simp only at h2 h3 h4 h5
  subst h3
  obtain ⟨r, hr⟩ : ∃ r, reflectLength d (numSel sel) (k.defaultReflect sel .none) = .ok r := by
    have := hF []
    cases hr : reflectLength d (numSel sel) (k.defaultReflect sel .none) with
    | error e => simp [KDE.density, h2, hr] at this
    | ok r => exact ⟨r, rfl⟩
  have hF' : ∀ l, packVals E k probability sel r ⟨.rows [l], false, false⟩ = .ok (.rows [l], ⟨[l.length], l.map F⟩) := by
    intro l
    have := hF l
    rw [density_eq_steps E srt _ _ _ _ _ _ h2 hr] at this
    simp only [KDE.choosePoints, andThen] at this
    rwa [evalPoints_fst] at this
  have hsq : d ≠ 1 → sq = true := by
    intro hd
    simp only [paramSel, if_neg hd, dimIndex_names hq, Except.map, Except.ok.injEq, Prod.mk.injEq] at hs
    exact hs.2.symm
  refine ⟨fun l => ?_, fun l => ?_, fun p hp hp1 => ?_⟩
  · obtain ⟨s, e⟩ := packVals_of_single (hF' l) (pts := .rows [l]) rfl true
    refine ⟨s, ?_⟩
    rw [density_eq_steps E srt _ _ _ _ _ _ hs hr]
    simp only [KDE.choosePoints, andThen]
    rw [evalPoints_fst, e]
    rfl
  · obtain ⟨s, e⟩ := packVals_of_single (hF' l) (pts := .rows [l]) rfl sq
    refine ⟨if sq then .flat l else .rows [l], s, ?_, fun hd => by rw [(h5 hd).2]; rfl⟩
    rw [density_eq_steps E srt _ _ _ _ _ _ hs hr]
    simp only [KDE.choosePoints, andThen]
    rw [evalPoints_fst, e]
  · obtain ⟨v, hv⟩ := points_pointsVal hp
    rw [density_eq_steps E srt _ _ _ _ _ _ hs hr]
    simp only [KDE.choosePoints, hv, andThen]
    by_cases hd : d = 1
    · obtain ⟨l, hl⟩ := hp1 hd
      obtain ⟨rfl, rfl⟩ := h5 hd
      have hi : (i : ℕ) = 0 := by have := i.2; omega
      obtain ⟨s, e⟩ := packVals_of_single (hF' l) hl false
      refine ⟨p, s, ?_, (if_pos hd).symm⟩
      simp only [hl, hi, List.getD_cons_zero]
      have h1d : decide (1 < d) = false := by simp [hd]
      rw [h1d, evalPoints_pointsVal, evalPoints_fst, e]
      simp
    · have hsel := h4 hd
      subst hsel
      obtain ⟨s, e⟩ := packVals_of_single (hF' (p.toRows.getD i [])) (pts := .rows [p.toRows.getD i []]) rfl sq
      refine ⟨_, s, ?_, (if_neg hd).symm⟩
      simp only [List.map_cons, List.map_nil, List.length_singleton, lt_irrefl, decide_false]
      rw [evalPoints_pointsVal, evalPoints_fst, e, hsq hd]
      simp

/-- Specification: only the curve is drawn. -/
structure Spec.CurveOnly (a : Dist1dArgs) : Prop where
  density : a.density ≠ some none
  hist : a.hist.getD false = false
  confidence : a.confidence = false
  carpet : a.carpet = .no ∨ a.carpet = .none

lemma dist1d_curveOnly {E : Ext} {srt : List ℝ → List ℕ} {auto : List ℝ → ℕ} {sel : ℕ → ℕ → List ℕ} {fuzz : ℕ → ℝ} {top : ℝ}
    {k : KDE d} {a : Dist1dArgs} (ha : CurveOnly a) {i : Fin d} (hq : Names a.param i) :
    dist1d E srt auto sel fuzz top k a
      = (dist1dCurve E srt k a.edges a.param a.probability a.rotate ((a.density.getD (some 1)).getD 0)).map fun c => ⟨some c, none, none, none⟩ := by
  have hl : scatterLimit a.carpet = .ok .none := by rcases ha.carpet with h | h <;> rw [h] <;> rfl
  obtain ⟨s, hs⟩ : ∃ s, a.density.getD (some 1) = some s := by
    rcases hd : a.density with _ | _ | s
    · exact ⟨1, rfl⟩
    · exact absurd hd ha.density
    · exact ⟨s, rfl⟩
  unfold dist1d dist1dDraw
  rw [dimIndex_names hq]
  simp only [hl, ha.hist, ha.confidence, hs, withArg, Bool.false_eq_true, if_false, Option.getD_some]
  cases dist1dCurve E srt k a.edges a.param a.probability a.rotate s <;> rfl

lemma plotPairs_flat (l : List ℝ) (s : List ℕ) (F : ℝ → ℝ) : plotPairs (.flat l, ⟨s, l.map F⟩) = .ok (l.map fun x => (x, F x)) := by
  have : l.zip (l.map F) = l.map fun x => (x, F x) := by
    induction l with
    | nil => rfl
    | cons x l ih => simp [ih]
  simp [plotPairs, this]

/-- **C102** as claimed: `dist1d` of a KDE draws a curve (more than one point) of each parameter, for any valid `edges`. -/
def C102_Claim : Prop :=
  ∀ (d : ℕ) (E : Ext) (srt : List ℝ → List ℕ) (auto : List ℝ → ℕ) (sel : ℕ → ℕ → List ℕ) (fuzz : ℕ → ℝ) (top : ℝ) (args : KDEArgs d) (k : KDE d)
    (a : Dist1dArgs) (i : Fin d), (∀ l, IsArgsort (srt l) l) → KDE.init E args = .ok k → args.reflect = .none →
    (Spec.kernelMatrix k.covariance k.bandwidth).PosDef → BinsOk a.edges → CurveOnly a → Names a.param i →
    ∃ out c, dist1d E srt auto sel fuzz top k a = .ok out ∧ out.curve = some c ∧ 2 ≤ c.length

/-- **C102**, proved part: with an array of edges, and with the points of the KDE if the data were a plain list or have several parameters, the curve
has exactly these abscissae. -/
theorem C102_partial {E : Ext} {args : KDEArgs d} {k : KDE d} (hk : KDE.init E args = .ok k) (hr : args.reflect = .none)
    (hM : (Spec.kernelMatrix k.covariance k.bandwidth).PosDef) (srt : List ℝ → List ℕ) (auto : List ℝ → ℕ) (sel : ℕ → ℕ → List ℕ)
    (fuzz : ℕ → ℝ) (top : ℝ) (a : Dist1dArgs) (ha : CurveOnly a) (i : Fin d) (hq : Names a.param i) (h1 : d = 1 → a.param = 0) :
    (∀ l, a.edges = .arr l → ∃ out c, dist1d E srt auto sel fuzz top k a = .ok out ∧ out.curve = some c ∧
      c.map (fun p => (upright a.rotate p).1) = l) ∧
    (a.edges = .none → d ≠ 1 ∨ k.squeeze = true → ∀ p, (k.points srt).1 = .ok p →
      ∃ out c, dist1d E srt auto sel fuzz top k a = .ok out ∧ out.curve = some c ∧
        c.map (fun p => (upright a.rotate p).1) = p.toRows.getD i []) := by
  obtain ⟨F, hF⟩ := single_density_of hk srt hr hM i a.probability
  obtain ⟨g1, g2, g3⟩ := scalar_density hq h1 hF
  rw [dist1d_curveOnly ha hq]
  have key : ∀ l : List ℝ, (l.map fun x => (x, F x)).map (fun p => (upright a.rotate (if a.rotate then (p.2 * ((a.density.getD (some 1)).getD 0), p.1)
      else (p.1, p.2 * ((a.density.getD (some 1)).getD 0)))).1) = l := by
    intro l
    rw [List.map_map]
    conv_rhs => rw [← List.map_id l]
    refine List.map_congr_left fun x _ => ?_
    cases a.rotate <;> rfl
  refine ⟨fun l hl => ?_, fun hl hsq p hp => ?_⟩
  · obtain ⟨s, e⟩ := g1 l
    simp only [dist1dCurve, hl, dist1dDensity, e, plotPairs_flat, Except.map]
    refine ⟨_, _, rfl, rfl, ?_⟩
    rw [List.map_map]
    exact key l
  · have hflat : d = 1 → ∃ l, p = .flat l := by
      intro hd
      have hs := hsq.resolve_left (not_not_intro hd)
      unfold KDE.points at hp
      split at hp
      · cases hp; exact ⟨_, by rw [KDE.shapePoints, if_pos hs]⟩
      · split at hp
        · cases hp
        · cases hp; exact ⟨_, by rw [KDE.shapePoints, if_pos hs]⟩
    obtain ⟨P, s, e, hP⟩ := g3 p hp fun hd => by obtain ⟨l, rfl⟩ := hflat hd; exact ⟨l, rfl⟩
    have hP' : P = .flat (p.toRows.getD i []) := by
      rw [hP]
      split
      · rename_i hd
        obtain ⟨l, rfl⟩ := hflat hd
        have hi : (i : ℕ) = 0 := by have := i.2; omega
        simp [Pts.toRows, hi]
      · rfl
    subst hP'
    simp only [dist1dCurve, hl, dist1dDensity, e, plotPairs_flat, Except.map]
    refine ⟨_, _, rfl, rfl, ?_⟩
    rw [List.map_map]
    exact key _

/-- **C102**, exactly what happens otherwise: a number of bins is a `TypeError` if there are several parameters and a single point if there is one;
the default points are a `ValueError` if the data were an array of one row; so is the parameter -1 if there is only one. -/
theorem C102_fails {E : Ext} {args : KDEArgs d} {k : KDE d} (hk : KDE.init E args = .ok k) (hr : args.reflect = .none)
    (hM : (Spec.kernelMatrix k.covariance k.bandwidth).PosDef) (srt : List ℝ → List ℕ) (auto : List ℝ → ℕ) (sel : ℕ → ℕ → List ℕ)
    (fuzz : ℕ → ℝ) (top : ℝ) (a : Dist1dArgs) (ha : CurveOnly a) (i : Fin d) (hq : Names a.param i) :
    (∀ n, a.edges = .int n → d ≠ 1 → dist1d E srt auto sel fuzz top k a = .error .typeError) ∧
    (∀ n, a.edges = .int n → d = 1 → a.param = 0 → ∃ out y, dist1d E srt auto sel fuzz top k a = .ok out ∧
      out.curve = some [upright a.rotate ((n : ℝ), y)]) ∧
    (a.edges = .none → d = 1 → a.param = 0 → ∀ l, (k.points srt).1 = .ok (.rows [l]) → l.length ≠ 1 →
      dist1d E srt auto sel fuzz top k a = .error .valueError) ∧
    (d = 1 → a.param ≠ 0 → dist1d E srt auto sel fuzz top k a = .error .valueError) := by
  obtain ⟨F, hF⟩ := single_density_of hk srt hr hM i a.probability
  rw [dist1d_curveOnly ha hq]
  refine ⟨fun n hn hd => ?_, fun n hn hd h0 => ?_, fun hn hd h0 l hl hl1 => ?_, fun hd h0 => ?_⟩
  · obtain ⟨-, g2, -⟩ := scalar_density hq (fun h => absurd h hd) hF
    obtain ⟨P, s, e, -⟩ := g2 [(n : ℝ)]
    simp only [dist1dCurve, hn, dist1dDensity, e, if_neg hd, Except.map]
  · obtain ⟨-, g2, -⟩ := scalar_density hq (fun _ => h0) hF
    obtain ⟨P, s, e, hP⟩ := g2 [(n : ℝ)]
    rw [hP hd] at e
    simp only [dist1dCurve, hn, dist1dDensity, e, if_pos hd, plotPairs, Except.map, List.map_cons, List.map_nil, List.length_singleton, if_true]
    refine ⟨_, F n * (a.density.getD (some 1)).getD 0, rfl, ?_⟩
    cases a.rotate <;> simp [upright]
  · obtain ⟨-, -, g3⟩ := scalar_density hq (fun _ => h0) hF
    obtain ⟨P, s, e, hP⟩ := g3 _ hl fun _ => ⟨l, rfl⟩
    rw [if_pos hd] at hP
    subst hP
    have : plotPairs (.rows [l], ⟨s, ((Pts.rows [l]).toRows.getD i []).map F⟩) = .error .valueError := by
      rcases l with _ | ⟨x, _ | ⟨y, l⟩⟩
      · rfl
      · simp at hl1
      · rfl
    simp only [dist1dCurve, hn, dist1dDensity, e, this, Except.map]
  · have hs : paramSel d (.scalar a.param) = .error .valueError := by simp only [paramSel, if_pos hd, if_neg h0]
    have : ∀ pts, (k.density E srt pts .none (.scalar a.param) false a.probability).1 = .error .valueError := by
      intro pts
      simp only [KDE.density, hs]
    simp only [dist1dCurve]
    cases a.edges <;> simp only [dist1dDensity, this, Except.map]

/-- **C102** fails: two parameters and 5 bins. -/
theorem C102_refuted : ¬ C102_Claim := by
  intro hc
  obtain ⟨srt, hs⟩ := exists_argsort
  let E : Ext := ⟨fun M => M⁻¹, fun _ => 0⟩
  obtain ⟨k, hk, _, _, hM⟩ := unit_init E [![(0 : ℝ), 1], ![2, 5]] (by simp) [1, 3] ⟨rfl, by simp, 1, by simp, by norm_num⟩ .box rfl
  have hM' : (Spec.kernelMatrix k.covariance k.bandwidth).PosDef := by rw [hM]; exact Matrix.PosDef.one
  have ha : CurveOnly { edges := .int 5, carpet := .no } := ⟨by simp, rfl, rfl, Or.inl rfl⟩
  obtain ⟨out, c, h, -⟩ := hc 2 E srt (fun _ => 1) (fun _ n => List.range n) (fun _ => 0) 1 _ k { edges := .int 5, carpet := .no } 0 hs hk rfl hM'
    (by simp [BinsOk]) ha (Or.inl rfl)
  rw [(C102_fails hk rfl hM' srt _ _ _ _ _ ha 0 (Or.inl rfl)).1 5 rfl (by norm_num)] at h
  cases h

/-- Concrete case of the hypotheses of C100, C101 and C102: the curve of the second of two parameters, and the histogram on three given edges. -/
example : ∃ (E : Ext) (srt : List ℝ → List ℕ) (args : KDEArgs 2) (k : KDE 2) (out : Dist1dOut) (c : List (ℝ × ℝ)), KDE.init E args = .ok k ∧
    args.reflect = .none ∧ (Spec.kernelMatrix k.covariance k.bandwidth).PosDef ∧ BinsOk (.arr [0, 2, 6]) ∧
    dist1d E srt (fun _ => 1) (fun _ n => List.range n) (fun _ => 0) 1 k { edges := .arr [0, 2, 6], param := 1, carpet := .no } = .ok out ∧
    out.curve = some c ∧ c.length = 3 := by
  obtain ⟨srt, hs⟩ := exists_argsort
  let E : Ext := ⟨fun M => M⁻¹, fun _ => 0⟩
  obtain ⟨k, hk, _, _, hM⟩ := unit_init E [![(0 : ℝ), 1], ![2, 5]] (by simp) [1, 3] ⟨rfl, by simp, 1, by simp, by norm_num⟩ .box rfl
  have hM' : (Spec.kernelMatrix k.covariance k.bandwidth).PosDef := by rw [hM]; exact Matrix.PosDef.one
  have ha : CurveOnly { edges := .arr [0, 2, 6], param := 1, carpet := .no } := ⟨by simp, rfl, rfl, Or.inl rfl⟩
  obtain ⟨out, c, h1, h2, h3⟩ := (C102_partial hk rfl hM' srt (fun _ => 1) (fun _ n => List.range n) (fun _ => 0) 1 _ ha 1 (Or.inl rfl)
    (by norm_num)).1 _ rfl
  refine ⟨E, srt, _, k, out, c, hk, rfl, hM', by norm_num [BinsOk], h1, h2, ?_⟩
  have := congrArg List.length h3
  simpa using this

/-! ### C103 -/

/-- Specification: only the histogram is drawn, as is the default for data. -/
structure Spec.HistOnly (a : Dist1dArgs) : Prop where
  density : a.density = none ∨ a.density = some none
  hist : a.hist.getD true = true
  confidence : a.confidence = false
  carpet : a.carpet = .no ∨ a.carpet = .none

lemma dist1dData_histOnly {E : Ext} {srt : List ℝ → List ℕ} {auto : List ℝ → ℕ} {sel : ℕ → ℕ → List ℕ} {fuzz : ℕ → ℝ} {top : ℝ}
    {isList : Bool} {data : List ℝ} {weights : Option (List ℝ)} {a : Dist1dArgs} (ha : HistOnly a) :
    dist1dData E srt auto sel fuzz top isList data weights a
      = (hist1d auto isList data (histArgs a.edges weights true a.probability true a.rotate)).map fun r => ⟨none, some r.2.2, none, none⟩ := by
  have hl : scatterLimit a.carpet = .ok .none := by rcases ha.carpet with h | h <;> rw [h] <;> rfl
  have hd : a.density.getD none = none := by rcases ha.density with h | h <;> rw [h] <;> rfl
  unfold dist1dData dist1dDraw
  simp only [hl, ha.hist, ha.confidence, hd, withArg, Bool.false_eq_true, if_false, if_true]
  change (match (hist1d auto isList data (histArgs a.edges weights true a.probability true a.rotate)).map some with
    | .error e => _ | .ok h => _) = _
  cases hist1d auto isList data (histArgs a.edges weights true a.probability true a.rotate) <;> rfl

/-- **C103** as claimed: `dist1d` draws the histogram of given data, weighted or not. -/
def C103_Claim : Prop :=
  ∀ (E : Ext) (srt : List ℝ → List ℕ) (auto : List ℝ → ℕ) (sel : ℕ → ℕ → List ℕ) (fuzz : ℕ → ℝ) (top : ℝ) (isList : Bool) (data : List ℝ)
    (weights : Option (List ℝ)) (a : Dist1dArgs), data ≠ [] → 1 ≤ auto data → ValidWeights data.length weights → BinsOk a.edges → HistOnly a →
    ∃ out p, dist1dData E srt auto sel fuzz top isList data weights a = .ok out ∧ out.hist = some p

/-- **C103**, proved part, with the exact failures: `TypeError` for weighted data without edges, `AttributeError` for a list of unweighted data unless
`probability=False`.  In all other cases the histogram is drawn, and it has the area of all data within the edges. -/
theorem C103_partial (E : Ext) (srt : List ℝ → List ℕ) (auto : List ℝ → ℕ) (sel : ℕ → ℕ → List ℕ) (fuzz : ℕ → ℝ) (top : ℝ) (isList : Bool)
    (data : List ℝ) (weights : Option (List ℝ)) (a : Dist1dArgs) (hne : data ≠ []) (hauto : 1 ≤ auto data)
    (hw : ValidWeights data.length weights) (hb : BinsOk a.edges) (ha : HistOnly a) :
    (a.edges = .none ∧ weights ≠ none → dist1dData E srt auto sel fuzz top isList data weights a = .error .typeError) ∧
    (isList = true ∧ a.probability = true ∧ weights = none →
      dist1dData E srt auto sel fuzz top isList data weights a = .error .attributeError) ∧
    (¬ (a.edges = .none ∧ weights ≠ none) → ¬ (isList = true ∧ a.probability = true ∧ weights = none) →
      ∃ out p, dist1dData E srt auto sel fuzz top isList data weights a = .ok out ∧ out.hist = some p ∧ out.curve = none ∧
        ((∀ l, a.edges ≠ .arr l) → areaUnder ((visible p).map (upright a.rotate)) = if a.probability then 1 else dataWeight data weights) ∧
        ∀ l, a.edges = .arr l → areaUnder ((visible p).map (upright a.rotate))
          = weightOf (InRangeOf l) data (weights.getD (data.map fun _ => 1)) / (if a.probability then dataWeight data weights else 1)) := by
  rw [dist1dData_histOnly ha]
  obtain ⟨h1, h2, h3⟩ := C98_partial auto isList data hne hauto weights hw a.edges hb true a.probability true a.rotate
  refine ⟨fun h => by rw [h1 h]; rfl, fun h => by rw [h2 h]; rfl, fun c1 c2 => ?_⟩
  obtain ⟨⟨hist, e, p⟩, hr⟩ := h3 c1 c2
  obtain ⟨-, c1, c2, c3⟩ := C99_area auto isList data hne hauto weights hw a.edges hb a.probability true a.rotate hist e p hr
  rw [hr]
  refine ⟨_, p, rfl, rfl, rfl, c3, fun l hl => ?_⟩
  rw [c1 l hl] at c2
  exact c2

/-- **C103** fails: three numbers in a list. -/
theorem C103_refuted : ¬ C103_Claim := by
  intro hc
  have ha : HistOnly { carpet := .no } := ⟨Or.inl rfl, rfl, rfl, Or.inl rfl⟩
  obtain ⟨out, p, h, -⟩ := hc ⟨fun M => M⁻¹, fun _ => 0⟩ (fun _ => []) (fun _ => 1) (fun _ n => List.range n) (fun _ => 0) 1 true [0, 1, 3] none
    { carpet := .no } (by simp) le_rfl trivial trivial ha
  rw [(C103_partial _ _ _ _ _ _ true [0, 1, 3] none { carpet := .no } (by simp) le_rfl trivial trivial ha).2.1 ⟨rfl, rfl, rfl⟩] at h
  cases h

/-- Concrete case of success: the same numbers in an array. -/
example : ∃ out p, dist1dData ⟨fun M => M⁻¹, fun _ => 0⟩ (fun _ => []) (fun _ => 1) (fun _ n => List.range n) (fun _ => 0) 1 false [0, 1, 3] none
    { carpet := .no } = .ok out ∧ out.hist = some p := by
  obtain ⟨out, p, h1, h2, -⟩ := (C103_partial ⟨fun M => M⁻¹, fun _ => 0⟩ (fun _ => []) (fun _ => 1) (fun _ n => List.range n) (fun _ => 0) 1 false
    [0, 1, 3] none { carpet := .no } (by simp) le_rfl trivial trivial ⟨Or.inl rfl, rfl, rfl, Or.inl rfl⟩).2.2 (by simp) (by simp)
  exact ⟨out, p, h1, h2⟩

end Kalepy
