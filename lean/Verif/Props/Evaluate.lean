import Verif.Props.History
import Verif.Props.Bandwidth
import Verif.Props.Lookup
import Verif.Props.Density
import Verif.Props.Reflect
import Verif.Proofs.NDArr

/-!
# `KDE.density` at the level of the class: pointwise evaluation (C01, C02, C05) and grids (C15)
-/

namespace Kalepy

open Matrix

variable {d : ℕ}

/-- Specification: a list of points as the `(D, N)` array passed as `points`: one row per dimension. -/
def Spec.rowsOf {m : ℕ} (pts : List (Fin m → ℝ)) : List (List ℝ) := List.ofFn fun i => pts.map (· i)

lemma toCols_eq {rows : List (List ℝ)} {n : ℕ} (hne : rows ≠ []) (h : ∀ r ∈ rows, r.length = n) :
    ∃ c, toCols rows = .ok c ∧ c.dim = rows.length ∧
      c.cols.map List.ofFn = (List.range n).map fun j => rows.map (·.getD j 0) := by
  cases rows with
  | nil => exact absurd rfl hne
  | cons r rs =>
    have h1 := h r (by simp)
    subst h1
    refine ⟨_, by rw [toCols, if_pos]; simpa using fun x hx => h x (by simp [hx]), rfl, ?_⟩
    simp only [List.map_map]
    refine List.map_congr_left fun j _ => ?_
    refine List.ext_getElem (by simp) fun i h1 h2 => ?_
    simp only [Function.comp_def, List.getElem_ofFn, List.getElem_map, List.get_eq_getElem]

lemma toCols_inv {rows : List (List ℝ)} {c : Cols ℝ} (h : toCols rows = .ok c) :
    rows ≠ [] ∧ ∃ n, ∀ r ∈ rows, r.length = n := by
  cases rows with
  | nil => cases h
  | cons r rs =>
    rw [toCols] at h
    split_ifs at h with hr
    refine ⟨by simp, r.length, fun s hs => ?_⟩
    rcases List.mem_cons.mp hs with rfl | hs
    · rfl
    · simpa using List.all_eq_true.mp hr s hs

lemma rowsOf_length {m : ℕ} (pts : List (Fin m → ℝ)) : (Spec.rowsOf pts).length = m := by simp [Spec.rowsOf]

lemma toCols_rowsOf {m : ℕ} (hm : 0 < m) (pts : List (Fin m → ℝ)) :
    ∃ c, toCols (Spec.rowsOf pts) = .ok c ∧ c.dim = m ∧ c.cols.map List.ofFn = pts.map List.ofFn := by
  obtain ⟨c, h1, h2, h3⟩ := toCols_eq (rows := Spec.rowsOf pts) (n := pts.length)
    (by intro h; have := rowsOf_length pts; rw [h] at this; simp at this; omega)
    (by intro r hr; obtain ⟨i, rfl⟩ := (List.mem_ofFn' _ _).mp hr; simp)
  refine ⟨c, h1, by rw [h2, rowsOf_length], h3.trans ?_⟩
  refine List.ext_getElem (by simp) fun j h4 h5 => ?_
  simp only [List.length_map, List.length_range] at h4 h5
  simp only [List.getElem_map, List.getElem_range, Spec.rowsOf, List.map_ofFn]
  congr 1
  funext i
  simp [h4]

/-- The value at a point (as a list of coordinates) does not depend on the other points. -/
lemma evalKernel_pointwise (E : Ext) (k : KDE d) (sel : Option (List (Fin d))) (r : Reflect) :
    ∃ o : ℕ → Res (List ℝ → ℝ), ∀ cols : Cols ℝ,
      (k.evalKernel E sel cols r).1 = (o cols.dim).map fun f => cols.cols.map fun c => f (List.ofFn c) := by
  have key : ∀ (m : ℕ) (F : Cols ℝ → Res (List ℝ)) (e : PyErr),
      (∃ o : Res ((Fin m → ℝ) → ℝ), ∀ pts, F ⟨m, pts⟩ = o.map fun f => pts.map f) →
      (∀ c : Cols ℝ, c.dim ≠ m → F c = .error e) →
      ∃ o : ℕ → Res (List ℝ → ℝ), ∀ cols : Cols ℝ,
        F cols = (o cols.dim).map fun f => cols.cols.map fun c => f (List.ofFn c) := by
    rintro m F e ⟨o, ho⟩ hF
    refine ⟨fun n => if n = m then o.map fun f l => f fun i => l.getD i 0 else .error e, ?_⟩
    rintro ⟨n, c⟩
    by_cases hn : n = m
    · subst hn
      simp only [if_true]
      rw [ho]
      cases o with
      | error e => rfl
      | ok f =>
        simp only [Except.map, Except.ok.injEq]
        refine List.map_congr_left fun x _ => ?_
        congr 1
        funext i
        simp
    · rw [hF _ hn]
      simp only [if_neg hn]
      rfl
  cases sel with
  | none =>
    simp only [KDE.evalKernel]
    cases checkReflect k.dataset r with
    | error e => exact ⟨fun _ => .error e, fun _ => rfl⟩
    | ok r =>
      exact key d _ .valueError (C01_density_pointwise E k.kernel k.dataset k.weights r) fun c hc => by
        simp only [Kernel.density_fst]
        exact densityCore_dim_ne _ _ _ c hc _ _ _
  | some ps =>
    simp only [KDE.evalKernel]
    cases checkReflect (selectCols k.dataset ps) r with
    | error e => exact ⟨fun _ => .error e, fun _ => rfl⟩
    | ok r =>
      exact key ps.length _ .valueError (C01_density_params_pointwise E k.kernel ps _ k.weights r) fun c hc => by
        simp only [Kernel.densityParams_fst]
        exact densityCore_dim_ne _ _ _ c hc _ _ _

lemma evalKernel_data (E : Ext) (k : KDE d) (sel : Option (List (Fin d))) (cols : Cols ℝ) (r : Reflect) :
    (k.evalKernel E sel cols r).2.totalWeight = k.totalWeight := by
  cases sel <;> simp only [KDE.evalKernel] <;> split <;> rfl

/-- With explicit points in several rows, `density` consists of the validation of `params` and `reflect` and of
independent evaluations. -/
lemma density_rows (E : Ext) (srt : List ℝ → List ℕ) (k : KDE d) (reflect : Reflect) (params : ParamArg)
    (probability : Bool) :
    ∃ o : ℕ → Res ((List ℝ → ℝ) × Bool), ∀ (rows : List (List ℝ)) (grid : Bool),
      (∃ e, o rows.length = .error e ∧
        ∃ e', (k.density E srt (some (.rows rows)) reflect params grid probability).1 = .error e') ∨
      (∃ f squeeze, o rows.length = .ok (f, squeeze) ∧ ((∀ p, params ≠ .scalar p) → squeeze = false) ∧
        (k.density E srt (some (.rows rows)) reflect params grid probability).1 =
          (toCols (if grid then meshRows rows else rows)).map fun c =>
            packResult ⟨.rows rows, grid, squeeze⟩ (c.cols.map fun x => f (List.ofFn x))) := by
  cases hs : paramSel d params with
  | error e =>
    exact ⟨fun _ => .error e, fun rows grid => Or.inl ⟨e, rfl, e, by simp [KDE.density, hs]⟩⟩
  | ok s =>
    obtain ⟨sel, squeeze⟩ := s
    have hsq : (∀ p, params ≠ .scalar p) → squeeze = false := by
      intro hp
      cases params with
      | none => simp only [paramSel, Except.ok.injEq, Prod.mk.injEq] at hs; exact hs.2.symm
      | scalar p => exact absurd rfl (hp p)
      | list l =>
        simp only [paramSel] at hs
        split_ifs at hs
        cases hm : listSeq (dimIndex d) l <;> rw [hm] at hs <;> simp only [Except.map, reduceCtorEq,
          Except.ok.injEq, Prod.mk.injEq] at hs
        exact hs.2.symm
    cases hr : reflectLength d (numSel sel) (k.defaultReflect sel reflect) with
    | error e =>
      exact ⟨fun _ => .error e, fun rows grid => Or.inl ⟨e, rfl, e, by simp [KDE.density, hs, hr]⟩⟩
    | ok r =>
      obtain ⟨o, ho⟩ := evalKernel_pointwise E k sel r
      refine ⟨fun n => (o n).map fun f => ((fun l => if probability then f l / k.totalWeight else f l), squeeze), ?_⟩
      intro rows grid
      rw [density_eq_steps E srt k _ reflect params grid probability hs hr]
      simp only [KDE.choosePoints, andThen, evalPoints, PtsUse.evalRows, Pts.toRows]
      cases ht : toCols (if grid then meshRows rows else rows) with
      | error e =>
        cases hof : o rows.length with
        | error e' => exact Or.inl ⟨e', rfl, e, rfl⟩
        | ok f => exact Or.inr ⟨_, squeeze, rfl, hsq, rfl⟩
      | ok c =>
        have hdim : c.dim = rows.length := by
          obtain ⟨hne, n, hn⟩ := toCols_inv ht
          obtain ⟨c', h1, h2, _⟩ := toCols_eq hne hn
          rw [h1] at ht; cases ht
          rw [h2]
          split_ifs
          · simp [meshRows]
          · rfl
        have he : (k.evalKernel E sel c r).1
            = (o rows.length).map fun f => c.cols.map fun x => f (List.ofFn x) := by rw [← hdim]; exact ho c
        have htot := evalKernel_data E k sel c r
        simp only
        rcases hk : k.evalKernel E sel c r with ⟨v, k2⟩
        rw [hk] at he htot
        simp only at he htot
        subst he
        cases hof : o rows.length with
        | error e' => exact Or.inl ⟨e', rfl, e', rfl⟩
        | ok f =>
          refine Or.inr ⟨_, squeeze, rfl, hsq, ?_⟩
          simp only [Except.map, finish, htot]
          cases probability <;> simp [Function.comp_def]

/-- **C01** for the class: one value per point, in order, that depends only on the point: for every number of
coordinates `m`, all (valid) arguments `reflect`, `params`, `probability` and every state of the object. -/
theorem C01_kde_density_pointwise (E : Ext) (srt : List ℝ → List ℕ) (k : KDE d) (reflect : Reflect)
    (params : ParamArg) (hp : ∀ p, params ≠ .scalar p) (probability : Bool) (m : ℕ) (hm : 0 < m) :
    (∃ f : (Fin m → ℝ) → ℝ, ∀ pts : List (Fin m → ℝ),
      (k.density E srt (some (.rows (Spec.rowsOf pts))) reflect params false probability).1
        = .ok (.rows (Spec.rowsOf pts), ⟨[pts.length], pts.map f⟩)) ∨
    (∀ pts : List (Fin m → ℝ),
      ∃ e, (k.density E srt (some (.rows (Spec.rowsOf pts))) reflect params false probability).1 = .error e) := by
  obtain ⟨o, ho⟩ := density_rows E srt k reflect params probability
  cases hof : o m with
  | error e =>
    right
    intro pts
    rcases ho (Spec.rowsOf pts) false with ⟨_, _, h⟩ | ⟨f, sq, h, _⟩
    · exact h
    · rw [rowsOf_length, hof] at h; cases h
  | ok g =>
    left
    refine ⟨fun x => g.1 (List.ofFn x), fun pts => ?_⟩
    rcases ho (Spec.rowsOf pts) false with ⟨_, h, _⟩ | ⟨f, sq, h, hsq, he⟩
    · rw [rowsOf_length, hof] at h; cases h
    · rw [rowsOf_length, hof] at h
      cases h
      rw [he, hsq hp]
      obtain ⟨c, hc, _, hcols⟩ := toCols_rowsOf hm pts
      have hv : c.cols.map (fun x => f (List.ofFn x)) = pts.map fun x => f (List.ofFn x) := by
        have := congrArg (List.map f) hcols
        simpa [List.map_map, Function.comp_def] using this
      simp only [Bool.false_eq_true, if_false, hc, Except.map, packResult, valShape, Pts.toRows, hv, List.length_map]

/-- With explicit points, no `params`, and the stored reflection (or none), `KDE.density` is `Kernel.density`,
divided by the total weight if a probability is asked for. -/
lemma kde_density_eq {E : Ext} {a : KDEArgs d} {k : KDE d} (h : KDE.init E a = .ok k) (srt : List ℝ → List ℕ)
    (hd : 0 < d) (probability : Bool) (pts : List (Fin d → ℝ)) :
    (k.density E srt (some (.rows (Spec.rowsOf pts))) .none .none false probability).1
      = (k.kernel.density E ⟨d, pts⟩ k.dataset k.weights k.reflect).1.map fun vals =>
          (.rows (Spec.rowsOf pts),
            ⟨[pts.length], if probability then vals.map (· / k.totalWeight) else vals⟩) := by
  obtain ⟨rows, w, cov, bw0, D, out, eff, ext, hr, hne, _, _, _, _, _, _, _, _, hk⟩ := init_inv h
  have e1 : k.reflect = rows := by rw [hk]
  have e2 : k.dataset = a.dataset := by rw [hk]
  rw [e2, e1]
  have hrl : reflectLength d d (Reflect.ofChecked rows) = .ok (Reflect.ofChecked rows) ∧
      checkReflect a.dataset (Reflect.ofChecked rows) = .ok rows := by
    cases rows with
    | none => exact ⟨rfl, rfl⟩
    | some rs =>
      refine ⟨?_, C20_idempotent _ hne _ rs hr _ hne⟩
      have := (C20_result _ hne _ rs hr).1
      simp [Reflect.ofChecked, reflectLength, this]
  rw [density_eq_steps E srt k _ .none .none false probability (sel := none) (r := Reflect.ofChecked rows) rfl
    (by rw [← hrl.1, KDE.defaultReflect, e1]; rfl)]
  simp only [KDE.choosePoints, andThen, evalPoints, PtsUse.evalRows, Pts.toRows, Bool.false_eq_true, if_false]
  obtain ⟨⟨n, c⟩, hc, hdim, hcols⟩ := toCols_rowsOf hd pts
  simp only at hdim hcols
  subst hdim
  have hcp : c = pts := List.map_injective_iff.mpr List.ofFn_injective hcols
  subst hcp
  simp only [hc, KDE.evalKernel, e2, hrl.2]
  have hlen : ∀ vs, (k.kernel.density E ⟨n, c⟩ a.dataset k.weights rows).1 = .ok vs → vs.length = c.length :=
    fun vs hvs => C01_density_length E k.kernel c a.dataset k.weights rows vs hvs
  rcases hk : k.kernel.density E ⟨n, c⟩ a.dataset k.weights rows with ⟨v, kern⟩
  rw [hk] at hlen
  cases v with
  | error e => rfl
  | ok vs =>
    have := hlen vs rfl
    cases probability <;>
      simp [finish, packResult, valShape, this, Except.map, KDE.totalWeight, e2]

/-- **C02** for the class: without reflection the value at `x` is the sum over the weighted data of the kernel in
the metric of the inverse kernel matrix, normalised; `probability=True` divides by the total weight. -/
theorem C02_kde_density {E : Ext} {a : KDEArgs d} {k : KDE d} (h : KDE.init E a = .ok k) (srt : List ℝ → List ℕ)
    (hd : 0 < d) (hr : a.reflect = .none) (hM : (Spec.kernelMatrix k.covariance k.bandwidth).PosDef)
    (pts : List (Fin d → ℝ)) :
    (k.density E srt (some (.rows (Spec.rowsOf pts))) .none .none false false).1 = .ok (.rows (Spec.rowsOf pts),
      ⟨[pts.length], pts.map fun x =>
        Spec.kernelSum k.kernel.dist (Spec.kernelMatrix k.covariance k.bandwidth)
            (Spec.weighted a.dataset k.weights) x
          / (Real.sqrt (Spec.kernelMatrix k.covariance k.bandwidth).det * k.kernel.dist.norm d)⟩) ∧
    (k.pdf E srt (some (.rows (Spec.rowsOf pts))) .none .none false).1 = .ok (.rows (Spec.rowsOf pts),
      ⟨[pts.length], pts.map fun x =>
        Spec.kernelSum k.kernel.dist (Spec.kernelMatrix k.covariance k.bandwidth)
            (Spec.weighted a.dataset k.weights) x
          / (Real.sqrt (Spec.kernelMatrix k.covariance k.bandwidth).det * k.kernel.dist.norm d)
          / ((Spec.weighted a.dataset k.weights).map Prod.snd).sum⟩) := by
  rw [KDE.pdf, kde_density_eq h srt hd, kde_density_eq h srt hd]
  have hw : ∀ l, k.weights = some l → l.length = a.dataset.length := fun l hl => (stored_valid h hl).1
  obtain ⟨rows, w, cov, bw0, D, out, eff, ext, hr', hne, _, _, _, _, _, _, _, _, rfl⟩ := init_inv h
  simp only at hM hw ⊢
  have hrow : rows = none := by rw [hr] at hr'; simpa [checkReflect, eq_comm] using hr'
  subst hrow
  rw [C02_density_eq_kernelSum E D _ _ _ _ hM pts _ _ hw]
  have ht : ∀ w : Option (List ℝ), (∀ l, w = some l → l.length = a.dataset.length) →
      ((Spec.weighted a.dataset w).map Prod.snd).sum
      = (match w with | none => (a.dataset.length : ℝ) | some w => w.sum) := by
    intro w hw
    cases w with
    | none => simp [Spec.weighted, List.map_map, Function.comp_def]
    | some l =>
      simp only [Spec.weighted]
      rw [List.map_snd_zip]
      exact (hw l rfl).le
  rw [ht w hw]
  refine ⟨rfl, ?_⟩
  simp only [Except.map, KDE.totalWeight, Kernel.init, if_true, List.map_map, Function.comp_def]
  cases w <;> rfl

/-- **C05** for the class: no value is negative, whatever the arguments of the constructor. -/
theorem C05_kde_density {E : Ext} {a : KDEArgs d} {k : KDE d} (h : KDE.init E a = .ok k) (srt : List ℝ → List ℕ)
    (hd : 0 < d) (probability : Bool) (pts : List (Fin d → ℝ)) (p : Pts) (arr : Arr)
    (hv : (k.density E srt (some (.rows (Spec.rowsOf pts))) .none .none false probability).1 = .ok (p, arr)) :
    ∀ v ∈ arr.vals, 0 ≤ v := by
  rw [kde_density_eq h srt hd] at hv
  obtain ⟨vs, hvs, he⟩ := map_ok hv
  have hw : ∀ l, k.weights = some l → ∀ x ∈ l, 0 ≤ x := fun l hl => (stored_valid h hl).2.1
  have htot : 0 ≤ k.totalWeight := by
    unfold KDE.totalWeight
    split
    · positivity
    · next w hk => exact List.sum_nonneg (hw w hk)
  have hvs' : ∀ v ∈ vs, 0 ≤ v := by
    obtain ⟨rows, w, cov, bw0, D, out, eff, ext, _, _, _, _, _, _, _, _, _, _, rfl⟩ := init_inv h
    exact C05_density_nonneg E D _ _ _ _ hd pts _ _ hw _ vs hvs
  cases he
  intro v hv
  cases probability with
  | false => exact hvs' v hv
  | true =>
    obtain ⟨u, hu, rfl⟩ := List.mem_map.mp (show v ∈ vs.map (· / k.totalWeight) from hv)
    exact div_nonneg (hvs' u hu) htot

/-! ## C15 -/

/-- Specification: the point of the product grid with the given index, as the argument `points`. -/
def Spec.gridPoint (rows : List (List ℝ)) (idx : Fin rows.length → ℕ) : List (List ℝ) :=
  List.ofFn fun i => [(rows.get i).getD (idx i) 0]

lemma meshRows_cols (rows : List (List ℝ)) :
    (List.range (∏ i, (rows.get i).length)).map (fun j => (meshRows rows).map (·.getD j 0))
      = (List.range (∏ i, (rows.get i).length)).map fun j => List.ofFn fun i : Fin rows.length =>
          (rows.get i).getD (unravelIdx (fun i => (rows.get i).length) j i) 0 := by
  refine List.map_congr_left fun j hj => ?_
  rw [meshRows, List.map_ofFn]
  congr 1
  funext i
  have hj' : j < (meshgrid rows i).flat.length := by
    rw [NDArr.flat_length]; exact List.mem_range.mp hj
  simp only [Function.comp_apply]
  rw [List.getD_eq_getElem _ _ hj', NDArr.flat_getElem]
  rfl

/-- **C15.** With `grid=True` the result has one axis per row of `points`, of the length of this row, and the
entry with a given index is what `density` returns for this single point of the product grid. -/
theorem C15_grid (E : Ext) (srt : List ℝ → List ℕ) (k : KDE d) (rows : List (List ℝ)) (reflect : Reflect)
    (params : ParamArg) (hp : ∀ p, params ≠ .scalar p) (probability : Bool) (p : Pts) (arr : Arr)
    (h : (k.density E srt (some (.rows rows)) reflect params true probability).1 = .ok (p, arr)) :
    p = .rows rows ∧ arr.shape = rows.map List.length ∧
    arr.vals.length = ∏ i, (rows.get i).length ∧
    ∀ idx : Fin rows.length → ℕ, (∀ i, idx i < (rows.get i).length) →
      ∃ v, arr.vals[ravelIdx (fun i => (rows.get i).length) idx]? = some v ∧
        (k.density E srt (some (.rows (Spec.gridPoint rows idx))) reflect params false probability).1
          = .ok (.rows (Spec.gridPoint rows idx), ⟨[1], [v]⟩) := by
  obtain ⟨o, ho⟩ := density_rows E srt k reflect params probability
  rcases ho rows true with ⟨_, _, e, he⟩ | ⟨f, sq, hf, hsq, he⟩
  · rw [h] at he; cases he
  · rw [h, hsq hp] at he
    simp only [if_true] at he
    obtain ⟨c, hc, hpk⟩ := map_ok he.symm
    have hne : rows ≠ [] := by
      intro h0
      have := (toCols_inv hc).1
      rw [h0] at this
      simp [meshRows] at this
    have hmesh : ∀ r ∈ meshRows rows, r.length = ∏ i, (rows.get i).length := by
      intro r hr
      obtain ⟨i, rfl⟩ := (List.mem_ofFn' _ _).mp hr
      rw [NDArr.flat_length]
      rfl
    obtain ⟨c', h1, h2, h3⟩ := toCols_eq (toCols_inv hc).1 hmesh
    rw [h1] at hc; cases hc
    rw [meshRows_cols] at h3
    have hv : c.cols.map (fun x => f (List.ofFn x)) = (List.range (∏ i, (rows.get i).length)).map fun j =>
        f (List.ofFn fun i : Fin rows.length =>
          (rows.get i).getD (unravelIdx (fun i => (rows.get i).length) j i) 0) := by
      have := congrArg (List.map f) h3
      simpa only [List.map_map, Function.comp_def] using this
    simp only [packResult, valShape, Pts.toRows, hv, if_true, Bool.false_eq_true, if_false, Prod.mk.injEq] at hpk
    obtain ⟨rfl, rfl⟩ := hpk
    refine ⟨rfl, rfl, by simp, fun idx hidx => ?_⟩
    have hlt := ravelIdx_lt (shape := fun i : Fin rows.length => (rows.get i).length) hidx
    refine ⟨f (List.ofFn fun i => (rows.get i).getD (idx i) 0), ?_, ?_⟩
    · rw [List.getElem?_eq_getElem (by simpa using hlt)]
      simp only [List.getElem_map, List.getElem_range]
      rw [unravel_ravelIdx hidx]
    · have hlen : (Spec.gridPoint rows idx).length = rows.length := by simp [Spec.gridPoint]
      rcases ho (Spec.gridPoint rows idx) false with ⟨_, h', _⟩ | ⟨f', sq', hf', _, he'⟩
      · rw [hlen, hf] at h'; cases h'
      · rw [hlen, hf] at hf'
        cases hf'
        rw [he', hsq hp]
        obtain ⟨c'', g1, g2, g3⟩ := toCols_eq (rows := Spec.gridPoint rows idx) (n := 1)
          (by intro h0; rw [h0] at hlen; exact hne (List.eq_nil_of_length_eq_zero hlen.symm))
          (by intro r hr; obtain ⟨i, rfl⟩ := (List.mem_ofFn' _ _).mp hr; rfl)
        have hv' : c''.cols.map (fun x => f (List.ofFn x)) = [f (List.ofFn fun i => (rows.get i).getD (idx i) 0)] := by
          have := congrArg (List.map f) g3
          simpa only [List.map_map, Function.comp_def, List.range_one, List.map_cons, List.map_nil, Spec.gridPoint,
            List.map_ofFn, List.getD_cons_zero] using this
        simp only [Bool.false_eq_true, if_false, g1, Except.map, packResult, valShape, Pts.toRows, hv',
          List.length_singleton]

/-- **C15.** For a single row the product grid is the row itself: `grid=True` makes no difference (also for
one-dimensional arrays and a scalar `params`). -/
theorem C15_single (E : Ext) (srt : List ℝ → List ℕ) (k : KDE d) (points : Pts) (l : List ℝ)
    (h1 : points.toRows = [l]) (reflect : Reflect) (params : ParamArg) (probability : Bool) :
    (k.density E srt (some points) reflect params true probability).1
      = (k.density E srt (some points) reflect params false probability).1 := by
  have hmesh : meshRows [l] = [l] := by
    have : (meshgrid [l] (0 : Fin 1)).flat = l := by
      refine List.ext_getElem (by simp [NDArr.flat, NDArr.size, meshgrid]) fun j h1 h2 => ?_
      rw [NDArr.flat_getElem]
      have : (unravelIdx (fun j : Fin 1 => ([l].get j).length) j) 0 = j := by
        simp [unravelIdx, Fin.snoc, Nat.mod_eq_of_lt h2]
      simp only [meshgrid]
      erw [this]
      simp [h2]
    simp only [meshRows]
    simpa using this
  have hgen : ∀ (rows : Pts), rows.toRows = [l] → ∀ squeeze sel r (k : KDE d),
      (evalPoints E sel r probability ⟨rows, true, squeeze⟩ k).1
        = (evalPoints E sel r probability ⟨rows, false, squeeze⟩ k).1 := by
    intro rows hrows squeeze sel r k
    simp only [evalPoints, PtsUse.evalRows, hrows, hmesh, if_true, Bool.false_eq_true, if_false]
    cases ht : toCols [l] with
    | error e => rfl
    | ok c =>
      simp only
      obtain ⟨c', g1, _, g3⟩ := toCols_eq (rows := [l]) (n := l.length) (by simp) (by simp)
      rw [g1] at ht; cases ht
      have hlen : c.cols.length = l.length := by simpa using congrArg List.length g3
      obtain ⟨o, ho⟩ := evalKernel_pointwise E k sel r
      have he := ho c
      rcases hk : k.evalKernel E sel c r with ⟨v, k2⟩
      rw [hk] at he
      simp only at he
      subst he
      cases o c.dim with
      | error e => rfl
      | ok f =>
        simp only [andThen, Except.map, finish, packResult, valShape, hrows, if_true, Bool.false_eq_true, if_false]
        cases probability <;> simp [hlen]
  cases hs : paramSel d params with
  | error e => simp [KDE.density, hs]
  | ok s =>
    obtain ⟨sel, squeeze⟩ := s
    cases hr : reflectLength d (numSel sel) (k.defaultReflect sel reflect) with
    | error e => simp [KDE.density, hs, hr]
    | ok r =>
      rw [density_eq_steps E srt k _ _ _ _ _ hs hr, density_eq_steps E srt k _ _ _ _ _ hs hr]
      cases points with
      | flat l' => exact hgen (.rows [l']) h1 _ _ _ _
      | rows rs => exact hgen (.rows rs) h1 _ _ _ _

/-! ## Concrete cases -/

/-- With a finite kernel, unit covariance and bandwidth 1 the construction succeeds and the kernel matrix is
the unit matrix. -/
lemma unit_init (E : Ext) (data : List (Fin d → ℝ)) (hne : data ≠ []) (w : List ℝ)
    (hw : Spec.ValidW data.length w) (D : Dist) (hD : D.finite = true) :
    ∃ k, KDE.init E
      { dataset := data
        weights := .arr (w.map Flt.fin)
        kernel := .cls D
        bandwidth := .val (.num 1)
        covariance := some 1 } = .ok k ∧ k.weights = some w ∧ k.kernel.dist = D ∧
      Spec.kernelMatrix k.covariance k.bandwidth = 1 := by
  obtain ⟨k, hk, hkw⟩ := C16_accepted E data hne w hw D hD 1 1 (by simp [Matrix.one_apply])
  refine ⟨k, hk, hkw, ?_⟩
  obtain ⟨B, hB, hR⟩ := C18_bandwidth hk
  obtain ⟨_, _, cov, _, D', _, _, _, _, _, _, hc, _, hD', _, _, _, _, he⟩ := init_inv hk
  simp only [getDistribution, Except.ok.injEq] at hD'
  simp only [covArg, Except.ok.injEq] at hc
  obtain ⟨b, rfl, hb⟩ := hB
  simp only [Spec.Rescaled] at hR
  refine ⟨by rw [he, ← hD']; rfl, ?_⟩
  ext i j
  rw [Spec.kernelMatrix, Matrix.of_apply, hR, hb, show k.covariance = 1 by rw [he, ← hc]]
  simp

/-- Concrete case of the hypotheses of `C02_kde_density` and `C05_kde_density`; by the former, also those of
`C15_grid` and the first alternative of `C01_kde_density_pointwise` occur. -/
example : ∃ (E : Ext) (a : KDEArgs 2) (k : KDE 2), KDE.init E a = .ok k ∧ a.reflect = .none ∧
    (Spec.kernelMatrix k.covariance k.bandwidth).PosDef := by
  obtain ⟨k, hk, _, _, hM⟩ := unit_init ⟨fun A => A, id⟩ [![0, 1], ![2, 5]] (by simp) [1, 3]
    ⟨rfl, by simp, 1, by simp, by norm_num⟩ .box rfl
  exact ⟨_, _, k, hk, rfl, by rw [hM]; exact PosDef.one⟩

/-- A grid evaluation that succeeds. -/
example (srt : List ℝ → List ℕ) : ∃ (E : Ext) (a : KDEArgs 1) (k : KDE 1) (p : Pts) (arr : Arr),
    KDE.init E a = .ok k ∧ (k.density E srt (some (.rows [[0, 1 / 2]])) .none .none true false).1 = .ok (p, arr) := by
  obtain ⟨k, hk, _, _, hM⟩ := unit_init (d := 1) ⟨fun A => A, id⟩ [![0], ![1]] (by simp) [1, 3]
    ⟨rfl, by simp, 1, by simp, by norm_num⟩ .box rfl
  have := (C02_kde_density hk srt (by norm_num) rfl (by rw [hM]; exact PosDef.one) [![0], ![1 / 2]]).1
  exact ⟨_, _, k, _, _, hk, (C15_single _ _ _ (.rows [[0, 1 / 2]]) [0, 1 / 2] rfl _ _ _).trans this⟩

/-- **C25 is false of the code**: for a simple KDE `density(..., probability=True)` gives a result, but `pdf`
never does. -/
theorem C25_refuted : ¬ C25_Claim := by
  intro hC
  obtain ⟨k, hk, _, _, hM⟩ := unit_init (d := 1) ⟨fun A => A, id⟩ [![0], ![1]] (by simp) [1, 3]
    ⟨rfl, by simp, 1, by simp, by norm_num⟩ .box rfl
  have := (C02_kde_density hk (fun l => List.range l.length) (by norm_num) rfl (by rw [hM]; exact PosDef.one)
    [![0], ![1 / 2]]).2
  obtain ⟨e, he⟩ := C25_never_returns ⟨fun A => A, id⟩ (fun l => List.range l.length)
    { dataset := [![(0:ℝ)], ![1]]
      weights := .arr ([1, 3].map Flt.fin)
      kernel := .cls .box
      bandwidth := .val (.num 1)
      covariance := some 1 } (some (.rows (Spec.rowsOf [![0], ![1 / 2]]))) .none false
  rw [hC, kalepyDensity, hk] at he
  simp only [KDE.pdf] at this
  simp only at he
  rw [this] at he
  cases he

end Kalepy
