import Verif.Props.Params
import Verif.Props.ResampleReflect

/-!
# The argument `reflect` of `KDE.density`, `KDE.pdf` and `KDE.resample` (C147)
-/

namespace Kalepy

open Matrix

variable {d : ℕ}

/-- Two KDEs constructed from arguments that differ in `reflect` only share everything the evaluation uses. -/
lemma init_reflect_same {E : Ext} {a : KDEArgs d} {k k' : KDE d} {r : Reflect} (h : KDE.init E a = .ok k)
    (h' : KDE.init E { a with reflect := r } = .ok k') :
    k'.dataset = k.dataset ∧ k'.weights = k.weights ∧ k'.kernel = k.kernel ∧ k.dataset ≠ [] ∧
      checkReflect k.dataset r = .ok k'.reflect := by
  obtain ⟨r1, w, cov, bw0, D, out, eff, ext, hr, hne, hw, hc, hb, hD, _, _, _, _, rfl⟩ := init_inv h
  obtain ⟨r1', w', cov', bw0', D', out', eff', ext', hr', hne', hw', hc', hb', hD', _, _, _, _, rfl⟩ := init_inv h'
  simp only at hw' hc' hb' hD' hr' hw hc
  rw [hw] at hw'; cases hw'
  rw [hc] at hc'; cases hc'
  rw [hb] at hb'; cases hb'
  rw [hD] at hD'; cases hD'
  exact ⟨rfl, rfl, rfl, hne, hr'⟩

/-- The evaluation at given points depends on data, weights, kernel and the checked boundaries only. -/
lemma evalPoints_reflect (E : Ext) {k k' : KDE d} (hd : k'.dataset = k.dataset) (hw : k'.weights = k.weights)
    (hk : k'.kernel = k.kernel) (sel : Option (List (Fin d))) {r r' : Reflect}
    (hr : match sel with
      | none => checkReflect k.dataset r = checkReflect k.dataset r'
      | some ps => checkReflect (selectCols k.dataset ps) r = checkReflect (selectCols k.dataset ps) r')
    (probability : Bool) (u : PtsUse) :
    (evalPoints E sel r probability u k).1 = (evalPoints E sel r' probability u k').1 := by
  unfold evalPoints
  cases toCols u.evalRows with
  | error e => rfl
  | ok c =>
    cases sel with
    | none =>
      simp only at hr
      simp only [KDE.evalKernel, hd, hr]
      cases checkReflect k.dataset r' with
      | error e => rfl
      | ok rows =>
        simp only [hw, hk]
        rcases k.kernel.density E c k.dataset k.weights rows with ⟨_ | v, kern⟩
        · rfl
        · simp [andThen, finish, KDE.totalWeight, hd, hw]
    | some ps =>
      simp only at hr
      simp only [KDE.evalKernel, hd, hr]
      cases checkReflect (selectCols k.dataset ps) r' with
      | error e => rfl
      | ok rows =>
        simp only [hw, hk]
        rcases k.kernel.densityParams E ps c (selectCols k.dataset ps) k.weights rows with ⟨_ | v, kern⟩
        · rfl
        · simp [andThen, finish, KDE.totalWeight, hd, hw]

lemma choosePoints_given (srt : List ℝ → List ℕ) (k : KDE d) (points : Pts) (sel : Option (List (Fin d)))
    (grid squeeze : Bool) : ∃ u, ∀ k : KDE d, k.choosePoints srt (some points) sel grid squeeze = (.ok u, k) := by
  cases points with
  | flat l => exact ⟨_, fun _ => rfl⟩
  | rows l => exact ⟨_, fun _ => rfl⟩

/-- Boundaries accepted by the constructor have the length `density` asks for. -/
lemma reflectLength_accepted {data : List (Fin d → ℝ)} {l : List RefDim} {r : Option (List ReflRow)}
    (h : checkReflect data (.rows l) = .ok r) : reflectLength d d (.rows l) = .ok (.rows l) := by
  unfold reflectLength
  simp only
  by_cases hl : l.length = d
  · rw [if_pos hl]
  · rw [if_neg hl]
    by_cases h2 : d = 1 ∧ l.length = 2
    · obtain ⟨rfl, h2⟩ := h2
      match l, h2 with
      | [x, y], _ =>
        rw [if_pos]
        refine ⟨rfl, rfl, ?_⟩
        simp only [checkReflect, reflectRows] at h
        cases x <;> cases y <;> simp_all [RefDim.scalar, coerceRow, Except.map]
        split at h
        · cases h
        · split_ifs at * <;> simp_all
    · exfalso
      simp only [checkReflect, reflectRows_of_not h2, if_pos hl] at h
      cases h

lemma checkReflect_rows_some {data : List (Fin d → ℝ)} {l : List RefDim} {r : Option (List ReflRow)}
    (h : checkReflect data (.rows l) = .ok r) : ∃ rows, r = some rows := by
  simp only [checkReflect] at h
  split at h
  · cases h
  · obtain ⟨rows, _, rfl⟩ := map_ok h
    exact ⟨rows, rfl⟩

lemma reflectLength_stored {data : List (Fin d → ℝ)} (hne : data ≠ []) {r : Reflect} {rows : Option (List ReflRow)}
    (h : checkReflect data r = .ok rows) :
    reflectLength d d (Reflect.ofChecked rows) = .ok (Reflect.ofChecked rows) ∧
      checkReflect data (Reflect.ofChecked rows) = .ok rows := by
  cases rows with
  | none => exact ⟨rfl, rfl⟩
  | some rs =>
    refine ⟨?_, C20_idempotent _ hne _ rs h _ hne⟩
    have := (C20_result _ hne _ rs h).1
    simp [Reflect.ofChecked, reflectLength, this]

/-- **C147**, the full claim: whatever boundaries the constructor accepts, giving them to `density` has the effect
of a KDE constructed with them. -/
def C147_Claim : Prop :=
  ∀ (d : ℕ) (E : Ext) (srt : List ℝ → List ℕ) (a : KDEArgs d) (k k' : KDE d) (r : Reflect), r ≠ .none →
    KDE.init E a = .ok k → KDE.init E { a with reflect := r } = .ok k' →
    ∀ (points : Pts) (grid probability : Bool),
      (k.density E srt (some points) r .none grid probability).1 =
        (k'.density E srt (some points) .none .none grid probability).1

/-- **C147** for lists of boundaries: `density(points, reflect=l)` gives, whatever boundaries the KDE was constructed
with, the values of a KDE constructed with `reflect=l`.  Missing: `reflect=True` and `reflect=False`, which the
constructor accepts and `density` does not (`C147_bool`). -/
theorem C147_partial {E : Ext} {a : KDEArgs d} {k k' : KDE d} {l : List RefDim} (h : KDE.init E a = .ok k)
    (h' : KDE.init E { a with reflect := .rows l } = .ok k') (srt : List ℝ → List ℕ) (points : Pts)
    (grid probability : Bool) :
    (k.density E srt (some points) (.rows l) .none grid probability).1 =
      (k'.density E srt (some points) .none .none grid probability).1 := by
  obtain ⟨hd, hw, hk, hne, hr⟩ := init_reflect_same h h'
  obtain ⟨hs1, hs2⟩ := reflectLength_stored hne hr
  rw [density_eq_steps E srt k _ (.rows l) .none grid probability (sel := none) (squeeze := false) (r := .rows l) rfl
    (reflectLength_accepted hr)]
  rw [density_eq_steps E srt k' _ .none .none grid probability (sel := none) (squeeze := false)
    (r := Reflect.ofChecked k'.reflect) rfl hs1]
  obtain ⟨u, hu⟩ := choosePoints_given srt k points none grid false
  rw [hu, hu]
  exact evalPoints_reflect E hd hw hk none (by simp only [hr, hs2]) probability u

/-- **C147** for `pdf`. -/
theorem C147_pdf {E : Ext} {a : KDEArgs d} {k k' : KDE d} {l : List RefDim} (h : KDE.init E a = .ok k)
    (h' : KDE.init E { a with reflect := .rows l } = .ok k') (srt : List ℝ → List ℕ) (points : Pts)
    (grid : Bool) :
    (k.pdf E srt (some points) (.rows l) .none grid).1 = (k'.pdf E srt (some points) .none .none grid).1 :=
  C147_partial h h' srt points grid true

lemma checkReflect_select {data : List (Fin d → ℝ)} (hne : data ≠ []) (hd : d ≠ 1) {l : List RefDim} {rows : List ReflRow}
    (h : checkReflect data (.rows l) = .ok (some rows)) (ps : List (Fin d)) :
    checkReflect (selectCols data ps) (.rows (ps.map fun i : Fin d => l.getD i .none)) = .ok (some (selectRows rows ps)) := by
  have hl : reflectRows d l = .ok l := by
    simp only [checkReflect] at h
    rw [reflectRows_of_not (by omega)] at h ⊢
    split_ifs at h ⊢
    rfl
  simp only [checkReflect, hl] at h
  obtain ⟨rs, hrs, he⟩ := map_ok h
  cases he
  have hlen : l.length = d := by
    rw [reflectRows_of_not (by omega)] at hl
    split_ifs at hl with h1 h2
    simpa using h1
  have hgood : l.all RefDim.good = true := by
    rw [reflectRows_of_not (by omega)] at hl
    split_ifs at hl with h1 h2
    simpa using h2
  obtain ⟨_, hrl, hm⟩ := (checkDims_iff hne l hlen rows).mp hrs
  have hne' : selectCols data ps ≠ [] := by simpa [selectCols] using hne
  have hgd : ∀ i : Fin d, l.getD i .none = l[(i : ℕ)]'(by omega) := fun i =>
    List.getD_eq_getElem _ _ (by omega)
  have hrd : ∀ i : Fin d, rows.getD i none = rows[(i : ℕ)]'(by omega) := fun i =>
    List.getD_eq_getElem _ _ (by omega)
  have h1 : reflectRows ps.length (ps.map fun i : Fin d => l.getD i .none) =
      .ok (ps.map fun i : Fin d => l.getD i .none) := by
    rw [reflectRows_of_not (by simp; omega), if_neg (by simp), if_neg]
    simp only [not_not, List.all_eq_true, List.mem_map, forall_exists_index, and_imp]
    rintro x i _ rfl
    rw [hgd]
    exact List.all_eq_true.mp hgood _ (List.getElem_mem _)
  simp only [checkReflect, h1]
  have h2 : checkDims (selectCols data ps) 0 (ps.map fun i : Fin d => l.getD i .none) = .ok (selectRows rows ps) := by
    rw [checkDims_iff hne' _ (by simp)]
    refine ⟨by simp, by simp [selectRows], ?_⟩
    intro j mn mx he
    have he' : IsExtrema (data.map (· (ps.get j))) mn mx := by
      simpa [selectCols, List.map_map, Function.comp_def] using he
    obtain ⟨g, r, hg, hr, hmn⟩ := hm (ps.get j) mn mx he'
    refine ⟨g, r, ?_, ?_, hmn⟩
    · simp only [List.getElem?_map, List.getElem?_eq_getElem j.2, Option.map_some]
      rw [hgd, ← hg, List.getElem?_eq_getElem]
      rfl
    · simp only [selectRows, List.getElem?_map, List.getElem?_eq_getElem j.2, Option.map_some]
      rw [hrd, ← hr, List.getElem?_eq_getElem]
      rfl
  rw [h2]
  rfl

/-- **C147** with `params`: the list given to `density` has one entry per *selected* parameter, in the order of
`params`; the values are those of a KDE constructed with a list that has these entries at the selected
parameters. -/
theorem C147_params {E : Ext} {a : KDEArgs d} {k k' : KDE d} {L : List RefDim} (hd1 : d ≠ 1)
    (h : KDE.init E a = .ok k) (h' : KDE.init E { a with reflect := .rows L } = .ok k') (srt : List ℝ → List ℕ)
    (params : List ℤ) (hp : params ≠ []) (ps : List (Fin d)) (hps : List.Forall₂ Spec.Names params ps)
    (points : Pts) (grid probability : Bool) :
    (k.density E srt (some points) (.rows (ps.map fun i : Fin d => L.getD i .none)) (.list params) grid probability).1 =
      (k'.density E srt (some points) .none (.list params) grid probability).1 := by
  obtain ⟨hd, hw, hk, hne, hr⟩ := init_reflect_same h h'
  obtain ⟨rows, hrows⟩ := checkReflect_rows_some hr
  rw [hrows] at hr
  have hsel := checkReflect_select hne hd1 hr ps
  have hpar : paramSel d (.list params) = .ok (some ps, false) :=
    paramSel_names hd1 hp hps
  have hres := C20_result _ hne _ rows hr
  have hchk : checkReflect (selectCols k.dataset ps) (Reflect.ofChecked (some (selectRows rows ps))) =
      .ok (some (selectRows rows ps)) := by
    refine checkReflect_checked _ (by simpa [selectCols] using hne) _ (by simp [selectRows]) ?_
    intro lo hi hm
    obtain ⟨i, _, e⟩ := List.mem_map.mp hm
    rw [List.getD_eq_getElem _ _ (by rw [hres.1]; exact i.2)] at e
    exact hres.2 lo hi (e ▸ List.getElem_mem _)
  rw [density_eq_steps E srt k _ _ _ grid probability hpar
    (r := .rows (ps.map fun i : Fin d => L.getD i .none)) (by simp [KDE.defaultReflect, reflectLength, numSel])]
  rw [density_eq_steps E srt k' _ _ _ grid probability hpar (r := Reflect.ofChecked (some (selectRows rows ps)))
    (by simp [KDE.defaultReflect, hrows, Reflect.ofChecked, reflectLength, numSel, selectRows])]
  obtain ⟨u, hu⟩ := choosePoints_given srt k points (some ps) grid false
  rw [hu, hu]
  exact evalPoints_reflect E hd hw hk (some ps) (by simp only [hsel, hchk]) probability u

/-- **C147** for `resample`: every form of `reflect` that the constructor accepts (`True`, `False` or a list) has the
effect of a KDE constructed with it. -/
theorem C147_resample {E : Ext} {a : KDEArgs d} {k k' : KDE d} {r : Reflect} (hr0 : r ≠ .none) (h : KDE.init E a = .ok k)
    (h' : KDE.init E { a with reflect := r } = .ok k') (size : Option ℕ) (keep : KeepArg) (squeeze : Bool)
    (rnd : ℕ → ℕ → Draw d) :
    k.resample size keep r squeeze rnd = k'.resample size keep .none squeeze rnd := by
  obtain ⟨hd, hw, hk, hne, hr⟩ := init_reflect_same h h'
  rw [resample_eq h, resample_eq h', hd, hw, hk]
  have hb : Spec.boundaries k r = Spec.boundaries k' .none := by
    cases r with
    | none => exact absurd rfl hr0
    | «false» =>
      simp only [checkReflect, Except.ok.injEq] at hr
      simp [Spec.boundaries, ← hr]
    | «true» => exact hr
    | rows l => exact hr
  rw [hb]

/-- **C147**: `density(reflect=True)` and `density(reflect=False)` raise a `TypeError` for every KDE (`len` of a
boolean); in particular the boundaries given to the constructor cannot be switched off with `False`. -/
theorem C147_bool (E : Ext) (srt : List ℝ → List ℕ) (k : KDE d) (points : Option Pts) (grid probability : Bool)
    {r : Reflect} (hr : r = .true ∨ r = .false) :
    (k.density E srt points r .none grid probability).1 = .error .typeError := by
  rcases hr with rfl | rfl <;> rfl

/-- The boundaries of a KDE constructed with `reflect=False` are those of one constructed without. -/
lemma init_false (E : Ext) (a : KDEArgs d) (h : a.reflect = .none) : KDE.init E { a with reflect := .false } = KDE.init E a := by
  simp only [KDE.init, h, checkReflect]

/-- **C147**: the full claim is false of the code: `reflect=False` is accepted by the constructor and means no
boundaries, but `density(points, reflect=False)` raises. -/
theorem C147_refuted : ¬ C147_Claim := by
  intro hC
  obtain ⟨k, hk, hw, hD, hM⟩ := unit_init (d := 1) ⟨fun A => A, id⟩ [fun _ => 0] (by simp) [1]
    ⟨rfl, by simp, 1, by simp, by norm_num⟩ .box rfl
  have h := hC 1 _ (fun _ => []) _ k k .false (by simp) hk (by rw [init_false _ _ rfl]; exact hk)
    (.rows (Spec.rowsOf (m := 1) [fun _ => 0])) false false
  rw [C147_bool _ _ _ _ _ _ (Or.inr rfl)] at h
  rw [(C02_kde_density hk (fun _ => []) one_pos rfl (by rw [hM]; exact PosDef.one) _).1] at h
  cases h

/-- Concrete case of the hypotheses of C147: a KDE with the boundary 0 on the left, evaluated with the boundaries -1 and 2
instead. -/
example : ∃ (E : Ext) (a : KDEArgs 1) (k k' : KDE 1) (l : List RefDim), KDE.init E a = .ok k ∧
    k.reflect = some [some (some 0, none)] ∧ KDE.init E { a with reflect := .rows l } = .ok k' ∧
    k'.reflect = some [some (some (-1), some 2)] ∧
    (k.density E (fun _ => []) (some (.flat [0, 1])) (.rows l) .none false true).1 =
      (k'.density E (fun _ => []) (some (.flat [0, 1])) .none .none false true).1 := by
  obtain ⟨k, hk, _, _, _, hr, _, _⟩ := unit_init_reflect (d := 1) ⟨fun A => A, id⟩ [fun _ => 0, fun _ => 1] (by simp) .box rfl
    [some (some 0, none)] rfl (by simp) ⟨(some 0, none), by simp⟩
  obtain ⟨k', hk', _, _, _, hr', _, _⟩ := unit_init_reflect (d := 1) ⟨fun A => A, id⟩ [fun _ => 0, fun _ => 1] (by simp) .box rfl
    [some (some (-1), some 2)] rfl (by
      intro lo hi h
      simp only [List.mem_cons, Option.some.injEq, Prod.mk.injEq, List.not_mem_nil, or_false] at h
      rw [h.1, h.2]; norm_num) ⟨(some (-1), some 2), by simp⟩
  exact ⟨_, _, k, k', _, hk, hr, hk', hr', C147_partial hk hk' _ _ _ _⟩

/-- Concrete case of the hypotheses of `C147_params`: two parameters, the second one selected. -/
example : ∃ (E : Ext) (a : KDEArgs 2) (k k' : KDE 2) (L : List RefDim), KDE.init E a = .ok k ∧
    KDE.init E { a with reflect := .rows L } = .ok k' ∧ L = [.none, .seq [.num 0, .none]] ∧
    (k.density E (fun _ => []) (some (.flat [0, 1])) (.rows [.seq [.num 0, .none]]) (.list [-1]) false true).1 =
      (k'.density E (fun _ => []) (some (.flat [0, 1])) .none (.list [-1]) false true).1 := by
  obtain ⟨k, hk, _, _, _, hr, _, _⟩ := unit_init_reflect ⟨fun A => A, id⟩ ([![0, 1], ![1, 4], ![3, 2]] : List (Fin 2 → ℝ))
    (by simp) .box rfl [some (some 0, none), some (none, some 5)] rfl (by simp) ⟨(some 0, none), by simp⟩
  obtain ⟨k', hk', _, _, _, hr', _, _⟩ := unit_init_reflect ⟨fun A => A, id⟩ ([![0, 1], ![1, 4], ![3, 2]] : List (Fin 2 → ℝ))
    (by simp) .box rfl [none, some (some 0, none)] rfl (by simp) ⟨(some 0, none), by simp⟩
  refine ⟨_, _, k, k', _, hk, hk', rfl, ?_⟩
  exact C147_params (by norm_num) hk hk' _ [-1] (by simp) [1] (.cons (Or.inr (by simp)) .nil) _ _ _

/-- Concrete case of the hypotheses of `C147_resample`: boundaries switched off with `False`. -/
example : ∃ (E : Ext) (a : KDEArgs 1) (k k' : KDE 1), KDE.init E a = .ok k ∧ KDE.init E { a with reflect := .false } = .ok k' ∧
    ∀ rnd, k.resample (some 5) .none .false true rnd = k'.resample (some 5) .none .none true rnd := by
  obtain ⟨k, hk, hw, hD, hM⟩ := unit_init (d := 1) ⟨fun A => A, id⟩ [fun _ => 0] (by simp) [1]
    ⟨rfl, by simp, 1, by simp, by norm_num⟩ .box rfl
  have hk' := (init_false _ _ rfl).trans hk
  exact ⟨_, _, k, k, hk, hk', fun rnd => C147_resample (by simp) hk hk' _ _ _ _⟩

end Kalepy
