import Verif.Props.ResampleReflect
import Verif.Props.Invariance
import Verif.Props.Covariance

/-!
# C94: boundaries that are all `None`
-/

namespace Kalepy

open Spec

variable {d : ℕ}

/-! ### specification -/

/-- An entry of `reflect` without boundaries: `None` or `[None, None]`. -/
def Spec.NoBoundary (r : RefDim) : Prop := r = .none ∨ r = .seq [.none, .none]

/-- Two KDEs give the same answers: the same range, and the same densities at all given points. -/
def Spec.SameAnswers (E : Ext) (k k' : KDE d) : Prop :=
  k'.extrema = k.extrema ∧ ∀ (srt : List ℝ → List ℕ) (pts : Pts) (params : ParamArg) (grid prob : Bool),
    (k'.density E srt (some pts) .none params grid prob).1 = (k.density E srt (some pts) .none params grid prob).1

/-- **C94** as claimed: a `reflect` list without any boundaries is the same as no `reflect`. -/
def C94_Claim : Prop :=
  ∀ (d : ℕ) (E : Ext) (args : KDEArgs d) (k : KDE d) (l : List RefDim), 0 < d → args.reflect = .none → KDE.init E args = .ok k →
    l.length = d → (∀ r ∈ l, NoBoundary r) → ∃ k', KDE.init E { args with reflect := .rows l } = .ok k' ∧ SameAnswers E k k'

/-! ### proofs -/

/-- A checked row without boundaries. -/
def FreeRow (r : ReflRow) : Prop := r = none ∨ r = some (none, none)

lemma reflectStep_free {m : ℕ} (white : Matrix (Fin m) (Fin m) ℝ) (data points : List (Fin m → ℝ)) (w : List ℝ) (kf : ℝ → ℝ)
    {res : List ℝ} (hl : res.length = points.length) (i : Fin m) {r : ReflRow} (hr : FreeRow r) :
    reflectStep white data points w kf res i r = res := by
  rcases hr with rfl | rfl
  · rfl
  · simp only [reflectStep, reflectAdd, outsideRow]
    apply List.ext_getElem
    · simp [hl]
    · intro n h1 h2
      simp

lemma densityCore_free {m : ℕ} (dist : Dist) (norm : ℝ) (minv : Matrix (Fin m) (Fin m) ℝ) (points : Cols ℝ) (data : List (Fin m → ℝ))
    (w : Option (List ℝ)) {rows : List ReflRow} (hl : rows.length = m) (hf : ∀ r ∈ rows, FreeRow r) :
    densityCore dist norm minv points data w (some rows) = densityCore dist norm minv points data w none := by
  unfold densityCore
  split
  · rename_i hdim
    simp only
    split
    · rfl
    · rename_i w' _
      split
      · rfl
      · rename_i white _
        rw [dif_pos hl]
        by_cases hn : norm = 0
        · rw [if_pos hn, if_pos hn]
        rw [if_neg hn, if_neg hn]
        congr 2
        have : ∀ (is : List (Fin m)) (res : List ℝ), res.length = points.cols.length →
            is.foldl (fun res i => reflectStep white data
              (points.cols.map fun c => fun i => c (Fin.cast hdim.symm i)) w' dist.eval res i (rows.get (Fin.cast hl.symm i))) res = res := by
          intro is
          induction is with
          | nil => intro res _; rfl
          | cons i is ih =>
            intro res hres
            rw [List.foldl_cons, reflectStep_free _ _ _ _ _ (by simpa using hres) i (hf _ (List.get_mem _ _)), ih res hres]
        exact this _ _ (by simp [evaluateNumba])
  · rfl

lemma getD_free {rows : List ReflRow} (hf : ∀ r ∈ rows, FreeRow r) (n : ℕ) : FreeRow (rows.getD n none) := by
  rw [List.getD_eq_getElem?_getD]
  cases h : rows[n]? with
  | none => exact Or.inl rfl
  | some r => exact hf _ (List.mem_of_getElem? h)

lemma free_ordered {rows : List ReflRow} (hf : ∀ r ∈ rows, FreeRow r) : ∀ lo hi, some (some lo, some hi) ∈ rows → lo < hi := by
  intro lo hi hm
  rcases hf _ hm with h | h <;> cases h

/-- The densities do not depend on rows without boundaries. -/
lemma density_free (E : Ext) (k : KDE d) (hne : k.dataset ≠ []) (hk : k.reflect = none) {rows : List ReflRow} (hl : rows.length = d)
    (hf : ∀ r ∈ rows, FreeRow r) (ext : Fin d → ℝ × ℝ) (srt : List ℝ → List ℕ) (pts : Pts) (params : ParamArg) (grid prob : Bool) :
    (({ k with reflect := some rows, extrema := ext } : KDE d).density E srt (some pts) .none params grid prob).1 =
      (k.density E srt (some pts) .none params grid prob).1 := by
  unfold KDE.density
  cases hsel : paramSel d params with
  | error e => rfl
  | ok s =>
    obtain ⟨sel, squeeze⟩ := s
    simp only
    have hlen : ∃ rows', KDE.defaultReflect { k with reflect := some rows, extrema := ext } sel .none = Reflect.ofChecked (some rows') ∧
        rows'.length = numSel sel ∧ (∀ r ∈ rows', FreeRow r) := by
      cases sel with
      | none => exact ⟨rows, rfl, hl, hf⟩
      | some ps =>
        refine ⟨selectRows rows ps, rfl, by simp [selectRows, numSel], ?_⟩
        intro r hr
        obtain ⟨i, _, rfl⟩ := List.mem_map.mp hr
        exact getD_free hf _
    obtain ⟨rows', h1, h2, h3⟩ := hlen
    have h0 : k.defaultReflect sel .none = .none := by
      cases sel <;> simp [KDE.defaultReflect, hk, Reflect.ofChecked]
    rw [h1, h0]
    have e1 : reflectLength d (numSel sel) (Reflect.ofChecked (some rows')) = .ok (Reflect.ofChecked (some rows')) := by
      simp only [Reflect.ofChecked, reflectLength]
      rw [if_pos (by simpa using h2)]
    rw [e1]
    simp only [reflectLength]
    have hpts : ∀ kk : KDE d, ∃ u, ∀ kk : KDE d, kk.choosePoints srt (some pts) sel grid squeeze = (.ok u, kk) := by
      intro _
      cases pts with
      | flat l => exact ⟨_, fun _ => rfl⟩
      | rows l => exact ⟨_, fun _ => rfl⟩
    obtain ⟨u, hu⟩ := hpts k
    rw [hu, hu]
    simp only
    cases toCols u.evalRows with
    | error e => rfl
    | ok cols =>
      simp only
      have key : ∀ v kern, k.evalKernel E sel cols .none = (v, { k with kernel := kern }) →
          ({ k with reflect := some rows, extrema := ext } : KDE d).evalKernel E sel cols (Reflect.ofChecked (some rows')) =
            (v, { k with reflect := some rows, extrema := ext, kernel := kern }) := by
        intro v kern hv
        cases sel with
        | none =>
          simp only [KDE.evalKernel] at hv ⊢
          rw [checkReflect_ofChecked k.dataset hne rows' h2 (free_ordered h3)]
          simp only [checkReflect, Kernel.density] at hv ⊢
          rw [densityCore_free _ _ _ _ _ _ (show rows'.length = d from h2) h3]
          simp only [Prod.mk.injEq] at hv ⊢
          obtain ⟨hv1, hv2⟩ := hv
          refine ⟨hv1, ?_⟩
          have := congrArg KDE.kernel hv2
          simp only at this
          rw [this]
        | some ps =>
          simp only [KDE.evalKernel] at hv ⊢
          rw [checkReflect_ofChecked (selectCols k.dataset ps) (by simpa [selectCols] using hne) rows' h2 (free_ordered h3)]
          simp only [checkReflect, Kernel.densityParams] at hv ⊢
          rw [densityCore_free _ _ _ _ _ _ (show rows'.length = ps.length from h2) h3]
          simp only [Prod.mk.injEq] at hv ⊢
          obtain ⟨hv1, hv2⟩ := hv
          refine ⟨hv1, ?_⟩
          have := congrArg KDE.kernel hv2
          simp only at this
          rw [this]
      obtain ⟨v, kern, hv⟩ : ∃ v kern, k.evalKernel E sel cols .none = (v, { k with kernel := kern }) := by
        cases sel <;> exact ⟨_, _, rfl⟩
      rw [key v kern hv, hv]
      cases v <;> rfl

/-- The checked form of rows without boundaries. -/
lemma checkReflect_free (data : List (Fin d → ℝ)) (hne : data ≠ []) {l : List RefDim} (hl : l.length = d) (hf : ∀ r ∈ l, NoBoundary r) :
    ∃ rows, checkReflect data (.rows l) = .ok (some rows) ∧ rows.length = d ∧ (∀ r ∈ rows, FreeRow r) ∧
      rows = l.map fun r => match r with | .seq _ => some (none, none) | _ => none := by
  set rows : List ReflRow := l.map fun r => match r with | .seq _ => some (none, none) | _ => none with hrows
  have hfree : ∀ r ∈ rows, FreeRow r := by
    intro r hr
    obtain ⟨x, hx, rfl⟩ := List.mem_map.mp hr
    rcases hf x hx with rfl | rfl
    · exact Or.inl rfl
    · exact Or.inr rfl
  have hl' : rows.length = d := by simpa [hrows] using hl
  refine ⟨rows, ?_, hl', hfree, rfl⟩
  have := checkReflect_ofChecked data hne rows hl' (free_ordered hfree)
  have e : rows.map ReflRow.toDim = l := by
    rw [hrows, List.map_map]
    conv_rhs => rw [← List.map_id l]
    refine List.map_congr_left fun x hx => ?_
    rcases hf x hx with rfl | rfl <;> rfl
  simpa [Reflect.ofChecked, e] using this

/-- Construction with rows without boundaries: the same except for the extrema. -/
lemma init_free {E : Ext} {args : KDEArgs d} {k : KDE d} (hr : args.reflect = .none) (h : KDE.init E args = .ok k) {l : List RefDim}
    (hl : l.length = d) (hf : ∀ r ∈ l, NoBoundary r) :
    ∃ rows, rows.length = d ∧ (∀ r ∈ rows, FreeRow r) ∧ (rows = l.map fun r => match r with | .seq _ => some (none, none) | _ => none) ∧
      k.reflect = none ∧
      ∃ eff, parseExtrema eff (extremaArg args.extrema none) = .ok k.extrema ∧
      ∀ r, parseExtrema eff (extremaArg args.extrema (some rows)) = r →
        KDE.init E { args with reflect := .rows l } = r.map fun ext => { k with reflect := some rows, extrema := ext } := by
  obtain ⟨refl, w, cov, bw0, D, out, eff, ext, g1, g2, g3, g4, g5, g6, g7, g8, g9, g10, he⟩ := init_inv h
  obtain ⟨rows, c1, c2, c3, c4⟩ := checkReflect_free args.dataset g2 hl hf
  rw [hr] at g1
  cases g1
  refine ⟨rows, c2, c3, c4, by rw [he], eff, by rw [he]; exact g10, ?_⟩
  intro r hpe
  cases r with
  | ok ext' =>
    rw [init_of_stages (a := { args with reflect := .rows l }) c1 g2 g3 g4 g5 g6 g7 g8 g9 hpe, he]
    rfl
  | error e =>
    unfold KDE.init
    simp only [c1, if_neg g2, g3, g4, g5, g6, g8, g9, hpe]
    simp [g7, Except.map]

/-- **C94**, proved part: it holds if the `extrema` are given, or if at least one of the entries is `[None, None]` instead of `None`.
The full claim also covers lists of `None` only. -/
theorem C94_partial (E : Ext) (args : KDEArgs d) (k : KDE d) (l : List RefDim) (hr : args.reflect = .none) (h : KDE.init E args = .ok k)
    (hl : l.length = d) (hf : ∀ r ∈ l, NoBoundary r) (hcase : args.extrema ≠ none ∨ .seq [.none, .none] ∈ l) :
    ∃ k', KDE.init E { args with reflect := .rows l } = .ok k' ∧ SameAnswers E k k' := by
  obtain ⟨rows, h1, h2, h3, h4, eff, h5, h6⟩ := init_free hr h hl hf
  have hne : k.dataset ≠ [] := by
    obtain ⟨_, _, _, _, _, _, _, _, _, hne, _, _, _, _, _, _, _, _, he⟩ := init_inv h
    rw [he]
    exact hne
  have hext : parseExtrema eff (extremaArg args.extrema (some rows)) = .ok k.extrema := by
    cases he : args.extrema with
    | some e =>
      rw [he] at h5
      exact h5
    | none =>
      rw [he] at h5
      simp only [extremaArg, Option.map_none, parseExtrema] at h5
      have hmem := hcase.resolve_left (by simp [he])
      simp only [extremaArg, Option.map_some, parseExtrema, parseExtremaList]
      have hns : ¬ (rows.map ReflRow.toExt).all ExtElem.scalar = true := by
        rw [List.all_eq_true]
        intro hall
        have := hall (.seq [none, none]) (by
          rw [h3, List.map_map]
          exact List.mem_map.mpr ⟨_, hmem, rfl⟩)
        simp [ExtElem.scalar] at this
      have hp : ∀ e ∈ rows.map ReflRow.toExt, e.pair = some (none, none) ∧ ∀ x, e ≠ .num x := by
        intro e hm
        obtain ⟨r, hr', rfl⟩ := List.mem_map.mp hm
        rcases h2 r hr' with rfl | rfl
        · exact ⟨rfl, fun x hx => by cases hx⟩
        · exact ⟨rfl, fun x hx => by cases hx⟩
      rw [if_neg (fun hh => hns hh.1), dif_pos (by simpa using h1), if_neg hns, if_neg, if_pos]
      · rw [← h5]
        congr 1
        funext i
        rw [(hp _ (List.get_mem _ _)).1]
        rfl
      · rw [List.all_eq_true]
        intro e hm
        rw [(hp e hm).1]
        rfl
      · rw [List.any_eq_true]
        rintro ⟨e, hm, hn⟩
        cases e with
        | num x => exact (hp _ hm).2 x rfl
        | none => simp at hn
        | seq l => simp at hn
  refine ⟨{ k with reflect := some rows, extrema := k.extrema }, ?_, rfl, fun srt pts params grid prob => ?_⟩
  · rw [h6 _ hext]
    rfl
  · exact density_free E k hne h4 h1 h2 k.extrema srt pts params grid prob

/-- **C94.** For any number of parameters other than two, `reflect=[None, ..., None]` makes the constructor fail. -/
theorem C94_fails (E : Ext) (args : KDEArgs d) (k : KDE d) (hr : args.reflect = .none) (he : args.extrema = none)
    (h : KDE.init E args = .ok k) (hd : d ≠ 2) :
    KDE.init E { args with reflect := .rows (List.replicate d .none) } = .error .valueError := by
  obtain ⟨rows, h1, h2, h3, h4, eff, h5, h6⟩ := init_free hr h (l := List.replicate d .none) (by simp) (by
    intro r hm
    exact Or.inl (List.eq_of_mem_replicate hm))
  have hrows : rows = List.replicate d none := by rw [h3]; simp
  have := h6 (.error .valueError) (by
    rw [he, hrows]
    simp only [extremaArg, Option.map_some, parseExtrema, parseExtremaList]
    rw [if_neg (by simp [hd]), dif_pos (by simp), if_pos]
    simp [ReflRow.toExt, ExtElem.scalar])
  rw [this]
  rfl

/-- **C94.** For two parameters `reflect=[None, None]` is accepted, but the range of the first parameter is used for both. -/
theorem C94_two (E : Ext) (args : KDEArgs 2) (k : KDE 2) (hr : args.reflect = .none) (he : args.extrema = none)
    (h : KDE.init E args = .ok k) :
    ∃ k', KDE.init E { args with reflect := .rows [.none, .none] } = .ok k' ∧ k'.extrema = fun _ => k.extrema 0 := by
  obtain ⟨rows, h1, h2, h3, h4, eff, h5, h6⟩ := init_free hr h (l := [.none, .none]) (by simp) (by
    intro r hm
    simp at hm
    exact Or.inl hm)
  rw [he] at h5
  simp only [extremaArg, Option.map_none, parseExtrema] at h5
  cases h5
  refine ⟨_, h6 (.ok fun _ => k.extrema 0) ?_, rfl⟩
  rw [he, h3]
  rfl

lemma box_init (E : Ext) (data : List (Fin d → ℝ)) (hne : data ≠ []) (h2 : 1 < data.length) :
    ∃ (args : KDEArgs d) (k : KDE d), args.reflect = .none ∧ args.extrema = none ∧ args.dataset = data ∧ KDE.init E args = .ok k := by
  obtain ⟨k, hk, _⟩ := auto_init E data hne none (by simp) (by
    have : (1 : ℝ) < data.length := by exact_mod_cast h2
    simp only [covFact]
    linarith) .box rfl 1
  exact ⟨_, k, rfl, rfl, rfl, hk⟩

/-- **C94** fails: three parameters. -/
theorem C94_refuted : ¬ C94_Claim := by
  intro hc
  let E : Ext := ⟨fun M => M⁻¹, fun _ => 0⟩
  obtain ⟨args, k, hr, he, _, hk⟩ := box_init (d := 3) E [![0, 10, 5], ![1, 12, 6]] (by simp) (by simp)
  obtain ⟨k', hk', _⟩ := hc 3 E args k (List.replicate 3 .none) (by norm_num) hr hk (by simp) (by
    intro r hm
    exact Or.inl (List.eq_of_mem_replicate hm))
  rw [C94_fails E args k hr he hk (by norm_num)] at hk'
  cases hk'

/-- Hypotheses of `C94_partial`: `reflect=[None, [None, None], None]`. -/
example : ∃ (E : Ext) (args : KDEArgs 3) (k k' : KDE 3), KDE.init E args = .ok k ∧
    KDE.init E { args with reflect := .rows [.none, .seq [.none, .none], .none] } = .ok k' ∧ SameAnswers E k k' := by
  let E : Ext := ⟨fun M => M⁻¹, fun _ => 0⟩
  obtain ⟨args, k, hr, he, _, hk⟩ := box_init (d := 3) E [![0, 10, 5], ![1, 12, 6]] (by simp) (by simp)
  obtain ⟨k', h1, h2⟩ := C94_partial E args k [.none, .seq [.none, .none], .none] hr hk rfl (by simp [NoBoundary]) (by simp)
  exact ⟨E, args, k, k', hk, h1, h2⟩

/-- Hypotheses of `C94_two`: the range of the second parameter is wrong. -/
example : ∃ (E : Ext) (args : KDEArgs 2) (k k' : KDE 2), KDE.init E args = .ok k ∧
    KDE.init E { args with reflect := .rows [.none, .none] } = .ok k' ∧ (k'.extrema 1) = (k.extrema 0) := by
  let E : Ext := ⟨fun M => M⁻¹, fun _ => 0⟩
  obtain ⟨args, k, hr, he, _, hk⟩ := box_init (d := 2) E [![0, 10], ![1, 12]] (by simp) (by simp)
  obtain ⟨k', h1, h2⟩ := C94_two E args k hr he hk
  exact ⟨E, args, k, k', hk, h1, by rw [h2]⟩

end Kalepy
