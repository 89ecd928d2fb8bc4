import Mathlib.MeasureTheory.Integral.Bochner.Set
import Verif.Props.CdfRounded
import Verif.Props.Frequencies
import Verif.Props.Consistency
import Verif.Props.Regularity
import Verif.Props.Support

/-!
# C174: the values of `KDE.cdf` are integrals of the pdf
-/

namespace Kalepy

open MeasureTheory

variable {d : ℕ}

/-! ## Specification -/

/-- The point of the grid of evaluation points with index `idx`. -/
noncomputable def Spec.node (rows : List (List ℝ)) (idx : Fin d → ℕ) : Fin d → ℝ :=
  fun i => (rows.getD i []).getD (idx i) 0

/-- The lower and the upper corner of the grid. -/
noncomputable def Spec.lowNode (rows : List (List ℝ)) : Fin d → ℝ := Spec.node rows fun _ => 0

/-- Index of the upper corner of the grid. -/
def Spec.lastIdx (rows : List (List ℝ)) (i : Fin d) : ℕ := (rows.getD i []).length - 1

/-- `G` is the function that `cdf` evaluates, after any history of calls. -/
def Spec.ReportsCdf (E : Ext) (srt : List ℝ → List ℕ) (k : KDE d) (G : (Fin d → ℝ) → ℝ) : Prop :=
  ∀ (history : List (Spec.Call d)) (xs : List (Fin d → ℝ)),
    ((history.foldl (fun k c => (Spec.call E srt k c).2) k).cdf E srt (.rows (Spec.rowsOf xs))).1 = .ok (xs.map G)

/-! ## Values at the points of the grid -/

lemma cell_node {row : List ℝ} (hs : row.Pairwise (· < ·)) {n : ℕ} (hn : n < row.length) (h2 : 2 ≤ row.length) :
    cellIdx row (row.getD n 0) = n - 1 ∧ cellPos row (row.getD n 0) = if n = 0 then 0 else 1 := by
  have hx : row.getD n 0 = row[n] := List.getD_eq_getElem _ _ hn
  obtain ⟨s1, s2⟩ := searchLeft_spec (hs.imp le_of_lt) (row.getD n 0)
  have hlt := List.pairwise_iff_getElem.mp hs
  have e : searchLeft row (row.getD n 0) = n := by
    rcases lt_trichotomy (searchLeft row (row.getD n 0)) n with h | h | h
    · have h1 := s2 _ (h.trans hn) le_rfl
      exact absurd (hx ▸ hlt _ _ (h.trans hn) hn h) (not_lt.mpr (hx.symm.trans_le h1))
    · exact h
    · have h1 := s1 _ hn h
      rw [hx] at h1
      exact absurd h1 (lt_irrefl _)
  have ec : cellIdx row (row.getD n 0) = n - 1 := by
    unfold cellIdx
    rw [e]
    omega
  refine ⟨ec, ?_⟩
  unfold cellPos
  rw [ec]
  split_ifs with h0
  · rw [h0]
    simp
  · rw [Nat.sub_add_cancel (by omega)]
    refine div_self (sub_ne_zero.mpr ?_)
    rw [hx, List.getD_eq_getElem _ _ (by omega)]
    exact (hlt _ _ (by omega) hn (by omega)).ne'

/-- The interpolant agrees with the values at the points of the grid. -/
lemma interp_node {g : CdfGrid d} (hg : MonoGrid g) {idx : Fin d → ℕ} (hv : ∀ i : Fin d, idx i < (g.rows.getD i []).length) :
    g.interp (Spec.node g.rows idx) = g.vals.get idx := by
  have hc := fun i : Fin d => cell_node (hg.asc i) (hv i) (hg.len i)
  unfold CdfGrid.interp
  rw [Finset.sum_eq_single (fun i => if idx i = 0 then 0 else 1)]
  · have e : (fun i : Fin d => cellIdx (g.rows.getD i []) (Spec.node g.rows idx i) + if idx i = 0 then 0 else 1) = idx := by
      funext i
      show cellIdx _ ((g.rows.getD i []).getD (idx i) 0) + _ = _
      rw [(hc i).1]
      split_ifs <;> omega
    rw [e, Finset.prod_eq_one, mul_one]
    intro i _
    show (if (if idx i = 0 then 0 else 1) = 1 then cellPos _ ((g.rows.getD i []).getD (idx i) 0)
      else 1 - cellPos _ ((g.rows.getD i []).getD (idx i) 0)) = 1
    rw [(hc i).2]
    by_cases h0 : idx i = 0 <;> simp [h0]
  · intro c hcv hne
    rw [mem_validIdx] at hcv
    obtain ⟨i, hi⟩ : ∃ i, c i ≠ if idx i = 0 then 0 else 1 := by
      by_contra hcon
      push Not at hcon
      exact hne (funext hcon)
    rw [Finset.prod_eq_zero (Finset.mem_univ i), mul_zero]
    show (if c i = 1 then cellPos _ ((g.rows.getD i []).getD (idx i) 0)
      else 1 - cellPos _ ((g.rows.getD i []).getD (idx i) 0)) = 0
    rw [(hc i).2]
    have : c i < 2 := hcv i
    by_cases h0 : idx i = 0
    · simp only [h0, if_true] at hi ⊢
      have : c i = 1 := by omega
      simp [this]
    · simp only [h0, if_false] at hi ⊢
      simp [hi]
  · intro hcv
    refine absurd ?_ hcv
    rw [mem_validIdx]
    intro i
    show (if idx i = 0 then 0 else 1) < 2
    split_ifs <;> omega

lemma sum_fin2 (f : (Fin d → ℕ) → ℝ) :
    ∑ c : Fin d → Fin 2, f (fun i => (c i : ℕ)) = ∑ c ∈ Fintype.piFinset fun _ : Fin d => ({0, 1} : Finset ℕ), f c := by
  refine Finset.sum_nbij (fun c i => (c i : ℕ)) ?_ ?_ ?_ fun _ _ => rfl
  · intro c _
    rw [Fintype.mem_piFinset]
    intro i
    have := (c i).2
    simp only [Finset.mem_insert, Finset.mem_singleton]
    omega
  · intro c _ c' _ h
    funext i
    exact Fin.ext (congrFun h i)
  · intro c hc
    rw [Finset.mem_coe, Fintype.mem_piFinset] at hc
    refine ⟨fun i => ⟨c i, ?_⟩, by simp, rfl⟩
    have := hc i
    simp only [Finset.mem_insert, Finset.mem_singleton] at this
    omega

lemma cumtrapz_below {rows : List (List ℝ)} {pdf : Arr} {c : NDArr d ℝ}
    (hc : cumtrapzNd (pdf.toND rows : NDArr d ℝ) rows true none = .ok c) (idx : Fin d → ℕ)
    (hidx : ∀ i : Fin d, idx i < (rows.getD i []).length) :
    c.get idx = Spec.massBelow rows (pdf.toND rows : NDArr d ℝ).get idx := by
  obtain ⟨M, hM, _⟩ := cumtrapz_none hc
  obtain ⟨_, hget⟩ := C39_cumtrapz_eq hM hc
  obtain ⟨hMs, hMg⟩ := C38_mass_eq hM
  rw [hget idx hidx]
  unfold Spec.massBelow
  refine Finset.sum_congr ?_ fun j _ => ?_
  · ext j
    rw [Finset.mem_filter, mem_validIdx, Fintype.mem_piFinset]
    simp only [Finset.mem_range]
    constructor
    · exact fun h => h.2
    · refine fun h => ⟨fun i => ?_, h⟩
      have h1 := hidx i
      have h2 := h i
      rw [hMs]
      show j i < (rows.getD i []).length - 1
      omega
  · rw [hMg]
    unfold Spec.cellMass
    rw [sum_fin2 fun c => (pdf.toND rows : NDArr d ℝ).get fun i => j i + c i, mul_comm]
    rfl

/-- The values on the grid are quotients of trapezoid masses. -/
lemma cdfOf_quotient {rows : List (List ℝ)} {pdf : Arr} (hpdf : ∀ v ∈ pdf.vals, 0 ≤ v) {g : CdfGrid d}
    (h : cdfOf rows pdf = .ok g) :
    Spec.massBelow rows (pdf.toND rows : NDArr d ℝ).get (Spec.lastIdx rows) ≠ 0 ∧
    ∀ idx : Fin d → ℕ, (∀ i : Fin d, idx i < (rows.getD i []).length) →
      g.vals.get idx = Spec.massBelow rows (pdf.toND rows : NDArr d ℝ).get idx
        / Spec.massBelow rows (pdf.toND rows : NDArr d ℝ).get (Spec.lastIdx rows) := by
  obtain ⟨_, _, _, hg, _, hone⟩ := cdfOf_spec hpdf h
  unfold cdfOf at h
  cases hc : cumtrapzNd (pdf.toND rows : NDArr d ℝ) rows true none with
  | error e => rw [hc] at h; cases h
  | ok c =>
    rw [hc] at h
    simp only at h
    split_ifs at h with h0
    cases h
    have hbelow := cumtrapz_below hc
    have hlast : ∀ i : Fin d, Spec.lastIdx rows i < (rows.getD i []).length := by
      intro i
      have := hg.len i
      simp only at this
      unfold Spec.lastIdx
      omega
    simp only [NDArr.map] at hone ⊢
    have hmax : c.get (Spec.lastIdx rows) = c.max := by
      have h1 : c.get (Spec.lastIdx rows) / c.max = 1 := hone
      rwa [div_eq_one_iff_eq h0] at h1
    rw [← hbelow _ hlast, hmax]
    exact ⟨h0, fun idx hidx => by rw [hbelow idx hidx]⟩

/-! ## The pdf on the grid -/

lemma density_toRows (E : Ext) (srt : List ℝ → List ℕ) (k : KDE d) (pts : Pts) (p : Pts) (arr : Arr) (grid prob : Bool)
    (h : (k.density E srt (some pts) .none .none grid prob).1 = .ok (p, arr)) :
    ∃ p' arr', (k.density E srt (some (.rows pts.toRows)) .none .none grid prob).1 = .ok (p', arr') ∧ arr'.vals = arr.vals := by
  cases pts with
  | rows l => exact ⟨p, arr, h, rfl⟩
  | flat l =>
    simp only [KDE.density, KDE.choosePoints, Pts.toRows] at h ⊢
    cases hs : paramSel d .none with
    | error e => rw [hs] at h; cases h
    | ok s =>
      obtain ⟨sel, squeeze⟩ := s
      rw [hs] at h
      simp only at h ⊢
      cases hr : reflectLength d (numSel sel) (k.defaultReflect sel .none) with
      | error e => rw [hr] at h; cases h
      | ok r =>
        rw [hr] at h
        simp only [PtsUse.evalRows, Pts.toRows] at h ⊢
        cases hcols : toCols (if grid = true then meshRows [l] else [l]) with
        | error e => rw [hcols] at h; cases h
        | ok cols =>
          rw [hcols] at h
          simp only at h ⊢
          rcases hk : k.evalKernel E sel cols r with ⟨_ | vals, k'⟩
          · rw [hk] at h; cases h
          · rw [hk] at h
            simp only [packResult, Except.ok.injEq] at h ⊢
            refine ⟨_, _, rfl, ?_⟩
            rw [← (show _ = arr from congrArg Prod.snd h)]
            cases squeeze <;> rfl

lemma node_value {E : Ext} {srt : List ℝ → List ℕ} {k k' : KDE d} {F : (Fin d → ℝ) → ℝ} (hF : Spec.Reports E srt k F)
    (hk : ∀ p, (k'.density E srt (some p) .none .none false true).1 = (k.density E srt (some p) .none .none false true).1)
    {pts : Pts} {p : Pts} {arr : Arr} (h : (k'.density E srt (some pts) .none .none true true).1 = .ok (p, arr))
    (hl : pts.toRows.length = d) {idx : Fin d → ℕ} (hv : ∀ i : Fin d, idx i < (pts.toRows.getD i []).length) :
    (arr.toND pts.toRows : NDArr d ℝ).get idx = F (Spec.node pts.toRows idx) := by
  obtain ⟨p', arr', h', hvals⟩ := density_toRows E srt k' pts p arr true true h
  generalize pts.toRows = rows at hl h' hv ⊢
  subst hl
  have hrow : ∀ i : Fin rows.length, rows.getD i [] = rows.get i := fun i => by
    rw [List.getD_eq_getElem _ _ i.2, List.get_eq_getElem]
  obtain ⟨_, _, _, hg⟩ := C15_grid E srt k' rows .none .none (by intro p; simp) true p' arr' h'
  obtain ⟨v, hv1, hv2⟩ := hg idx fun i => by rw [← hrow]; exact hv i
  have hpt : Spec.gridPoint rows idx = Spec.rowsOf [Spec.node rows idx] := by
    unfold Spec.gridPoint Spec.rowsOf Spec.node
    congr 1
    funext i
    show [(rows.get i).getD (idx i) 0] = [(rows.getD i []).getD (idx i) 0]
    rw [hrow]
  rw [hpt, hk] at hv2
  have h1 := hF [Spec.node rows idx]
  rw [KDE.pdf, hv2] at h1
  have h2 : v = F (Spec.node rows idx) := by simpa using h1
  rw [← h2]
  show arr.vals.getD _ 0 = v
  have hs : (fun i : Fin rows.length => (rows.getD i []).length) = fun i => (rows.get i).length := funext fun i => by rw [hrow]
  rw [← hvals, hs, List.getD_eq_getElem?_getD, hv1]
  rfl

lemma massBelow_congr {rows : List (List ℝ)} {f f' : (Fin d → ℕ) → ℝ} {idx : Fin d → ℕ}
    (hv : ∀ i : Fin d, idx i < (rows.getD i []).length)
    (h : ∀ j : Fin d → ℕ, (∀ i : Fin d, j i < (rows.getD i []).length) → f j = f' j) :
    Spec.massBelow rows f idx = Spec.massBelow rows f' idx := by
  unfold Spec.massBelow Spec.cellMass
  refine Finset.sum_congr rfl fun j hj => ?_
  rw [Fintype.mem_piFinset] at hj
  congr 2
  refine Finset.sum_congr rfl fun c hc => h _ fun i => ?_
  rw [Fintype.mem_piFinset] at hc
  have h1 := hc i
  have h2 := Finset.mem_range.mp (hj i)
  have h3 := hv i
  simp only [Finset.mem_insert, Finset.mem_singleton] at h1
  omega

lemma getD_mono {row : List ℝ} (hs : row.Pairwise (· < ·)) {m n : ℕ} (hmn : m ≤ n) (hn : n < row.length) :
    row.getD m 0 ≤ row.getD n 0 := by
  rcases hmn.eq_or_lt with rfl | hlt
  · exact le_rfl
  · rw [List.getD_eq_getElem _ _ (by omega), List.getD_eq_getElem _ _ hn]
    exact (List.pairwise_iff_getElem.mp hs _ _ _ _ hlt).le

lemma massBelow_nonneg {rows : List (List ℝ)} {f : (Fin d → ℕ) → ℝ} (hf : ∀ j, 0 ≤ f j) {idx : Fin d → ℕ}
    (hv : ∀ i : Fin d, idx i < (rows.getD i []).length) (hs : ∀ i : Fin d, (rows.getD i []).Pairwise (· < ·)) :
    0 ≤ Spec.massBelow rows f idx := by
  refine Finset.sum_nonneg fun j hj => mul_nonneg (div_nonneg (Finset.sum_nonneg fun c _ => hf _) (by positivity))
    (Finset.prod_nonneg fun i _ => sub_nonneg.mpr ?_)
  rw [Fintype.mem_piFinset] at hj
  have h2 := Finset.mem_range.mp (hj i)
  have h3 := hv i
  exact getD_mono (hs i) (Nat.le_succ _) (by omega)

/-- **C174**, the value at a point of the grid.  If `cdf` can be evaluated at all then, after any history of calls, it
returns the values of one function `G`, and at every point of the grid of evaluation points `G` is the mass, by the
trapezoid rule, of the pdf over all the cells of the grid below the point, divided by the mass over all cells. -/
theorem C174_exact {E : Ext} {a : KDEArgs d} {k : KDE d} (h : KDE.init E a = .ok k) (hd : 0 < d)
    (srt : List ℝ → List ℕ) {F : (Fin d → ℝ) → ℝ} (hF : Spec.Reports E srt k F)
    (history : List (Spec.Call d)) (q : Pts) (out : List ℝ)
    (hq : ((history.foldl (fun k c => (Spec.call E srt k c).2) k).cdf E srt q).1 = .ok out) :
    ∃ (pts : Pts) (G : (Fin d → ℝ) → ℝ), (k.points srt).1 = .ok pts ∧ Spec.ReportsCdf E srt k G ∧
      pts.toRows.length = d ∧ (∀ row ∈ pts.toRows, 2 ≤ row.length ∧ row.Pairwise (· < ·)) ∧
      0 < Spec.massBelow pts.toRows (fun j => F (Spec.node pts.toRows j)) (Spec.lastIdx (d := d) pts.toRows) ∧
      ∀ idx : Fin d → ℕ, (∀ i : Fin d, idx i < (pts.toRows.getD i []).length) →
        G (Spec.node pts.toRows idx) = Spec.massBelow pts.toRows (fun j => F (Spec.node pts.toRows j)) idx
          / Spec.massBelow pts.toRows (fun j => F (Spec.node pts.toRows j)) (Spec.lastIdx (d := d) pts.toRows) := by
  have hist : ∀ (history : List (Spec.Call d)) (q : Pts),
      ((history.foldl (fun k c => (Spec.call E srt k c).2) k).cdf E srt q).1 = (k.cdf E srt q).1 := by
    intro history q
    have := C14_history E srt h history (.cdf q .none .none)
    rwa [Spec.call, Spec.call, Spec.Outcome.probs.injEq] at this
  rw [hist] at hq
  obtain ⟨pts, p, arr, g, h1, h2, h3, h4⟩ := cdf_inv (by rw [← fresh_of_init h]; rfl) hq
  have hnn : ∀ v ∈ arr.vals, 0 ≤ v :=
    C05_kde_all h srt hd [.points] (some pts) .none .none true true p arr h2
  obtain ⟨g1, g2, g3, g4, _, _⟩ := cdfOf_spec hnn h3
  obtain ⟨hne, hquot⟩ := cdfOf_quotient hnn h3
  have hdens : ∀ p, ((k.points srt).2.density E srt (some p) .none .none false true).1
      = (k.density E srt (some p) .none .none false true).1 := by
    intro p
    have := C14_history E srt h [.points] (.density (some p) .none .none false true)
    rwa [Spec.call, Spec.call, Spec.Outcome.values.injEq] at this
  have hlen : ∀ i : Fin d, 2 ≤ (pts.toRows.getD i []).length ∧ (pts.toRows.getD i []).Pairwise (· < ·) := by
    intro i
    have := g4.len i
    have h' := g4.asc i
    rw [g3] at this h'
    exact ⟨this, h'⟩
  have hnode : ∀ j : Fin d → ℕ, (∀ i : Fin d, j i < (pts.toRows.getD i []).length) →
      (arr.toND pts.toRows : NDArr d ℝ).get j = F (Spec.node pts.toRows j) :=
    fun j hj => node_value hF hdens h2 g1 hj
  have hlast : ∀ i : Fin d, Spec.lastIdx (d := d) pts.toRows i < (pts.toRows.getD i []).length := by
    intro i
    have := (hlen i).1
    unfold Spec.lastIdx
    omega
  have hFn : ∀ x, 0 ≤ F x := fun x => by
    have := C05_kde_all h srt hd [] _ _ _ _ _ _ _ (hF [x])
    exact this (F x) (by simp)
  refine ⟨pts, g.interp, h1, ?_, g1, g2, ?_, ?_⟩
  · intro history' xs
    rw [hist, h4, cdfPoints_rowsOf hd]
    rfl
  · rw [massBelow_congr hlast hnode] at hne
    exact lt_of_le_of_ne (massBelow_nonneg (fun j => hFn _) hlast fun i => (hlen i).2) (Ne.symm hne)
  · intro idx hidx
    rw [← massBelow_congr hidx hnode, ← massBelow_congr hlast hnode, ← hquot idx hidx]
    have := interp_node g4 (idx := idx) (by rw [g3]; exact hidx)
    rwa [g3] at this

/-! ## Integrals over boxes -/

/-- Specification: the box of points above `u` and not above `v` in each coordinate. -/
def Spec.box (u v : Fin d → ℝ) : Set (Fin d → ℝ) := {y | ∀ i, u i < y i ∧ y i ≤ v i}

lemma box_eq (u v : Fin d → ℝ) : Spec.box u v = Set.pi Set.univ fun i => Set.Ioc (u i) (v i) := by
  ext y
  simp [Spec.box, Set.mem_pi]

lemma measurableSet_box (u v : Fin d → ℝ) : MeasurableSet (Spec.box u v) := by
  rw [box_eq]
  exact MeasurableSet.univ_pi fun i => measurableSet_Ioc

lemma volume_box {u v : Fin d → ℝ} (h : ∀ i, u i ≤ v i) : volume.real (Spec.box u v) = ∏ i, (v i - u i) := by
  rw [box_eq]
  exact Real.volume_pi_Ioc_toReal h

lemma volume_box_lt (u v : Fin d → ℝ) : volume (Spec.box u v) < ⊤ := by
  rw [box_eq, Real.volume_pi_Ioc]
  exact ENNReal.prod_lt_top fun i _ => ENNReal.ofReal_lt_top

lemma exists_cell {f : ℕ → ℝ} {n : ℕ} {y : ℝ} (h0 : f 0 < y) (h1 : y ≤ f n) : ∃ j < n, f j < y ∧ y ≤ f (j + 1) := by
  induction n with
  | zero => linarith
  | succ n ih =>
    by_cases h : y ≤ f n
    · obtain ⟨j, hj, h2⟩ := ih h
      exact ⟨j, by omega, h2⟩
    · exact ⟨n, by omega, not_le.mp h, h1⟩

section
variable {rows : List (List ℝ)} {idx : Fin d → ℕ}

lemma box_cells (hs : ∀ i : Fin d, (rows.getD i []).Pairwise (· < ·))
    (hv : ∀ i : Fin d, idx i < (rows.getD i []).length) :
    Spec.box (Spec.lowNode rows) (Spec.node rows idx) = ⋃ j ∈ Fintype.piFinset fun i => Finset.range (idx i),
      Spec.box (Spec.node rows j) (Spec.node rows fun i => j i + 1) := by
  ext y
  simp only [Set.mem_iUnion, Fintype.mem_piFinset, Finset.mem_range, exists_prop]
  constructor
  · intro hy
    choose j hj hj' using fun i : Fin d => exists_cell (f := fun n => (rows.getD i []).getD n 0) (hy i).1 (hy i).2
    exact ⟨j, hj, hj'⟩
  · rintro ⟨j, hj, hy⟩ i
    have h1 := hj i
    have h2 := hv i
    exact ⟨(getD_mono (hs i) (Nat.zero_le _) (by omega)).trans_lt (hy i).1,
      (hy i).2.trans (getD_mono (hs i) (by show j i + 1 ≤ _; omega) h2)⟩

lemma cells_disjoint (hs : ∀ i : Fin d, (rows.getD i []).Pairwise (· < ·))
    (hv : ∀ i : Fin d, idx i < (rows.getD i []).length) :
    Set.Pairwise (↑(Fintype.piFinset fun i => Finset.range (idx i)) : Set (Fin d → ℕ))
      (Function.onFun Disjoint fun j => Spec.box (Spec.node rows j) (Spec.node rows fun i => j i + 1)) := by
  intro j hj j' hj' hne
  rw [Finset.mem_coe, Fintype.mem_piFinset] at hj hj'
  rw [Function.onFun, Set.disjoint_left]
  intro y hy hy'
  refine hne (funext fun i => ?_)
  have h1 := Finset.mem_range.mp (hj i)
  have h2 := Finset.mem_range.mp (hj' i)
  have h3 := hv i
  rcases lt_trichotomy (j i) (j' i) with hlt | heq | hlt
  · exact absurd ((hy i).2.trans (getD_mono (hs i) hlt (by omega))) (not_le.mpr (hy' i).1)
  · exact heq
  · exact absurd ((hy' i).2.trans (getD_mono (hs i) hlt (by omega))) (not_le.mpr (hy i).1)

/-- Trapezoid rule: the error of the mass is at most the variation of the function within a cell times the volume. -/
lemma massBelow_error (hs : ∀ i : Fin d, (rows.getD i []).Pairwise (· < ·))
    (hv : ∀ i : Fin d, idx i < (rows.getD i []).length) {F : (Fin d → ℝ) → ℝ} {η : ℝ}
    (hη : ∀ j : Fin d → ℕ, (∀ i, j i < idx i) → ∀ y z, (∀ i, Spec.node rows j i ≤ y i ∧
      y i ≤ Spec.node rows (fun i => j i + 1) i) → (∀ i, Spec.node rows j i ≤ z i ∧
      z i ≤ Spec.node rows (fun i => j i + 1) i) → |F y - F z| ≤ η)
    (hi : IntegrableOn F (Spec.box (Spec.lowNode rows) (Spec.node rows idx))) :
    |Spec.massBelow rows (fun j => F (Spec.node rows j)) idx
        - ∫ y in Spec.box (Spec.lowNode rows) (Spec.node rows idx), F y|
      ≤ η * ∏ i, (Spec.node rows idx i - Spec.lowNode rows i) := by
  set S := Fintype.piFinset fun i => Finset.range (idx i) with hS
  have hmem : ∀ j ∈ S, ∀ i, j i < idx i := fun j hj i => Finset.mem_range.mp (Fintype.mem_piFinset.mp hj i)
  have hsub : ∀ j ∈ S, Spec.box (Spec.node rows j) (Spec.node rows fun i => j i + 1) ⊆
      Spec.box (Spec.lowNode rows) (Spec.node rows idx) := by
    intro j hj
    rw [box_cells hs hv]
    exact Set.subset_biUnion_of_mem (u := fun j => Spec.box (Spec.node rows j) (Spec.node rows fun i => j i + 1)) hj
  have hle : ∀ j ∈ S, ∀ i, Spec.node rows j i ≤ Spec.node rows (fun i => j i + 1) i := fun j hj i => by
    have h1 := hmem j hj i
    have h2 := hv i
    exact getD_mono (hs i) (by show _ ≤ j i + 1; omega) (by show j i + 1 < _; omega)
  have hlow : ∀ i, Spec.lowNode rows i ≤ Spec.node rows idx i := fun i => getD_mono (hs i) (Nat.zero_le _) (hv i)
  have hcell : ∀ j ∈ S, |Spec.cellMass rows (fun j => F (Spec.node rows j)) j
      - ∫ y in Spec.box (Spec.node rows j) (Spec.node rows fun i => j i + 1), F y|
      ≤ η * volume.real (Spec.box (Spec.node rows j) (Spec.node rows fun i => j i + 1)) := by
    intro j hj
    set m := (∑ c ∈ Fintype.piFinset fun _ : Fin d => ({0, 1} : Finset ℕ), F (Spec.node rows fun i => j i + c i)) / 2 ^ d
      with hm
    have hfin := volume_box_lt (Spec.node rows j) (Spec.node rows fun i => j i + 1)
    have e1 : Spec.cellMass rows (fun j => F (Spec.node rows j)) j
        = ∫ _y in Spec.box (Spec.node rows j) (Spec.node rows fun i => j i + 1), m := by
      rw [setIntegral_const, volume_box (hle j hj), smul_eq_mul, mul_comm]
      rfl
    have hc : IntegrableOn (fun _ : Fin d → ℝ => m) (Spec.box (Spec.node rows j) (Spec.node rows fun i => j i + 1)) :=
      integrableOn_const hfin.ne
    rw [e1, ← integral_sub hc (hi.mono_set (hsub j hj)), ← Real.norm_eq_abs]
    refine norm_setIntegral_le_of_norm_le_const hfin fun y hy => ?_
    have hcard : (Fintype.piFinset fun _ : Fin d => ({0, 1} : Finset ℕ)).card = 2 ^ d := by
      simp [Fintype.card_piFinset]
    have e2 : m - F y = (∑ c ∈ Fintype.piFinset fun _ : Fin d => ({0, 1} : Finset ℕ),
        (F (Spec.node rows fun i => j i + c i) - F y)) / 2 ^ d := by
      rw [Finset.sum_sub_distrib, Finset.sum_const, hcard, sub_div, nsmul_eq_mul, Nat.cast_pow, Nat.cast_ofNat,
        mul_div_cancel_left₀ _ (by positivity)]
    rw [e2, Real.norm_eq_abs, abs_div, abs_of_pos (by positivity : (0 : ℝ) < 2 ^ d), div_le_iff₀ (by positivity)]
    refine (Finset.abs_sum_le_sum_abs _ _).trans ?_
    have e3 : η * 2 ^ d = ∑ _c ∈ Fintype.piFinset fun _ : Fin d => ({0, 1} : Finset ℕ), η := by
      rw [Finset.sum_const, hcard, nsmul_eq_mul, Nat.cast_pow, Nat.cast_ofNat, mul_comm]
    rw [e3]
    refine Finset.sum_le_sum fun c hc => hη j (hmem j hj) _ _ (fun i => ?_) fun i => ⟨(hy i).1.le, (hy i).2⟩
    have h1 := hmem j hj i
    have h2 := hv i
    have h3 := Fintype.mem_piFinset.mp hc i
    simp only [Finset.mem_insert, Finset.mem_singleton] at h3
    exact ⟨getD_mono (hs i) (by show _ ≤ j i + c i; omega) (by show j i + c i < _; omega),
      getD_mono (hs i) (by show j i + c i ≤ j i + 1; omega) (by show j i + 1 < _; omega)⟩
  have hvol : volume.real (Spec.box (Spec.lowNode rows) (Spec.node rows idx))
      = ∑ j ∈ S, volume.real (Spec.box (Spec.node rows j) (Spec.node rows fun i => j i + 1)) := by
    rw [box_cells hs hv]
    exact measureReal_biUnion_finset (cells_disjoint hs hv) (fun j _ => measurableSet_box _ _)
      fun j _ => (volume_box_lt _ _).ne
  rw [← volume_box hlow, hvol, Finset.mul_sum]
  have hint : ∫ y in Spec.box (Spec.lowNode rows) (Spec.node rows idx), F y
      = ∑ j ∈ S, ∫ y in Spec.box (Spec.node rows j) (Spec.node rows fun i => j i + 1), F y := by
    conv_lhs => rw [box_cells hs hv]
    exact integral_biUnion_finset _ (fun j _ => measurableSet_box _ _) (cells_disjoint hs hv)
      fun j hj => hi.mono_set (hsub j hj)
  rw [hint, Spec.massBelow, ← Finset.sum_sub_distrib]
  exact (Finset.abs_sum_le_sum_abs _ _).trans (Finset.sum_le_sum hcell)

lemma massBelow_le {f : (Fin d → ℕ) → ℝ} (hf : ∀ j, 0 ≤ f j) (hs : ∀ i : Fin d, (rows.getD i []).Pairwise (· < ·))
    {idx' : Fin d → ℕ} (hv : ∀ i : Fin d, idx' i < (rows.getD i []).length) (hle : ∀ i, idx i ≤ idx' i) :
    Spec.massBelow rows f idx ≤ Spec.massBelow rows f idx' := by
  refine Finset.sum_le_sum_of_subset_of_nonneg ?_ fun j hj _ => ?_
  · intro j hj
    rw [Fintype.mem_piFinset] at hj ⊢
    exact fun i => Finset.mem_range.mpr ((Finset.mem_range.mp (hj i)).trans_le (hle i))
  · refine mul_nonneg (div_nonneg (Finset.sum_nonneg fun c _ => hf _) (by positivity))
      (Finset.prod_nonneg fun i _ => sub_nonneg.mpr ?_)
    rw [Fintype.mem_piFinset] at hj
    have h2 := Finset.mem_range.mp (hj i)
    have h3 := hv i
    exact getD_mono (hs i) (Nat.le_succ _) (by omega)

end

/-! ## C174 -/

/-- Specification: within a (closed) cell of the grid the values of `F` differ by at most `η`. -/
def Spec.VariesBy (rows : List (List ℝ)) (F : (Fin d → ℝ) → ℝ) (η : ℝ) : Prop :=
  ∀ j : Fin d → ℕ, (∀ i : Fin d, j i + 1 < (rows.getD i []).length) → ∀ y z,
    (∀ i, Spec.node rows j i ≤ y i ∧ y i ≤ Spec.node rows (fun i => j i + 1) i) →
    (∀ i, Spec.node rows j i ≤ z i ∧ z i ≤ Spec.node rows (fun i => j i + 1) i) → |F y - F z| ≤ η

/-- Specification: the upper corner of the grid. -/
noncomputable def Spec.topNode (rows : List (List ℝ)) : Fin d → ℝ := Spec.node rows (Spec.lastIdx rows)

lemma quotient_error {t T i I e : ℝ} (h1 : |t - i| ≤ e) (h2 : |T - I| ≤ e) (ht : 0 ≤ t) (htT : t ≤ T) (hT : 0 < T)
    (hI : 0 < I) : |t / T - i / I| ≤ 2 * e / I := by
  have e1 : t / T - i / I = ((t - i) - t / T * (T - I)) / I := by
    field_simp
    ring
  have h3 : 0 ≤ t / T := div_nonneg ht hT.le
  have h4 : t / T ≤ 1 := (div_le_one hT).mpr htT
  rw [e1, abs_div, abs_of_pos hI]
  refine div_le_div_of_nonneg_right ?_ hI.le
  refine (abs_sub _ _).trans ?_
  rw [abs_mul, abs_of_nonneg h3]
  have : t / T * |T - I| ≤ 1 * e := mul_le_mul h4 h2 (abs_nonneg _) zero_le_one
  linarith

lemma density_ofRows (E : Ext) (srt : List ℝ → List ℕ) (k : KDE d) (pts : Pts) (p : Pts) (arr : Arr) (grid prob : Bool)
    (h : (k.density E srt (some (.rows pts.toRows)) .none .none grid prob).1 = .ok (p, arr)) :
    ∃ p' arr', (k.density E srt (some pts) .none .none grid prob).1 = .ok (p', arr') := by
  cases pts with
  | rows l => exact ⟨p, arr, h⟩
  | flat l =>
    simp only [KDE.density, KDE.choosePoints, Pts.toRows] at h ⊢
    cases hs : paramSel d .none with
    | error e => rw [hs] at h; cases h
    | ok s =>
      obtain ⟨sel, squeeze⟩ := s
      rw [hs] at h
      simp only at h ⊢
      cases hr : reflectLength d (numSel sel) (k.defaultReflect sel .none) with
      | error e => rw [hr] at h; cases h
      | ok r =>
        rw [hr] at h
        simp only [PtsUse.evalRows, Pts.toRows] at h ⊢
        cases hcols : toCols (if grid = true then meshRows [l] else [l]) with
        | error e => rw [hcols] at h; cases h
        | ok cols =>
          rw [hcols] at h
          simp only at h ⊢
          rcases hk : k.evalKernel E sel cols r with ⟨_ | vals, k'⟩
          · rw [hk] at h; cases h
          · exact ⟨_, _, rfl⟩

lemma density_grid_ok {E : Ext} {srt : List ℝ → List ℕ} {k : KDE d} {F : (Fin d → ℝ) → ℝ} (hF : Spec.Reports E srt k F)
    (hd : 0 < d) {rows : List (List ℝ)} (hl : rows.length = d) :
    ∃ p arr, (k.density E srt (some (.rows rows)) .none .none true true).1 = .ok (p, arr) := by
  obtain ⟨o, ho⟩ := density_rows E srt k .none .none true
  have h1 := hF [0]
  have hlen : (Spec.rowsOf [(0 : Fin d → ℝ)]).length = d := by simp [Spec.rowsOf]
  rcases ho (Spec.rowsOf [0]) false with ⟨_, _, e, he⟩ | ⟨f, sq, hf, _, _⟩
  · rw [KDE.pdf, he] at h1
    cases h1
  · rw [hlen] at hf
    rcases ho rows true with ⟨e, he, _⟩ | ⟨f', sq', hf', _, he⟩
    · rw [hl, hf] at he
      cases he
    · have hne : meshRows rows ≠ [] := by
        intro h0
        have : (meshRows rows).length = rows.length := by simp [meshRows]
        rw [h0, hl] at this
        simp at this
        omega
      have hmesh : ∀ r ∈ meshRows rows, r.length = ∏ i, (rows.get i).length := by
        intro r hr
        obtain ⟨i, rfl⟩ := (List.mem_ofFn' _ _).mp hr
        rw [NDArr.flat_length]
        rfl
      obtain ⟨c, hc, _⟩ := toCols_eq hne hmesh
      simp only [if_true] at he
      rw [he, hc]
      exact ⟨_, _, rfl⟩

lemma cdfOf_ok {rows : List (List ℝ)} {arr : Arr} (hl : rows.length = d)
    (hrows : ∀ row ∈ rows, 2 ≤ row.length ∧ row.Pairwise (· < ·)) {f : (Fin d → ℕ) → ℝ} (hf : ∀ j, 0 ≤ f j)
    (hget : ∀ j : Fin d → ℕ, (∀ i : Fin d, j i < (rows.getD i []).length) → (arr.toND rows : NDArr d ℝ).get j = f j)
    {idx : Fin d → ℕ} (hv : ∀ i : Fin d, idx i < (rows.getD i []).length) (hpos : 0 < f idx) :
    ∃ g : CdfGrid d, cdfOf rows arr = .ok g := by
  have hr : ∀ i : Fin d, 2 ≤ (rows.getD i []).length ∧ (rows.getD i []).Pairwise (· < ·) := by
    intro i
    have hi : (i : ℕ) < rows.length := hl ▸ i.2
    rw [List.getD_eq_getElem _ _ hi]
    exact hrows _ (List.getElem_mem hi)
  have hmatch : EdgesMatch (arr.toND rows : NDArr d ℝ).shape rows := ⟨hl, fun i => rfl⟩
  obtain ⟨M, hM⟩ := trapzDensToMass_ok hmatch Finset.univ fun i => by
    have := (hr i).1
    show 0 < (rows.getD i []).length
    omega
  obtain ⟨C, hC⟩ : ∃ C, cumtrapzNd (arr.toND rows : NDArr d ℝ) rows true none = .ok C := by
    simp only [cumtrapzNd, axisSet, hM, Except.map]
    exact ⟨_, rfl⟩
  obtain ⟨c1, _⟩ := C39_cumtrapz_eq hM hC
  have hshape : ∀ i, C.shape i = (rows.getD i []).length := fun i => c1 i
  have hlast : ∀ i : Fin d, Spec.lastIdx (d := d) rows i < (rows.getD i []).length := by
    intro i
    have := (hr i).1
    unfold Spec.lastIdx
    omega
  have hval : ∀ j : Fin d → ℕ, (∀ i : Fin d, j i < (rows.getD i []).length) → C.get j = Spec.massBelow rows f j :=
    fun j hj => (cumtrapz_below hC j hj).trans (massBelow_congr hj hget)
  have hmax : C.max = Spec.massBelow rows f (Spec.lastIdx rows) := by
    rw [← hval _ hlast]
    refine NDArr.max_eq (fun i => by rw [hshape]; exact hlast i) fun j hj => ?_
    have hj' : ∀ i : Fin d, j i < (rows.getD i []).length := fun i => by rw [← hshape]; exact hj i
    rw [hval j hj', hval _ hlast]
    exact massBelow_le hf (fun i => (hr i).2) hlast fun i => Nat.le_sub_one_of_lt (hj' i)
  have hne : C.max ≠ 0 := by
    rw [hmax]
    refine (Finset.sum_pos' (fun j hj => ?_) ⟨fun i => min (idx i) ((rows.getD i []).length - 2), ?_, ?_⟩).ne'
    · refine mul_nonneg (div_nonneg (Finset.sum_nonneg fun c _ => hf _) (by positivity))
        (Finset.prod_nonneg fun i _ => sub_nonneg.mpr ?_)
      have h2 := Finset.mem_range.mp (Fintype.mem_piFinset.mp hj i)
      have h3 := hlast i
      exact getD_mono (hr i).2 (Nat.le_succ _) (by omega)
    · rw [Fintype.mem_piFinset]
      intro i
      have := (hr i).1
      rw [Finset.mem_range]
      unfold Spec.lastIdx
      omega
    · refine mul_pos (div_pos (Finset.sum_pos' (fun c _ => hf _)
        ⟨fun i => idx i - min (idx i) ((rows.getD i []).length - 2), ?_, ?_⟩) (by positivity))
        (Finset.prod_pos fun i _ => sub_pos.mpr ?_)
      · rw [Fintype.mem_piFinset]
        intro i
        have h1 := hv i
        have h2 := (hr i).1
        simp only [Finset.mem_insert, Finset.mem_singleton]
        omega
      · have e : (fun i : Fin d => min (idx i) ((rows.getD i []).length - 2) +
            (idx i - min (idx i) ((rows.getD i []).length - 2))) = idx := by
          funext i
          omega
        rw [e]
        exact hpos
      · have h2 := (hr i).1
        have hp := (hr i).2
        show (rows.getD i []).getD (min (idx i) ((rows.getD i []).length - 2)) 0
          < (rows.getD i []).getD (min (idx i) ((rows.getD i []).length - 2) + 1) 0
        generalize rows.getD i [] = row at h2 hp ⊢
        rw [List.getD_eq_getElem _ _ (by omega), List.getD_eq_getElem _ _ (by omega)]
        exact List.pairwise_iff_getElem.mp hp _ _ _ _ (by omega)
  refine ⟨⟨rows, C.map (· / C.max)⟩, ?_⟩
  simp only [cdfOf, hC]
  rw [if_neg hne, if_pos (show Ascending rows from hrows)]

/-- **C174**, success.  If the evaluation points are strictly increasing in each dimension, at least two each, and the pdf
is positive at some point of the grid, then `cdf` can be evaluated. -/
theorem C174_succeeds {E : Ext} {a : KDEArgs d} {k : KDE d} (h : KDE.init E a = .ok k) (hd : 0 < d)
    (srt : List ℝ → List ℕ) {F : (Fin d → ℝ) → ℝ} (hF : Spec.Reports E srt k F)
    {pts : Pts} (hp : (k.points srt).1 = .ok pts) (hl : pts.toRows.length = d)
    (hrows : ∀ row ∈ pts.toRows, 2 ≤ row.length ∧ row.Pairwise (· < ·))
    {idx : Fin d → ℕ} (hv : ∀ i : Fin d, idx i < (pts.toRows.getD i []).length)
    (hpos : 0 < F (Spec.node pts.toRows idx)) : ∃ G, Spec.ReportsCdf E srt k G := by
  have hdens : ∀ p grid, ((k.points srt).2.density E srt (some p) .none .none grid true).1
      = (k.density E srt (some p) .none .none grid true).1 := by
    intro p grid
    have := C14_history E srt h [.points] (.density (some p) .none .none grid true)
    rwa [Spec.call, Spec.call, Spec.Outcome.values.injEq] at this
  obtain ⟨p0, arr0, h0⟩ := density_grid_ok hF hd hl
  obtain ⟨p, arr, h1⟩ := density_ofRows E srt k pts p0 arr0 true true h0
  have hFn : ∀ x, 0 ≤ F x := fun x => by
    have := C05_kde_all h srt hd [] _ _ _ _ _ _ _ (hF [x])
    exact this (F x) (by simp)
  have h1' := h1
  rw [← hdens] at h1'
  obtain ⟨g, hg⟩ := cdfOf_ok hl hrows (arr := arr) (f := fun j => F (Spec.node pts.toRows j)) (fun j => hFn _)
    (fun j hj => node_value hF (fun _ => rfl) h1 hl hj) hv hpos
  have hc : k.cdfCache = none := by rw [← fresh_of_init h]; rfl
  have hgrid : (k.cdfGrid E srt).1 = .ok g := by
    rw [(cdfGrid_plain E srt k hc).1]
    simp only [cdfPlain]
    rcases hk : k.points srt with ⟨r, k1⟩
    rw [hk] at hp h1'
    simp only at hp h1'
    subst hp
    simp only [andThen, cdfEval]
    rcases hk2 : k1.density E srt (some pts) .none .none true true with ⟨r, k2⟩
    rw [hk2] at h1'
    simp only at h1'
    subst h1'
    simp only [cdfFinish]
    exact hg
  refine ⟨g.interp, fun history xs => ?_⟩
  have hist := C14_history E srt h history (.cdf (.rows (Spec.rowsOf xs)) .none .none)
  rw [Spec.call, Spec.call, Spec.Outcome.probs.injEq] at hist
  rw [hist]
  simp only [KDE.cdf]
  rcases hk : k.cdfGrid E srt with ⟨r, k1⟩
  rw [hk] at hgrid
  simp only at hgrid
  subst hgrid
  simp only [cdfPoints_rowsOf hd, Except.map]

/-- **C174**, integrals.  If within each cell of the grid of evaluation points the pdf `F` varies by at most `η`, then
at every point `x` of the grid the cdf differs from `∫ F` over the part of the grid below `x`, divided by `∫ F` over the
whole grid, by at most `2 η V / ∫ F`, with `V` the volume of the grid.  (With or without reflecting boundaries.) -/
theorem C174_integral {E : Ext} {a : KDEArgs d} {k : KDE d} (h : KDE.init E a = .ok k) (hd : 0 < d)
    (srt : List ℝ → List ℕ) {F : (Fin d → ℝ) → ℝ} (hF : Spec.Reports E srt k F)
    {pts : Pts} (hp : (k.points srt).1 = .ok pts) (q : Pts) (out : List ℝ) (hq : (k.cdf E srt q).1 = .ok out)
    {η : ℝ} (hη : Spec.VariesBy pts.toRows F η)
    (hi : IntegrableOn F (Spec.box (Spec.lowNode pts.toRows) (Spec.topNode pts.toRows)))
    (hm : 0 < ∫ y in Spec.box (Spec.lowNode pts.toRows) (Spec.topNode pts.toRows), F y) :
    ∃ G : (Fin d → ℝ) → ℝ, Spec.ReportsCdf E srt k G ∧
      ∀ idx : Fin d → ℕ, (∀ i : Fin d, idx i < (pts.toRows.getD i []).length) →
        |G (Spec.node pts.toRows idx) - (∫ y in Spec.box (Spec.lowNode pts.toRows) (Spec.node pts.toRows idx), F y)
            / ∫ y in Spec.box (Spec.lowNode pts.toRows) (Spec.topNode pts.toRows), F y|
          ≤ 2 * (η * ∏ i : Fin d, (Spec.topNode pts.toRows i - Spec.lowNode pts.toRows i))
            / ∫ y in Spec.box (Spec.lowNode pts.toRows) (Spec.topNode pts.toRows), F y := by
  obtain ⟨pts', G, hp', hG, hl, hrows, hpos, hval⟩ := C174_exact h hd srt hF [] q out hq
  obtain rfl : pts = pts' := by rw [hp] at hp'; exact Except.ok.inj hp'
  generalize pts.toRows = rows at *
  have hr : ∀ i : Fin d, 2 ≤ (rows.getD i []).length ∧ (rows.getD i []).Pairwise (· < ·) := by
    intro i
    have hi : (i : ℕ) < rows.length := hl ▸ i.2
    rw [List.getD_eq_getElem _ _ hi]
    exact hrows _ (List.getElem_mem hi)
  have hs := fun i => (hr i).2
  have hlast : ∀ i : Fin d, Spec.lastIdx (d := d) rows i < (rows.getD i []).length := by
    intro i
    have := (hr i).1
    unfold Spec.lastIdx
    omega
  have hFn : ∀ x, 0 ≤ F x := fun x => by
    have := C05_kde_all h srt hd [] _ _ _ _ _ _ _ (hF [x])
    exact this (F x) (by simp)
  have hη0 : 0 ≤ η := by
    have := hη (fun _ => 0) (fun i => by have := (hr i).1; omega) (Spec.node rows fun _ => 0) (Spec.node rows fun _ => 0)
      (fun i => ⟨le_rfl, getD_mono (hs i) (Nat.zero_le _) (by have := (hr i).1; show 0 + 1 < _; omega)⟩)
      (fun i => ⟨le_rfl, getD_mono (hs i) (Nat.zero_le _) (by have := (hr i).1; show 0 + 1 < _; omega)⟩)
    exact (abs_nonneg _).trans this
  refine ⟨G, hG, fun idx hidx => ?_⟩
  rw [hval idx hidx]
  have hle : ∀ i, idx i ≤ Spec.lastIdx rows i := fun i => Nat.le_sub_one_of_lt (hidx i)
  have hnl : ∀ i, Spec.node rows idx i ≤ Spec.topNode rows i := fun i => getD_mono (hs i) (hle i) (hlast i)
  have hln : ∀ i, Spec.lowNode rows i ≤ Spec.node rows idx i := fun i => getD_mono (hs i) (Nat.zero_le _) (hidx i)
  have hsub : Spec.box (Spec.lowNode rows) (Spec.node rows idx) ⊆ Spec.box (Spec.lowNode rows) (Spec.topNode rows) :=
    fun y hy i => ⟨(hy i).1, (hy i).2.trans (hnl i)⟩
  have hη' : ∀ idx' : Fin d → ℕ, (∀ i : Fin d, idx' i < (rows.getD i []).length) → ∀ j : Fin d → ℕ, (∀ i, j i < idx' i) →
      ∀ y z, (∀ i, Spec.node rows j i ≤ y i ∧ y i ≤ Spec.node rows (fun i => j i + 1) i) →
      (∀ i, Spec.node rows j i ≤ z i ∧ z i ≤ Spec.node rows (fun i => j i + 1) i) → |F y - F z| ≤ η :=
    fun idx' h' j hj => hη j fun i => by have := hj i; have := h' i; omega
  refine quotient_error (e := η * ∏ i : Fin d, (Spec.topNode rows i - Spec.lowNode rows i))
    ((massBelow_error hs hidx (hη' idx hidx) (hi.mono_set hsub)).trans ?_)
    (massBelow_error hs hlast (hη' _ hlast) hi) (massBelow_nonneg (fun j => hFn _) hidx hs)
    (massBelow_le (fun j => hFn _) hs hlast hle) hpos hm
  exact mul_le_mul_of_nonneg_left (Finset.prod_le_prod (fun i _ => sub_nonneg.mpr (hln i))
    fun i _ => sub_le_sub_right (hnl i) _) hη0

/-- The probability below `x` among the values in a box differs from the probability below `x` by at most the probability
outside of the box. -/
lemma cond_error {F : (Fin d → ℝ) → ℝ} (hI : Integrable F) (hFn : ∀ x, 0 ≤ F x) (hone : ∫ y, F y = 1)
    {u v x : Fin d → ℝ} (hm : 0 < ∫ y in Spec.box u v, F y) (hxv : ∀ i, x i ≤ v i) :
    |(∫ y in Spec.box u x, F y) / (∫ y in Spec.box u v, F y) - ∫ y in {y | ∀ i, y i ≤ x i}, F y|
      ≤ 1 - ∫ y in Spec.box u v, F y := by
  set m := ∫ y in Spec.box u v, F y with hmF
  set I := ∫ y in Spec.box u x, F y
  set P := ∫ y in {y : Fin d → ℝ | ∀ i, y i ≤ x i}, F y
  have hms : MeasurableSet {y : Fin d → ℝ | ∀ i, y i ≤ x i} := measurableSet_Iic (a := x)
  have hsub : Spec.box u x ⊆ {y : Fin d → ℝ | ∀ i, y i ≤ x i} := fun y hy i => (hy i).2
  have hdiff : P - I = ∫ y in {y : Fin d → ℝ | ∀ i, y i ≤ x i} \ Spec.box u x, F y := by
    rw [setIntegral_sdiff₀ (measurableSet_box u x).nullMeasurableSet hI.integrableOn hsub]
  have h0 : 0 ≤ P - I := by
    rw [hdiff]
    exact setIntegral_nonneg (hms.diff (measurableSet_box u x)) fun y _ => hFn y
  have h1 : P - I ≤ 1 - m := by
    rw [hdiff, ← hone, hmF, ← setIntegral_compl (measurableSet_box _ _) hI]
    refine setIntegral_mono_set hI.integrableOn (Filter.Eventually.of_forall fun y => hFn y)
      (LE.le.eventuallyLE ?_)
    intro y hy hy'
    exact hy.2 fun i => ⟨(hy' i).1, hy.1 i⟩
  have h2 : 0 ≤ I := setIntegral_nonneg (measurableSet_box u x) fun y _ => hFn y
  have h3 : I ≤ m := by
    refine setIntegral_mono_set hI.integrableOn (Filter.Eventually.of_forall fun y => hFn y)
      (LE.le.eventuallyLE ?_)
    exact fun y hy i => ⟨(hy i).1, (hy i).2.trans (hxv i)⟩
  have h4 : m ≤ 1 := by
    rw [hmF, ← hone]
    exact setIntegral_le_integral hI (Filter.Eventually.of_forall fun y => hFn y)
  have h5 : 0 ≤ I / m - I ∧ I / m - I ≤ 1 - m := by
    have e : I / m - I = I / m * (1 - m) := by field_simp
    have : I / m ≤ 1 := (div_le_one hm).mpr h3
    rw [e]
    exact ⟨mul_nonneg (div_nonneg h2 hm.le) (by linarith), mul_le_of_le_one_left (by linarith) this⟩
  rw [abs_le]
  constructor <;> linarith [h5.1, h5.2]

/-- **C174**, probabilities.  Without boundaries, and with the pdf `F` varying by at most `η` within a cell, the cdf at
every point `x` of the grid differs from the probability `∫ F` over all `y ≤ x` by at most `2 η V / m + (1 - m)`, where `V`
is the volume of the grid and `m` the probability of the grid. -/
theorem C174_probability {E : Ext} {a : KDEArgs d} {k : KDE d} (h : KDE.init E a = .ok k) (hd : 0 < d)
    (srt : List ℝ → List ℕ) (hr : a.reflect = .none) (hM : (Spec.kernelMatrix k.covariance k.bandwidth).PosDef)
    {F : (Fin d → ℝ) → ℝ} (hF : Spec.Reports E srt k F)
    {pts : Pts} (hp : (k.points srt).1 = .ok pts) (q : Pts) (out : List ℝ) (hq : (k.cdf E srt q).1 = .ok out)
    {η m : ℝ} (hη : Spec.VariesBy pts.toRows F η) (hm : 0 < m)
    (hmF : ∫ y in Spec.box (Spec.lowNode pts.toRows) (Spec.topNode pts.toRows), F y = m) :
    ∃ G : (Fin d → ℝ) → ℝ, Spec.ReportsCdf E srt k G ∧
      ∀ idx : Fin d → ℕ, (∀ i : Fin d, idx i < (pts.toRows.getD i []).length) →
        |G (Spec.node pts.toRows idx) - ∫ y in {y | ∀ i, y i ≤ Spec.node pts.toRows idx i}, F y|
          ≤ 2 * (η * ∏ i : Fin d, (Spec.topNode pts.toRows i - Spec.lowNode pts.toRows i)) / m + (1 - m) := by
  obtain ⟨hI, hFn⟩ := pdf_facts h srt hd hr hM hF
  have hone : ∫ y, F y = 1 := by
    obtain ⟨F', hF', _, h1⟩ := C07_normalised h srt hd hr hM
    rwa [reports_unique (fun pts => hF' [] pts) hF] at h1
  obtain ⟨G, hG, hval⟩ := C174_integral h hd srt hF hp q out hq hη hI.integrableOn (hmF ▸ hm)
  refine ⟨G, hG, fun idx hidx => ?_⟩
  have hv := hval idx hidx
  rw [hmF] at hv
  have hbox : ∀ i, Spec.node pts.toRows idx i ≤ Spec.topNode (d := d) pts.toRows i := by
    obtain ⟨pts', _, hp', _, hl, hrows, _⟩ := C174_exact h hd srt hF [] q out hq
    obtain rfl : pts = pts' := by rw [hp] at hp'; exact Except.ok.inj hp'
    intro i
    have hi : (i : ℕ) < pts.toRows.length := hl ▸ i.2
    have h2 := hidx i
    refine getD_mono ?_ (Nat.le_sub_one_of_lt h2) (by unfold Spec.lastIdx; omega)
    rw [List.getD_eq_getElem _ _ hi]
    exact (hrows _ (List.getElem_mem hi)).2
  have hb := cond_error hI hFn hone (u := Spec.lowNode pts.toRows) (hmF ▸ hm) hbox
  rw [hmF] at hb
  exact (abs_sub_le _ _ _).trans (add_le_add hv hb)

lemma reportsCdf_unique {E : Ext} {srt : List ℝ → List ℕ} {k : KDE d} {G G' : (Fin d → ℝ) → ℝ}
    (h : Spec.ReportsCdf E srt k G) (h' : Spec.ReportsCdf E srt k G') : G = G' := by
  funext x
  have := (h [] [x]).symm.trans (h' [] [x])
  simpa using this

/-- **C174**, limit.  Let `F` be continuous on the box between `u` and `v`, with positive integral over the box.  For every
tolerance `τ` there is a width `δ` such that for every `KDE` whose pdf is `F` and whose grid of evaluation points spans this
box with steps of at most `δ`, the cdf at every point `x` of the box (on the grid or between) is within `τ` of the
probability of values below `x` among those within the box. -/
theorem C174_limit (hd : 0 < d) {F : (Fin d → ℝ) → ℝ} {u v : Fin d → ℝ} (hc : ContinuousOn F (Set.Icc u v))
    (hm : 0 < ∫ y in Spec.box u v, F y) {τ : ℝ} (hτ : 0 < τ) :
    ∃ δ > 0, ∀ (E : Ext) (a : KDEArgs d) (k : KDE d) (srt : List ℝ → List ℕ) (pts q : Pts) (out : List ℝ),
      KDE.init E a = .ok k → Spec.Reports E srt k F → (k.points srt).1 = .ok pts → (k.cdf E srt q).1 = .ok out →
      Spec.lowNode pts.toRows = u → Spec.topNode pts.toRows = v →
      (∀ (i : Fin d) (j : ℕ), j + 1 < (pts.toRows.getD i []).length →
        (pts.toRows.getD i []).getD (j + 1) 0 - (pts.toRows.getD i []).getD j 0 ≤ δ) →
      ∃ G : (Fin d → ℝ) → ℝ, Spec.ReportsCdf E srt k G ∧
        ∀ x ∈ Set.Icc u v, |G x - (∫ y in Spec.box u x, F y) / ∫ y in Spec.box u v, F y| ≤ τ := by
  set m := ∫ y in Spec.box u v, F y with hmdef
  set V := ∏ i, (v i - u i) with hV
  obtain ⟨B, hB⟩ := isCompact_Icc.exists_bound_of_continuousOn hc
  have huF := Metric.uniformContinuousOn_iff.mp (isCompact_Icc.uniformContinuousOn_of_continuous hc)
  have hPc : Continuous fun x : Fin d → ℝ => ∏ i, (x i - u i) :=
    continuous_finsetProd _ fun i _ => (continuous_apply i).sub continuous_const
  have huP := Metric.uniformContinuousOn_iff.mp
    (isCompact_Icc.uniformContinuousOn_of_continuous (hPc.continuousOn (s := Set.Icc u v)))
  obtain ⟨δ1, hδ1, h1⟩ := huF (τ * m / (4 * (|V| + 1))) (by positivity)
  obtain ⟨δ2, hδ2, h2⟩ := huP (τ * m / (2 * (|B| + 1))) (by positivity)
  have hδ : 0 < min δ1 δ2 / 2 := by positivity
  refine ⟨min δ1 δ2 / 2, hδ, ?_⟩
  intro E a k srt pts q out hk hF hp hq hu hv hmesh
  have hi : IntegrableOn F (Spec.box u v) :=
    (hc.integrableOn_compact isCompact_Icc).mono_set fun y hy => ⟨fun i => (hy i).1.le, fun i => (hy i).2⟩
  obtain ⟨pts', G', hp', hl, hrows, hG', _, hmono, _⟩ := C61_cdf_partial hk hd srt [] q out hq
  obtain rfl : pts = pts' := by rw [hp] at hp'; exact Except.ok.inj hp'
  have hr : ∀ i : Fin d, 2 ≤ (pts.toRows.getD i []).length ∧ (pts.toRows.getD i []).Pairwise (· < ·) := by
    intro i
    have hi : (i : ℕ) < pts.toRows.length := hl ▸ i.2
    rw [List.getD_eq_getElem _ _ hi]
    exact hrows _ (List.getElem_mem hi)
  have hFn : ∀ x, 0 ≤ F x := fun x => by
    have := C05_kde_all hk srt hd [] _ _ _ _ _ _ _ (hF [x])
    exact this (F x) (by simp)
  have hin : ∀ x ∈ Set.Icc u v, Spec.InGrid pts.toRows x := by
    intro x hx i
    rw [first_eq, last_eq]
    exact ⟨by have := hx.1 i; rw [← hu] at this; exact this, by have := hx.2 i; rw [← hv] at this; exact this⟩
  have hnode : ∀ idx : Fin d → ℕ, (∀ i : Fin d, idx i < (pts.toRows.getD i []).length) →
      Spec.node pts.toRows idx ∈ Set.Icc u v := by
    intro idx hidx
    rw [← hu, ← hv]
    refine ⟨fun i => getD_mono (hr i).2 (Nat.zero_le _) (hidx i),
      fun i => getD_mono (hr i).2 (Nat.le_sub_one_of_lt (hidx i)) (by have := hidx i; unfold Spec.lastIdx; omega)⟩
  have hcell : ∀ j : Fin d → ℕ, (∀ i : Fin d, j i + 1 < (pts.toRows.getD i []).length) → ∀ y z,
      (∀ i, Spec.node pts.toRows j i ≤ y i ∧ y i ≤ Spec.node pts.toRows (fun i => j i + 1) i) →
      (∀ i, Spec.node pts.toRows j i ≤ z i ∧ z i ≤ Spec.node pts.toRows (fun i => j i + 1) i) →
      y ∈ Set.Icc u v ∧ z ∈ Set.Icc u v ∧ dist y z < min δ1 δ2 := by
    intro j hj y z hy hz
    have hn1 := hnode j fun i => by have := hj i; omega
    have hn2 := hnode (fun i => j i + 1) hj
    refine ⟨⟨fun i => (hn1.1 i).trans (hy i).1, fun i => (hy i).2.trans (hn2.2 i)⟩,
      ⟨fun i => (hn1.1 i).trans (hz i).1, fun i => (hz i).2.trans (hn2.2 i)⟩, ?_⟩
    refine lt_of_le_of_lt ((dist_pi_le_iff hδ.le).mpr fun i => ?_) (by linarith : min δ1 δ2 / 2 < min δ1 δ2)
    have hs : Spec.node pts.toRows (fun i => j i + 1) i - Spec.node pts.toRows j i ≤ min δ1 δ2 / 2 := hmesh i (j i) (hj i)
    rw [Real.dist_eq, abs_le]
    constructor <;> linarith [(hy i).1, (hy i).2, (hz i).1, (hz i).2]
  have hη : Spec.VariesBy pts.toRows F (τ * m / (4 * (|V| + 1))) := by
    intro j hj y z hy hz
    obtain ⟨c1, c2, c3⟩ := hcell j hj y z hy hz
    exact (h1 y c1 z c2 (c3.trans_le (min_le_left _ _))).le
  obtain ⟨G, hG, hval⟩ := C174_integral hk hd srt hF hp q out hq hη (by rw [hu, hv]; exact hi) (by rw [hu, hv]; exact hm)
  obtain rfl : G' = G := reportsCdf_unique hG' hG
  rw [hu, hv, ← hmdef, ← hV] at hval
  have herr : 2 * (τ * m / (4 * (|V| + 1)) * V) / m ≤ τ / 2 := by
    have e : 2 * (τ * m / (4 * (|V| + 1)) * V) / m = τ / 2 * (V / (|V| + 1)) := by
      have := hm.ne'
      field_simp
      ring
    rw [e]
    exact mul_le_of_le_one_right (by positivity) ((div_le_one (by positivity)).mpr (by linarith [le_abs_self V]))
  have hIle : ∀ x y, (∀ i, x i ≤ y i) → y ∈ Set.Icc u v →
      ∫ z in Spec.box u x, F z ≤ ∫ z in Spec.box u y, F z := by
    intro x y hxy hy
    refine setIntegral_mono_set (hi.mono_set fun z hz i => ⟨(hz i).1, (hz i).2.trans (hy.2 i)⟩)
      (Filter.Eventually.of_forall fun z => hFn z) (LE.le.eventuallyLE ?_)
    exact fun z hz i => ⟨(hz i).1, (hz i).2.trans (hxy i)⟩
  refine ⟨G', hG, fun x hx => ?_⟩
  have hex : ∀ i : Fin d, ∃ j, j + 1 < (pts.toRows.getD i []).length ∧ (pts.toRows.getD i []).getD j 0 ≤ x i ∧
      x i ≤ (pts.toRows.getD i []).getD (j + 1) 0 := by
    intro i
    obtain ⟨hin1, hin2⟩ := hin x hx i
    rw [first_eq] at hin1
    rw [last_eq] at hin2
    have h2 := (hr i).1
    rcases hin1.eq_or_lt with he | hlt
    · exact ⟨0, by omega, hin1, he ▸ getD_mono (hr i).2 (Nat.zero_le _) (by omega)⟩
    · obtain ⟨j, hj, hj1, hj2⟩ := exists_cell (f := fun n => (pts.toRows.getD i []).getD n 0) hlt hin2
      exact ⟨j, by omega, hj1.le, hj2⟩
  choose j hj hj1 hj2 using hex
  have hjv : ∀ i : Fin d, j i < (pts.toRows.getD i []).length := fun i => by have := hj i; omega
  set lo := Spec.node pts.toRows j with hlo
  set up := Spec.node pts.toRows (fun i => j i + 1) with hup
  have hlx : ∀ i, lo i ≤ x i := hj1
  have hxu : ∀ i, x i ≤ up i := hj2
  have hlu : ∀ i, lo i ≤ up i := fun i => (hlx i).trans (hxu i)
  obtain ⟨c1, c2, c3⟩ := hcell j hj up lo (fun i => ⟨hlu i, le_rfl⟩) fun i => ⟨le_rfl, hlu i⟩
  have g1 := hmono lo x (hin _ c2) (hin _ hx) hlx
  have g2 := hmono x up (hin _ hx) (hin _ c1) hxu
  have e1 := abs_le.mp ((hval j hjv).trans herr)
  have e2 := abs_le.mp ((hval (fun i => j i + 1) hj).trans herr)
  have i1 := div_le_div_of_nonneg_right (hIle lo x hlx hx) hm.le
  have i2 := div_le_div_of_nonneg_right (hIle x up hxu c1) hm.le
  have hPd := h2 up c1 lo c2 (c3.trans_le (min_le_right _ _))
  rw [Real.dist_eq] at hPd
  have hdiff : (∫ y in Spec.box u up, F y) - ∫ y in Spec.box u lo, F y ≤ |B| * (τ * m / (2 * (|B| + 1))) := by
    have hsub : Spec.box u lo ⊆ Spec.box u up := fun z hz i => ⟨(hz i).1, (hz i).2.trans (hlu i)⟩
    have hsubv : Spec.box u up ⊆ Spec.box u v := fun z hz i => ⟨(hz i).1, (hz i).2.trans (c1.2 i)⟩
    rw [← setIntegral_sdiff₀ (measurableSet_box u lo).nullMeasurableSet (hi.mono_set hsubv) hsub]
    have hfin : volume (Spec.box u up \ Spec.box u lo) < ⊤ :=
      (measure_mono Set.sdiff_subset).trans_lt (volume_box_lt u up)
    refine (le_abs_self _).trans ?_
    rw [← Real.norm_eq_abs]
    refine (norm_setIntegral_le_of_norm_le_const (C := |B|) hfin fun y hy => ?_).trans ?_
    · have hy' := hsubv hy.1
      exact (hB y ⟨fun i => (hy' i).1.le, fun i => (hy' i).2⟩).trans (le_abs_self B)
    · refine mul_le_mul_of_nonneg_left ?_ (abs_nonneg B)
      rw [measureReal_sdiff hsub (measurableSet_box u lo) (volume_box_lt u up).ne, volume_box fun i => c1.1 i,
        volume_box fun i => c2.1 i]
      exact (le_abs_self _).trans hPd.le
  have hdiff' : (∫ y in Spec.box u up, F y) / m - (∫ y in Spec.box u lo, F y) / m ≤ τ / 2 := by
    rw [← sub_div, div_le_iff₀ hm]
    refine hdiff.trans ?_
    have e : |B| * (τ * m / (2 * (|B| + 1))) = τ / 2 * m * (|B| / (|B| + 1)) := by
      field_simp
    rw [e]
    exact mul_le_of_le_one_right (by positivity) ((div_le_one (by positivity)).mpr (by linarith))
  rw [abs_le]
  constructor <;> linarith [e1.1, e1.2, e2.1, e2.2]

/-! ### Grids given by the user -/

lemma init_points {E : Ext} {a : KDEArgs d} {k : KDE d} (h : KDE.init E a = .ok k) (P : EdgeArg) :
    KDE.init E { a with points := P } = .ok { k with pointsSpec := P } := by
  obtain ⟨_, _, _, _, _, _, _, _, h1, h2, h3, h4, h5, h6, h7, h8, h9, h10, rfl⟩ := init_inv h
  unfold KDE.init
  simp only [h1, h3, h4, h5, h6, h7, h8, h9, h10]
  rw [if_neg h2, if_neg (by simp)]

/-- Arrays given by the user are the evaluation points. -/
lemma points_rows {E : Ext} {a : KDEArgs d} {k : KDE d} (h : KDE.init E a = .ok k) (hd : 0 < d) (srt : List ℝ → List ℕ)
    {rows : List (List ℝ)} (hl : rows.length = d) (ha : a.points = .list (rows.map .arr)) (hs : a.squeeze = true → d = 1) :
    ∃ pts, (k.points srt).1 = .ok pts ∧ pts.toRows = rows := by
  have hp := C14_points E srt h []
  simp only [List.foldl_nil] at hp
  rw [hp]
  have hds : k.dataset ≠ [] ∧ k.pointsSpec = .list (rows.map .arr) ∧ k.squeeze = a.squeeze := by
    obtain ⟨_, _, _, _, _, _, _, _, _, hne, _, _, _, _, _, _, _, _, rfl⟩ := init_inv h
    exact ⟨by assumption, ha, rfl⟩
  obtain ⟨ext, hext, _⟩ := parseExtremaOf_extremaList hd hds.1 k.extrema
  have hf : finSeq (d := d) (fun i => getEdges1d srt ((rows.map EdgeSpec.arr).getD i .auto) (dataRow k.dataset i)
      (ext i) k.weights d 3 200 ((some 0 : Option ℝ).getD 0) (Real.sqrt 10) (some (k.bandwidth i i)))
      = .ok fun i => rows.getD i [] := finSeq_ok.mpr fun i => by
    have hi : (i : ℕ) < rows.length := hl ▸ i.2
    rw [List.getD_eq_getElem _ _ (by simpa using hi), List.getElem_map, List.getD_eq_getElem _ _ hi]
    rfl
  have hof : List.ofFn (fun i : Fin d => rows.getD i []) = rows := by
    subst hl
    refine List.ext_getElem (by simp) fun n h1 h2 => ?_
    simp
  have he : ¬ ((rows.map EdgeSpec.arr).all EdgeSpec.scalar = true ∧ (rows.map EdgeSpec.arr).length ≠ d) := by
    rw [List.length_map]
    exact fun h => h.2 hl
  have hcp : k.computePoints srt = .ok rows := by
    simp only [KDE.computePoints, parseEdges, hext, hds.2.1, edgeSpecs]
    rw [if_neg he, if_neg (by rw [List.length_map]; exact not_not.mpr hl)]
    rw [show ((some (0:ℝ)).getD (if (some (extremaList k.extrema)).isNone = true then 1 else 0)) = (some (0:ℝ)).getD 0
      from rfl]
    simp only [Option.map_some, hf, hof]
  rw [hcp]
  refine ⟨_, rfl, ?_⟩
  unfold KDE.shapePoints
  rw [hds.2.2]
  split_ifs with hsq
  · have := hs hsq
    match rows, hl with
    | [], hl => simp at hl; omega
    | [r], _ => rfl
    | _ :: _ :: _, hl => simp at hl; omega
  · rfl

/-- **C174**, limit for grids given by the user.  Take any `KDE` without boundaries whose kernel is not the box, a box between
`u` and `v` of positive probability, and a tolerance.  Then there is a width `δ` such that, if the same `KDE` is constructed
with arrays of evaluation points that run, in each dimension, from `u` to `v` in steps of at most `δ`, its `cdf` succeeds
and at every point `x` of the box it is within the tolerance of the probability of values below `x` among those in the
box. -/
theorem C174_grid {E : Ext} {a : KDEArgs d} {k : KDE d} (h : KDE.init E a = .ok k) (hd : 0 < d) (srt : List ℝ → List ℕ)
    (hr : a.reflect = .none) (hM : (Spec.kernelMatrix k.covariance k.bandwidth).PosDef) (hD : k.kernel.dist ≠ .box)
    (hsq : a.squeeze = true → d = 1) {F : (Fin d → ℝ) → ℝ} (hF : Spec.Reports E srt k F) {u v : Fin d → ℝ}
    (hm : 0 < ∫ y in Spec.box u v, F y) {τ : ℝ} (hτ : 0 < τ) :
    ∃ δ > 0, ∀ rows : List (List ℝ), rows.length = d → (∀ row ∈ rows, 2 ≤ row.length ∧ row.Pairwise (· < ·)) →
      Spec.lowNode rows = u → Spec.topNode rows = v →
      (∀ (i : Fin d) (j : ℕ), j + 1 < (rows.getD i []).length →
        (rows.getD i []).getD (j + 1) 0 - (rows.getD i []).getD j 0 ≤ δ) →
      ∃ (k' : KDE d) (G : (Fin d → ℝ) → ℝ), KDE.init E { a with points := .list (rows.map .arr) } = .ok k' ∧
        Spec.Reports E srt k' F ∧ Spec.ReportsCdf E srt k' G ∧
        ∀ x ∈ Set.Icc u v, |G x - (∫ y in Spec.box u x, F y) / ∫ y in Spec.box u v, F y| ≤ τ := by
  have hc : Continuous F := by
    obtain ⟨F', hF', _, _, hc⟩ := C132_regular h srt hd hr hM
    rw [reports_unique hF hF']
    exact hc hD
  obtain ⟨δ1, hδ1, hlim⟩ := C174_limit hd (hc.continuousOn (s := Set.Icc u v)) hm hτ
  obtain ⟨y, hy, hyp⟩ : ∃ y ∈ Spec.box u v, 0 < F y := by
    by_contra hcon
    push Not at hcon
    exact absurd (setIntegral_nonpos (measurableSet_box u v) hcon) (not_le.mpr hm)
  obtain ⟨δ2, hδ2, hnear⟩ := Metric.continuous_iff.mp hc y (F y) hyp
  refine ⟨min δ1 (δ2 / 2), by positivity, ?_⟩
  intro rows hl hrows hu hv hmesh
  have hk' := init_points h (.list (rows.map .arr))
  have hF' : Spec.Reports E srt { k with pointsSpec := .list (rows.map .arr) } F := by
    have h1 := reports_average hk' srt hd hr hM
    have h2 := reports_average h srt hd hr hM
    rwa [reports_unique hF h2]
  obtain ⟨pts, hp, hpr⟩ := points_rows hk' hd srt hl rfl hsq
  have hrr : ∀ i : Fin d, 2 ≤ (rows.getD i []).length ∧ (rows.getD i []).Pairwise (· < ·) := by
    intro i
    have hi : (i : ℕ) < rows.length := hl ▸ i.2
    rw [List.getD_eq_getElem _ _ hi]
    exact hrows _ (List.getElem_mem hi)
  have hex : ∀ i : Fin d, ∃ j, j + 1 < (rows.getD i []).length ∧ (rows.getD i []).getD j 0 < y i ∧
      y i ≤ (rows.getD i []).getD (j + 1) 0 := by
    intro i
    have h1 := (hy i).1
    have h2 := (hy i).2
    rw [← hu] at h1
    rw [← hv] at h2
    obtain ⟨j, hj, hj1⟩ := exists_cell (f := fun n => (rows.getD i []).getD n 0) (n := Spec.lastIdx rows i) h1 h2
    exact ⟨j, by unfold Spec.lastIdx at hj; omega, hj1⟩
  choose j hj hj1 hj2 using hex
  have hpos : 0 < F (Spec.node rows fun i => j i + 1) := by
    have hdist : dist (Spec.node rows fun i => j i + 1) y < δ2 := by
      refine lt_of_le_of_lt ((dist_pi_le_iff (by positivity)).mpr fun i => ?_) (half_lt_self hδ2)
      have h1 := hmesh i (j i) (hj i)
      have h2 := hj1 i
      have h3 := hj2 i
      have h4 := min_le_right δ1 (δ2 / 2)
      rw [Real.dist_eq, abs_le]
      constructor
      · show -(δ2 / 2) ≤ (rows.getD i []).getD (j i + 1) 0 - y i
        linarith
      · show (rows.getD i []).getD (j i + 1) 0 - y i ≤ δ2 / 2
        linarith
    have := hnear _ hdist
    rw [Real.dist_eq, abs_lt] at this
    linarith [this.1]
  obtain ⟨G0, hG0⟩ := C174_succeeds hk' hd srt hF' hp (by rw [hpr]; exact hl) (by rw [hpr]; exact hrows)
    (idx := fun i => j i + 1) (by rw [hpr]; exact hj) (by rw [hpr]; exact hpos)
  obtain ⟨G, hG, hval⟩ := hlim E _ _ srt pts _ _ hk' hF' hp (hG0 [] []) (by rw [hpr]; exact hu) (by rw [hpr]; exact hv)
    (by rw [hpr]; exact fun i j hj => (hmesh i j hj).trans (min_le_left _ _))
  exact ⟨_, G, hk', hF', hG, hval⟩

/-- Large boxes have nearly all of the probability. -/
lemma box_mass {F : (Fin d → ℝ) → ℝ} (hI : Integrable F) (hFn : ∀ x, 0 ≤ F x) (hone : ∫ y, F y = 1) {ε : ℝ} (hε : 0 < ε) :
    ∃ R : ℝ, ∀ u v : Fin d → ℝ, (∀ i, u i ≤ -R) → (∀ i, R ≤ v i) → 1 - ε < ∫ y in Spec.box u v, F y := by
  have hmono : Monotone fun n : ℕ => Spec.box (fun _ : Fin d => -(n : ℝ)) fun _ => (n : ℝ) := by
    intro m n hmn y hy i
    have : (m : ℝ) ≤ n := Nat.cast_le.mpr hmn
    exact ⟨by linarith [(hy i).1], by linarith [(hy i).2]⟩
  have hun : ⋃ n : ℕ, Spec.box (fun _ : Fin d => -(n : ℝ)) (fun _ => (n : ℝ)) = Set.univ := by
    refine Set.eq_univ_of_forall fun y => Set.mem_iUnion.mpr ?_
    obtain ⟨n, hn⟩ := exists_nat_gt ‖y‖
    refine ⟨n, fun i => ?_⟩
    have := (norm_le_pi_norm y i).trans_lt hn
    rw [Real.norm_eq_abs, abs_lt] at this
    exact ⟨this.1, this.2.le⟩
  have ht := tendsto_setIntegral_of_monotone (f := F) (μ := volume) (fun n : ℕ => measurableSet_box (d := d) _ _) hmono
    (by rw [hun]; exact hI.integrableOn)
  rw [hun, setIntegral_univ, hone] at ht
  obtain ⟨n, hn⟩ := (ht.eventually (lt_mem_nhds (by linarith : 1 - ε < 1))).exists
  refine ⟨n, fun u v hu hv => lt_of_lt_of_le hn ?_⟩
  refine setIntegral_mono_set hI.integrableOn (Filter.Eventually.of_forall fun y => hFn y) (LE.le.eventuallyLE ?_)
  exact fun y hy i => ⟨(hu i).trans_lt (hy i).1, (hy i).2.trans (hv i)⟩

/-- **C174**, limit: `cdf` is the cumulative distribution function.  For any `KDE` without boundaries whose kernel is not the
box and any tolerance `τ`: on every sufficiently large box, if the same `KDE` is constructed with arrays of evaluation points
that cover the box in sufficiently small steps, its `cdf` succeeds and at every point `x` of the box it is within `τ` of
the integral of the pdf over all `y ≤ x`. -/
theorem C174_cdf {E : Ext} {a : KDEArgs d} {k : KDE d} (h : KDE.init E a = .ok k) (hd : 0 < d) (srt : List ℝ → List ℕ)
    (hr : a.reflect = .none) (hM : (Spec.kernelMatrix k.covariance k.bandwidth).PosDef) (hD : k.kernel.dist ≠ .box)
    (hsq : a.squeeze = true → d = 1) {F : (Fin d → ℝ) → ℝ} (hF : Spec.Reports E srt k F) {τ : ℝ} (hτ : 0 < τ) :
    ∃ R : ℝ, ∀ u v : Fin d → ℝ, (∀ i, u i ≤ -R) → (∀ i, R ≤ v i) →
    ∃ δ > 0, ∀ rows : List (List ℝ), rows.length = d → (∀ row ∈ rows, 2 ≤ row.length ∧ row.Pairwise (· < ·)) →
      Spec.lowNode rows = u → Spec.topNode rows = v →
      (∀ (i : Fin d) (j : ℕ), j + 1 < (rows.getD i []).length →
        (rows.getD i []).getD (j + 1) 0 - (rows.getD i []).getD j 0 ≤ δ) →
      ∃ (k' : KDE d) (G : (Fin d → ℝ) → ℝ), KDE.init E { a with points := .list (rows.map .arr) } = .ok k' ∧
        Spec.Reports E srt k' F ∧ Spec.ReportsCdf E srt k' G ∧
        ∀ x ∈ Set.Icc u v, |G x - ∫ y in {y | ∀ i, y i ≤ x i}, F y| ≤ τ := by
  obtain ⟨hI, hFn⟩ := pdf_facts h srt hd hr hM hF
  have hone : ∫ y, F y = 1 := by
    obtain ⟨F', hF', _, h1⟩ := C07_normalised h srt hd hr hM
    rwa [reports_unique (fun pts => hF' [] pts) hF] at h1
  obtain ⟨R, hR⟩ := box_mass hI hFn hone (ε := min (τ / 2) (1 / 2)) (by positivity)
  refine ⟨R, fun u v hu hv => ?_⟩
  have hmass := hR u v hu hv
  have hm : 0 < ∫ y in Spec.box u v, F y := by linarith [min_le_right (τ / 2) (1 / 2)]
  obtain ⟨δ, hδ, hgrid⟩ := C174_grid h hd srt hr hM hD hsq hF hm (half_pos hτ)
  refine ⟨δ, hδ, fun rows hl hrows hlo hto hmesh => ?_⟩
  obtain ⟨k', G, hk', hF', hG, hval⟩ := hgrid rows hl hrows hlo hto hmesh
  refine ⟨k', G, hk', hF', hG, fun x hx =>
    (abs_sub_le _ ((∫ y in Spec.box u x, F y) / ∫ y in Spec.box u v, F y) _).trans ?_⟩
  linarith [hval x hx, cond_error hI hFn hone hm hx.2, min_le_left (τ / 2) (1 / 2)]

/-- The default evaluation points of the finite kernels run between the extrema, and the pdf integrates to one over them. -/
lemma finite_box {E : Ext} {a : KDEArgs d} {k : KDE d} (h : KDE.init E a = .ok k) (hd : 0 < d)
    (srt : List ℝ → List ℕ) (he : a.extrema = none) (hr : a.reflect = .none) (hD : k.kernel.dist.finite = true)
    (hM : (Spec.kernelMatrix k.covariance k.bandwidth).PosDef) (hpn : a.points = .none) (hsq : a.squeeze = true → d = 1)
    {F : (Fin d → ℝ) → ℝ} (hF : Spec.Reports E srt k F) {pts : Pts} (hp : (k.points srt).1 = .ok pts) :
    Spec.lowNode pts.toRows = (fun i : Fin d => (k.extrema i).1) ∧
      Spec.topNode pts.toRows = (fun i : Fin d => (k.extrema i).2) ∧
      ∫ y in Spec.box (Spec.lowNode pts.toRows) (Spec.topNode pts.toRows), F y = 1 := by
  have hone : ∫ y, F y = 1 := by
    obtain ⟨F', hF', _, h1⟩ := C07_normalised h srt hd hr hM
    rwa [reports_unique (fun pts => hF' [] pts) hF] at h1
  have hlow : Spec.lowNode pts.toRows = fun i : Fin d => (k.extrema i).1 := by
    funext i
    obtain ⟨l, hl, _, h0, _⟩ := C09_grid h srt he hr hD hM hpn hsq pts hp i
    show (pts.toRows.getD i []).getD 0 0 = _
    rw [List.getD_eq_getElem?_getD (l := pts.toRows), hl, Option.getD_some, List.getD_eq_getElem?_getD,
      ← List.head?_eq_getElem?, h0]
    rfl
  have htop : Spec.topNode pts.toRows = fun i : Fin d => (k.extrema i).2 := by
    funext i
    obtain ⟨l, hl, _, _, h1⟩ := C09_grid h srt he hr hD hM hpn hsq pts hp i
    show (pts.toRows.getD i []).getD ((pts.toRows.getD i []).length - 1) 0 = _
    rw [List.getD_eq_getElem?_getD (l := pts.toRows), hl, Option.getD_some, List.getD_eq_getElem?_getD,
      ← List.getLast?_eq_getElem?, h1]
    rfl
  have hzero : ∀ x : Fin d → ℝ, x ∉ Set.Icc (fun i => (k.extrema i).1) (fun i => (k.extrema i).2) → F x = 0 := by
    intro x hx
    obtain ⟨vals, hv, h0⟩ := C09_zero_outside h srt he hr hD hM hd [x] true
    have hx' : ∃ i, x i < (k.extrema i).1 ∨ (k.extrema i).2 < x i := by
      by_contra hcon
      push Not at hcon
      exact hx ⟨fun i => (hcon i).1, fun i => (hcon i).2⟩
    have h1 := h0 0 x rfl hx'
    have h2 := hF [x]
    rw [KDE.pdf, hv] at h2
    have h3 : vals = [F x] := by simpa using h2
    rw [h3] at h1
    simpa using h1
  have hm : ∫ y in Spec.box (Spec.lowNode pts.toRows) (Spec.topNode pts.toRows), F y = 1 := by
    have hae : (Set.pi Set.univ fun i => Set.Ioc (k.extrema i).1 (k.extrema i).2 : Set (Fin d → ℝ)) =ᵐ[volume]
        Set.Icc (fun i => (k.extrema i).1) (fun i => (k.extrema i).2) := Measure.univ_pi_Ioc_ae_eq_Icc
    rw [hlow, htop, box_eq, setIntegral_congr_set hae, setIntegral_eq_integral_of_forall_compl_eq_zero hzero, hone]
  exact ⟨hlow, htop, hm⟩

/-- **C174**, default evaluation points of the finite kernels.  They cover the support of the pdf, so at every point of the
grid the cdf differs from the integral of the pdf over all smaller values by at most `2 η V`, where `η` is the variation of the
pdf within a cell and `V` the volume of the grid. -/
theorem C174_finite {E : Ext} {a : KDEArgs d} {k : KDE d} (h : KDE.init E a = .ok k) (hd : 0 < d)
    (srt : List ℝ → List ℕ) (he : a.extrema = none) (hr : a.reflect = .none) (hD : k.kernel.dist.finite = true)
    (hM : (Spec.kernelMatrix k.covariance k.bandwidth).PosDef) (hpn : a.points = .none) (hsq : a.squeeze = true → d = 1)
    {F : (Fin d → ℝ) → ℝ} (hF : Spec.Reports E srt k F)
    {pts : Pts} (hp : (k.points srt).1 = .ok pts) (q : Pts) (out : List ℝ) (hq : (k.cdf E srt q).1 = .ok out)
    {η : ℝ} (hη : Spec.VariesBy pts.toRows F η) :
    ∃ G : (Fin d → ℝ) → ℝ, Spec.ReportsCdf E srt k G ∧
      ∀ idx : Fin d → ℕ, (∀ i : Fin d, idx i < (pts.toRows.getD i []).length) →
        |G (Spec.node pts.toRows idx) - ∫ y in {y | ∀ i, y i ≤ Spec.node pts.toRows idx i}, F y|
          ≤ 2 * (η * ∏ i : Fin d, ((k.extrema i).2 - (k.extrema i).1)) := by
  obtain ⟨hlow, htop, hm⟩ := finite_box h hd srt he hr hD hM hpn hsq hF hp
  obtain ⟨G, hG, hval⟩ := C174_probability h hd srt hr hM hF hp q out hq hη one_pos hm
  refine ⟨G, hG, fun idx hidx => (hval idx hidx).trans (le_of_eq ?_)⟩
  rw [hlow, htop]
  ring

/-! ### Concrete cases -/

/-- Concrete case of the hypotheses of `C174_exact`, `C174_succeeds`, `C174_integral` and `C174_probability`: one data point 0,
box kernel, evaluation points `[0, 1]`, where the pdf is constant.  The cdf is exactly the conditional probability. -/
example (srt : List ℝ → List ℕ) : ∃ (E : Ext) (a : KDEArgs 1) (k : KDE 1) (F : (Fin 1 → ℝ) → ℝ) (pts q : Pts) (out : List ℝ)
    (m : ℝ), KDE.init E a = .ok k ∧ a.reflect = .none ∧ (Spec.kernelMatrix k.covariance k.bandwidth).PosDef ∧
      Spec.Reports E srt k F ∧ (k.points srt).1 = .ok pts ∧ (k.cdf E srt q).1 = .ok out ∧
      Spec.VariesBy pts.toRows F 0 ∧ 0 < F (Spec.node pts.toRows fun _ => 0) ∧ 0 < m ∧
      ∫ y in Spec.box (Spec.lowNode pts.toRows) (Spec.topNode pts.toRows), F y = m := by
  obtain ⟨k, hk⟩ := cdfArgs_init ⟨fun A => A, id⟩
  obtain ⟨h1, h2, h3⟩ := cdfArgs_matrix hk
  have hM : (Spec.kernelMatrix k.covariance k.bandwidth).PosDef := by rw [h3]; exact Matrix.PosDef.one
  have hF : Spec.Reports ⟨fun A => A, id⟩ srt k fun x => Spec.kernelSum .box 1 (Spec.weighted cdfArgs.dataset none) x
      / (Real.sqrt (1 : Matrix (Fin 1) (Fin 1) ℝ).det * Dist.box.norm 1)
      / ((Spec.weighted cdfArgs.dataset none).map Prod.snd).sum := fun pts => by
    have := (C02_kde_density hk srt one_pos rfl hM pts).2
    rwa [h1, h2, h3] at this
  set F : (Fin 1 → ℝ) → ℝ := fun x => Spec.kernelSum .box 1 (Spec.weighted cdfArgs.dataset none) x
      / (Real.sqrt (1 : Matrix (Fin 1) (Fin 1) ℝ).det * Dist.box.norm 1)
      / ((Spec.weighted cdfArgs.dataset none).map Prod.snd).sum with hFdef
  have hv : ∀ x : Fin 1 → ℝ, 0 ≤ x 0 → x 0 ≤ 1 → F x = 1 / Dist.box.norm 1 := by
    intro x hx0 hx1
    have e0 : Spec.kernelSum .box 1 (Spec.weighted cdfArgs.dataset none) x = 1 := by
      simp only [Spec.kernelSum, Spec.weighted, cdfArgs, Spec.shape, Spec.dist2]
      simp [dotProduct]
      nlinarith
    simp only [hFdef, e0]
    simp [Spec.weighted, cdfArgs]
  have hpos : 0 < 1 / Dist.box.norm 1 := one_div_pos.mpr (Dist.norm_pos .box 1 one_pos)
  refine ⟨_, _, k, F, .rows [[0, 1]], _, _, 1 / Dist.box.norm 1, hk, rfl, hM, hF, cdfArgs_points hk srt,
    cdfArgs_cdf hk srt [], ?_, ?_, hpos, ?_⟩
  · intro j hj y z hy hz
    have hj0 : j 0 = 0 := by
      have := hj 0
      simp [Pts.toRows] at this
      omega
    have hy0 := hy 0
    have hz0 := hz 0
    simp [Spec.node, Pts.toRows, hj0] at hy0 hz0
    rw [hv y hy0.1 hy0.2, hv z hz0.1 hz0.2]
    simp
  · rw [hv _ (by simp [Spec.node, Pts.toRows]) (by simp [Spec.node, Pts.toRows])]
    exact hpos
  · have e : ∫ y in Spec.box (Spec.lowNode [[(0:ℝ), 1]]) (Spec.topNode (d := 1) [[(0:ℝ), 1]]), F y
        = ∫ _y in Spec.box (Spec.lowNode [[(0:ℝ), 1]]) (Spec.topNode (d := 1) [[(0:ℝ), 1]]), 1 / Dist.box.norm 1 := by
      refine setIntegral_congr_fun (measurableSet_box _ _) fun y hy => ?_
      have := hy 0
      simp [Spec.lowNode, Spec.topNode, Spec.node, Spec.lastIdx] at this
      exact hv y this.1.le this.2
    show ∫ y in Spec.box (Spec.lowNode [[(0:ℝ), 1]]) (Spec.topNode (d := 1) [[(0:ℝ), 1]]), F y = _
    rw [e, setIntegral_const, volume_box (by intro i; fin_cases i; simp [Spec.lowNode, Spec.topNode, Spec.node, Spec.lastIdx])]
    simp [Spec.lowNode, Spec.topNode, Spec.node, Spec.lastIdx]

/-- Concrete case of the hypotheses of `C174_limit`, `C174_grid` and `C174_cdf`: data 0 and 1, gaussian kernel. -/
example (srt : List ℝ → List ℕ) : ∃ (E : Ext) (a : KDEArgs 1) (k : KDE 1) (F : (Fin 1 → ℝ) → ℝ) (u v : Fin 1 → ℝ),
    KDE.init E a = .ok k ∧ a.reflect = .none ∧ (Spec.kernelMatrix k.covariance k.bandwidth).PosDef ∧
      k.kernel.dist ≠ .box ∧ a.squeeze = false ∧ Spec.Reports E srt k F ∧ 0 < ∫ y in Spec.box u v, F y := by
  obtain ⟨k, hk, hF, hM, hD⟩ := iid_reports ⟨fun A => A, id⟩ srt one_pos .gaussian (n := 2) (by norm_num)
    (fun i _ => (i : ℝ)) (some (1 : Matrix (Fin 1) (Fin 1) ℝ)) (by rintro c ⟨⟩; exact Matrix.PosDef.one) (.val (.num 1)) 1
    one_pos rfl Matrix.PosDef.one
  obtain ⟨hI, hFn⟩ := pdf_facts hk srt one_pos rfl hM hF
  obtain ⟨F', hF', _, hone⟩ := C07_normalised hk srt one_pos rfl hM
  rw [reports_unique (fun pts => hF' [] pts) hF] at hone
  obtain ⟨R, hR⟩ := box_mass hI hFn hone (ε := 1) one_pos
  have := hR (fun _ => -R) (fun _ => R) (fun _ => le_rfl) fun _ => le_rfl
  exact ⟨_, _, k, _, _, _, hk, rfl, hM, by rw [hD]; simp, rfl, hF, by linarith⟩

end Kalepy
