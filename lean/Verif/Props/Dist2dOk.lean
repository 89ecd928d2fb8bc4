import Verif.Props.Dist2d
import Verif.Props.Levels
import Verif.Props.ResampleReflect
import Verif.Props.Covariance

/-!
# C95 (refutation), C96: when `dist2d` succeeds, C97: which bins `dist2d` hides
-/

namespace Kalepy

open Spec

variable {d : ℕ}

/-! ### the histogram -/

lemma weightWhere_nonneg {α : Type*} (P : α → Prop) {data : List α} {weights : Option (List ℝ)}
    (hw : ValidWeights data.length weights) : 0 ≤ weightWhere P data weights := by
  unfold weightWhere
  refine List.sum_nonneg fun x hx => ?_
  obtain ⟨p, hp, rfl⟩ := List.mem_map.mp hx
  split
  · have hp2 := (List.of_mem_zip hp).2
    cases weights with
    | none =>
      simp only [Option.getD_none, List.mem_map] at hp2
      obtain ⟨_, _, e⟩ := hp2
      rw [← e]
      norm_num
    | some w => exact hw.2.1 _ hp2
  · exact le_rfl

/-- Facts about a histogram of data with valid weights. -/
lemma histogram2d_facts {data : List (Fin 2 → ℝ)} {ex ey : List ℝ} {weights : Option (List ℝ)}
    (hw : ValidWeights data.length weights) {hh : NDArr 2 ℝ} (h : histogram2d data ex ey weights = .ok hh) :
    (∀ idx, ValidIdx hh.shape idx → 0 ≤ hh.get idx) ∧ 0 < hh.sum := by
  obtain ⟨hx, hy, hxl, hyl, ht, hs, hg⟩ := histogram2d_ok h
  have hx' : ex.Pairwise (· ≤ ·) := hx.imp le_of_lt
  have hy' : ey.Pairwise (· ≤ ·) := hy.imp le_of_lt
  have hval : ∀ idx, ValidIdx hh.shape idx → idx 0 < ex.length - 1 ∧ idx 1 < ey.length - 1 ∧
      hh.get idx = cellDensity data weights ex ey (idx 0) (idx 1) := by
    intro idx hv
    have h0 : idx 0 < ex.length - 1 := by simpa [hs] using hv 0
    have h1 : idx 1 < ey.length - 1 := by simpa [hs] using hv 1
    refine ⟨h0, h1, ?_⟩
    rw [← hg _ _ h0 h1]
    congr 1
    funext i
    fin_cases i <;> rfl
  have hnn : ∀ idx, ValidIdx hh.shape idx → 0 ≤ hh.get idx := by
    intro idx hv
    obtain ⟨h0, h1, e⟩ := hval idx hv
    rw [e]
    exact div_nonneg (div_nonneg (weightWhere_nonneg _ hw) (cellArea_pos hx hy h0 h1).le) (weightWhere_nonneg _ hw)
  refine ⟨hnn, ?_⟩
  unfold NDArr.sum
  refine lt_of_le_of_ne (Finset.sum_nonneg fun idx hi => hnn idx (validIdx_mem.mp hi)) fun h0 => ?_
  have hz := (Finset.sum_eq_zero_iff_of_nonneg fun idx hi => hnn idx (validIdx_mem.mp hi)).mp h0.symm
  apply ht
  rw [← sum_cells hx' hy' hxl hyl data weights]
  refine Finset.sum_eq_zero fun idx hi => ?_
  rw [← hs] at hi
  have h1 := hz idx hi
  obtain ⟨a0, a1, e⟩ := hval idx (validIdx_mem.mp hi)
  rw [e] at h1
  unfold cellDensity at h1
  rw [div_eq_zero_iff, div_eq_zero_iff] at h1
  rcases h1 with (h1 | h1) | h1
  · exact h1
  · exact absurd h1 (cellArea_pos hx hy a0 a1).ne'
  · exact absurd h1 ht

/-! ### edges from boundaries -/

/-- Edges increase and contain the range between the extrema. -/
lemma edges_cover_ext {srt : List ℝ → List ℕ} {data : List (Fin 2 → ℝ)} {edges : EdgeArg}
    (hedges : edges = .none ∨ ∃ n : ℤ, 0 < n ∧ edges = .int n) {extrema : Option (List ExtElem)} {ext : Fin 2 → ℝ × ℝ}
    (hext : parseExtremaOf data extrema = .ok ext) (hlt : ∀ i, (ext i).1 < (ext i).2) {E : List (List ℝ)}
    (h : parseEdges srt data edges extrema none 5 1000 none 1 none = .ok E) (i : Fin 2) :
    (E.getD i []).Pairwise (· < ·) ∧ 2 ≤ (E.getD i []).length ∧
      ∀ x, (ext i).1 ≤ x → x ≤ (ext i).2 → InRangeOf (E.getD i []) x := by
  obtain ⟨hl, ext', hext', hE⟩ := C45_edges srt data edges extrema none 5 1000 none 1 none (by norm_num) E h
  rw [hext] at hext'
  cases hext'
  obtain ⟨pad, hpad, hpad0⟩ : ∃ pad : ℝ, (none : Option ℝ).getD (if extrema = none then 1 else 0) = pad ∧ 0 ≤ pad :=
    ⟨_, rfl, by simp only [Option.getD_none]; split <;> norm_num⟩
  rw [hpad] at hE
  have key : ∃ (l : List ℝ) (n : ℕ) (w : ℝ), E[(i : ℕ)]? = some l ∧ 0 < n ∧ 0 < w ∧
      EquallySpaced l n ((ext i).1 - pad * w) ((ext i).2 + pad * w) := by
    obtain rfl | ⟨n, hn, rfl⟩ := hedges
    · obtain ⟨l, e1, n, w, _, e3, e4, e5⟩ := hE i .auto rfl
      have hn : 0 < n := lt_of_lt_of_le (by norm_num) (e3 (by norm_num))
      exact ⟨l, n.toNat, w, e1, by omega, e4, e5 hn⟩
    · obtain ⟨l, e1, _, w, e4, e5⟩ := hE i (.int n) rfl
      exact ⟨l, n.toNat, w, e1, by omega, e4, e5 hn⟩
  obtain ⟨l, n, w, e1, e2, e3, e4⟩ := key
  obtain ⟨c1, a, b, c2, c3, c4, c5, c6⟩ := C45_covers e2 e3 hpad0 (Or.inl (hlt i)) e4
  have eg : E.getD i [] = l := by rw [List.getD_eq_getElem?_getD, e1]; rfl
  rw [eg]
  refine ⟨c1, by rw [e4.1]; omega, fun x h1 h2 => ⟨a, b, by rw [List.head?_eq_getElem?]; exact c2, ?_, ?_⟩⟩
  · rw [List.getLast?_eq_getElem?, e4.1]; exact c3
  · exact c6 _ h1 h2

/-- Two complete pairs of boundaries, not completed from the data. -/
lemma raw_eq {srt : List ℝ → List ℕ} {data : List (Fin 2 → ℝ)} (hne : data ≠ []) {edges : EdgeArg} {rows : List ReflRow} (hl : rows.length ≠ 2)
    {params : List ℤ} {a b c e : ℝ} (hsel : listSeq (pyIndex rows) params = .ok [some (some a, some b), some (some c, some e)]) :
    parseEdgesParams srt data edges (some rows) params =
      parseEdges srt data edges (some [.seq [some a, some b], .seq [some c, some e]]) none 5 1000 none 1 none ∧
    parseExtremaOf data (some [.seq [some a, some b], .seq [some c, some e]]) = .ok ![(a, b), (c, e)] := by
  have hext : parseExtremaOf data (some [.seq [some a, some b], .seq [some c, some e]]) = .ok ![(a, b), (c, e)] := by
    obtain ⟨dat, hdat⟩ : ∃ dat, dataExtrema data = .ok dat := by
      cases data with
      | nil => exact absurd rfl hne
      | cons x l => exact ⟨_, rfl⟩
    simp only [parseExtremaOf, hdat, parseExtrema, parseExtremaList]
    rw [if_neg (by simp [ExtElem.scalar]), dif_pos (by rfl), if_neg (by simp [ExtElem.scalar]), if_neg (by simp),
      if_pos (by simp [ExtElem.pair])]
    congr 1
    funext i
    fin_cases i <;> simp [ExtElem.pair, fillExtrema]
  refine ⟨?_, hext⟩
  unfold parseEdgesParams parseEdges
  simp only [hext, if_neg hl, hsel]
  cases hsp : edgeSpecs 2 edges with
  | error e => rfl
  | ok specs =>
    simp only [Option.getD_none, Option.isNone_some, Bool.false_eq_true, if_false, Option.map_none]
    have : ∀ i : Fin 2, rawEdges1d srt (specs.getD i .auto) (dataRow data i)
        (([some (some a, some b), some (some c, some e)] : List ReflRow).getD i none) =
        getEdges1d srt (specs.getD i .auto) (dataRow data i) ((![(a, b), (c, e)] : Fin 2 → ℝ × ℝ) i) none 2 5 1000 0 1 none := by
      intro i
      have e1 : ([some (some a, some b), some (some c, some e)] : List ReflRow).getD i none =
          some (some ((![(a, b), (c, e)] : Fin 2 → ℝ × ℝ) i).1, some ((![(a, b), (c, e)] : Fin 2 → ℝ × ℝ) i).2) := by
        fin_cases i <;> rfl
      rw [e1]
      generalize specs.getD i EdgeSpec.auto = sp
      cases sp <;> rfl
    simp only [this]
    cases finSeq fun i : Fin 2 => getEdges1d srt (specs.getD i .auto) (dataRow data i) ((![(a, b), (c, e)] : Fin 2 → ℝ × ℝ) i)
      none 2 5 1000 0 1 none <;> rfl

/-! ### success of `dist2d` -/

/-- One coordinate: edges between increasing extrema. -/
lemma getEdges1d_success {srt : List ℝ → List ℕ} (hs : ∀ l, IsArgsort (srt l) l) {row : List ℝ} (hne : row ≠ []) {a b : ℝ} (hab : a < b)
    {spec : EdgeSpec} (hspec : spec = .auto ∨ ∃ n : ℤ, 0 < n ∧ spec = .int n) :
    ∃ l, getEdges1d srt spec row (a, b) none 2 5 1000 0 1 none = .ok l := by
  set data : List (Fin 2 → ℝ) := row.map fun x => ![x, x]
  have hdata : data ≠ [] := by simpa [data] using hne
  obtain ⟨h1, h2⟩ := raw_eq (srt := srt) (rows := [some (some a, some b)]) (params := [0, 0]) (edges := .none) hdata (by simp)
    (show listSeq (pyIndex [some (some a, some b)]) [0, 0] = .ok [some (some a, some b), some (some a, some b)] from rfl)
  have hE : ∀ edges : EdgeArg, (edges = .none ∨ ∃ n : ℤ, 0 ≤ n ∧ edges = .int n) →
      ∃ E, parseEdges srt data edges (some [.seq [some a, some b], .seq [some a, some b]]) none 5 1000 none 1 none = .ok E :=
    fun edges he => C45_succeeds_extrema srt hs data hdata edges he _ none trivial 5 1000 (by norm_num) (by norm_num) none 1 none _ h2 (by
      intro i
      fin_cases i <;> exact hab)
  have hrow : dataRow data 0 = row := by simp [dataRow, data, Function.comp_def]
  have main : ∀ edges : EdgeArg, (edges = .none ∨ ∃ n : ℤ, 0 ≤ n ∧ edges = .int n) → edgeSpecs 2 edges = .ok (List.replicate 2 spec) →
      ∃ l, getEdges1d srt spec row (a, b) none 2 5 1000 0 1 none = .ok l := by
    intro edges he hsp
    obtain ⟨E, hE⟩ := hE edges he
    unfold parseEdges at hE
    simp only [h2, hsp] at hE
    split at hE
    · cases hE
    rename_i f hf
    have := finSeq_ok.mp hf 0
    rw [hrow] at this
    exact ⟨f 0, this⟩
  rcases hspec with rfl | ⟨n, hn, rfl⟩
  · exact main .none (Or.inl rfl) rfl
  · exact main (.int n) (Or.inr ⟨n, hn.le, rfl⟩) rfl

lemma npMedian_success {l : List ℝ} (hne : l ≠ []) : ∃ m, npMedian l = .ok m := by
  unfold npMedian
  rw [if_neg hne]
  exact ⟨_, rfl⟩

lemma medianLines_success {srt : List ℝ → List ℕ} (hs : ∀ l, IsArgsort (srt l) l) {data : List (Fin 2 → ℝ)} (hne : data ≠ [])
    {weights : Option (List ℝ)} (hw : ValidWeights data.length weights) : ∃ r, medianLines srt data weights = .ok r := by
  have key : ∀ i : Fin 2, ∃ v, dataMedian srt (dataRow data i) weights = .ok v := by
    intro i
    have hr : dataRow data i ≠ [] := by simpa [dataRow] using hne
    cases weights with
    | none => exact npMedian_success hr
    | some w =>
      have hq := quantiles_eq (hs (dataRow data i)) (percs := [1 / 2]) (ws := w) (by simpa [dataRow] using hw.1) hr hw.2.2.ne' (by
        intro p hp
        simp only [List.mem_singleton] at hp
        subst hp
        norm_num)
      unfold dataMedian
      simp only [hq]
      exact ⟨_, rfl⟩
  obtain ⟨v, hv⟩ := key 0
  obtain ⟨h, hh⟩ := key 1
  exact ⟨(v, h), by simp only [medianLines, hv, hh]⟩

/-- The arguments, apart from data and boundaries: automatic edges or a number of bins, quantiles, number of points. -/
structure Spec.PlainArgs (a : Dist2dArgs) : Prop where
  edges : a.edges = .none ∨ ∃ n : ℤ, 0 < n ∧ a.edges = .int n
  scatter : ∀ x, a.scatter = .num x → 1 ≤ x
  quantiles : a.quantiles ≠ some []
  sigmas : a.sigmas ≠ some []

lemma defaultQuantiles_ne {q s : Option (List ℝ)} (hq : q ≠ some []) (hs : s ≠ some []) : (defaultQuantiles q s).1 ≠ [] := by
  unfold defaultQuantiles
  cases q with
  | none =>
    cases s with
    | none => simp [defSigmas]
    | some s =>
      have : s ≠ [] := fun h => hs (by rw [h])
      simpa using this
  | some q =>
    have : q ≠ [] := fun h => hq (by rw [h])
    cases s <;> simpa using this

/-- Success, given the edges. -/
lemma dist2dDraw_success {E : Ext} {srt : List ℝ → List ℕ} (hs : ∀ l, IsArgsort (srt l) l) {sel : ℕ → ℕ → List ℕ} (hsel : IsChoice sel)
    {k : KDE d} {data : List (Fin 2 → ℝ)} (hne : data ≠ []) {weights : Option (List ℝ)} (hw : ValidWeights data.length weights)
    {a : Dist2dArgs} (ha : (∀ x, a.scatter = .num x → 1 ≤ x) ∧ a.quantiles ≠ some [] ∧ a.sigmas ≠ some []) {rows : List (List ℝ)}
    (hrows : parseEdgesParams srt data a.edges k.reflect a.params = .ok rows)
    (h0 : (rows.getD 0 []).Pairwise (· < ·) ∧ 2 ≤ (rows.getD 0 []).length ∧ ∀ p ∈ data, InRangeOf (rows.getD 0 []) (p 0))
    (h1 : (rows.getD 1 []).Pairwise (· < ·) ∧ 2 ≤ (rows.getD 1 []).length ∧ ∀ p ∈ data, InRangeOf (rows.getD 1 []) (p 1))
    (hc : a.contour = true → ∃ C, kdeContour E srt k a.params (defaultQuantiles a.quantiles a.sigmas).1 a.pad = .ok C) :
    ∃ out, dist2dDraw E srt sel k data weights a = .ok out := by
  obtain ⟨sc, hsc⟩ : ∃ sc, scatterPoints data a.scatter sel = .ok sc := by
    obtain ⟨c1, c2, c3, _, c5⟩ := C71_scatter data sel hsel
    cases hsca : a.scatter with
    | yes => exact ⟨_, c3⟩
    | no => exact ⟨_, c1⟩
    | none => exact ⟨_, c2⟩
    | num x =>
      obtain ⟨l, h, _⟩ := c5 x (ha.1 x hsca)
      exact ⟨_, h⟩
  have htot := weightWhere_all (P := fun p : Fin 2 → ℝ => InRangeOf (rows.getD 0 []) (p 0) ∧ InRangeOf (rows.getD 1 []) (p 1))
    hw.length_eq (fun p hp => ⟨h0.2.2 p hp, h1.2.2 p hp⟩)
  obtain ⟨hh, hhist⟩ := histogram2d_success hw.length_eq h0.1 h1.1 h0.2.1 h1.2.1 (by
    have e := htot.trans_ne (total_pos hne hw).ne'
    exact e)
  obtain ⟨hnn, hpos⟩ := histogram2d_facts hw hhist
  have hdf := C55_mass_partial hh hnn hpos srt hs a.quantiles a.sigmas
  obtain ⟨levels, qs, sg, f, hl, _, hlen, _, _, _, _⟩ := hdf
  have hqs : qs = (defaultQuantiles a.quantiles a.sigmas).1 := by
    unfold dfmLevels at hl
    simp only at hl
    split at hl
    · cases hl
    · cases hl; rfl
  obtain ⟨mask, hmask⟩ : ∃ mask, maskLevel levels a.maskBelow = .ok mask := by
    have hne' : levels ≠ [] := by
      rw [← List.length_pos_iff, hlen, hqs, List.length_pos_iff]
      exact defaultQuantiles_ne ha.2.1 ha.2.2
    cases a.maskBelow with
    | off => exact ⟨_, rfl⟩
    | num x => exact ⟨_, rfl⟩
    | auto =>
      cases levels with
      | nil => exact absurd rfl hne'
      | cons x l => exact ⟨_, rfl⟩
  obtain ⟨lines, hlines⟩ : ∃ o, optional a.median (medianLines srt data weights) = .ok o := by
    obtain ⟨r, hr⟩ := medianLines_success hs hne hw
    unfold optional
    rw [hr]
    split <;> exact ⟨_, rfl⟩
  obtain ⟨cont, hcont⟩ : ∃ o, optional a.contour (kdeContour E srt k a.params qs a.pad) = .ok o := by
    unfold optional
    split
    · rename_i hb
      obtain ⟨C, hC⟩ := hc hb
      rw [hqs, hC]
      exact ⟨_, rfl⟩
    · exact ⟨_, rfl⟩
  exact ⟨_, by simp only [dist2dDraw, hsc, hrows, hhist, hl, hmask, hlines, hcont]; rfl⟩

/-! ### C96 -/

/-- The data respect the boundaries of the parameters. -/
def Spec.Respects (data : List (Fin d → ℝ)) (reflect : Option (List ReflRow)) : Prop :=
  ∀ rows, reflect = some rows → ∀ (i : Fin d) (lo hi : Option ℝ), rows[(i : ℕ)]? = some (some (lo, hi)) →
    ∀ x ∈ data, (∀ v, lo = some v → v ≤ x i) ∧ (∀ v, hi = some v → x i ≤ v)

/-- Parameter `i` takes several values. -/
def Spec.Varies (data : List (Fin d → ℝ)) (i : Fin d) : Prop := ∃ x ∈ data, ∃ y ∈ data, x i ≠ y i

/-- The boundaries for which edges are found: none; both boundaries of both parameters; or, for two parameters, not only `None`. -/
def Spec.BoundariesOk (k : KDE d) (i j : Fin d) : Prop :=
  k.reflect = none ∨
  (2 < d ∧ ∃ rows a b c e, k.reflect = some rows ∧ rows[(i : ℕ)]? = some (some (some a, some b)) ∧
    rows[(j : ℕ)]? = some (some (some c, some e))) ∨
  (d = 2 ∧ ∃ rows p, k.reflect = some rows ∧ some p ∈ rows)

/-- **C96** as claimed: `dist2d` draws every KDE, whatever boundaries it has been given, if both parameters vary and
the data respect the boundaries. -/
def C96_Claim : Prop :=
  ∀ (d : ℕ) (E : Ext) (srt : List ℝ → List ℕ) (sel : ℕ → ℕ → List ℕ) (args : KDEArgs d) (k : KDE d) (a : Dist2dArgs) (p q : ℤ) (i j : Fin d),
    (∀ l, IsArgsort (srt l) l) → IsChoice sel → KDE.init E args = .ok k → 2 ≤ d → a.params = [p, q] → Names p i → Names q j → i ≠ j →
    PlainArgs a → a.contour = false → Varies k.dataset i → Varies k.dataset j → Respects k.dataset k.reflect →
    ∃ out, dist2d E srt sel k a = .ok out

lemma plotRows_names {data : List (Fin d → ℝ)} {p q : ℤ} {i j : Fin d} (hd : 2 < d) (hp : Names p i) (hq : Names q j) :
    plotRows data [p, q] = .ok (data.map fun x => ![x i, x j]) := by
  unfold plotRows
  rw [dif_neg (by omega), if_neg (by omega), if_neg (by simp),
    listSeq_names (.cons hp (.cons hq .nil) : List.Forall₂ Names [p, q] [i, j])]

lemma plotRows_two {data : List (Fin 2 → ℝ)} {params : List ℤ} : plotRows data params = .ok data := by
  unfold plotRows
  rw [dif_pos rfl]
  simp

lemma pyIndex_names {α : Type*} {l : List α} (hl : l.length = d) {p : ℤ} {i : Fin d} (h : Names p i) {x : α} (hx : l[(i : ℕ)]? = some x) :
    pyIndex l p = .ok x := by
  have hi := i.2
  unfold pyIndex
  rcases h with rfl | rfl
  · simp [hx]
  · rw [if_neg (by omega), if_pos (by omega)]
    have : ((l.length : ℤ) + ((i : ℤ) - d)).toNat = i := by omega
    rw [this, hx]

lemma validWeights_stored {E : Ext} {args : KDEArgs d} {k : KDE d} (h : KDE.init E args = .ok k) {n : ℕ} (hn : n = k.dataset.length) :
    ValidWeights n k.weights := by
  cases hw : k.weights with
  | none => trivial
  | some w => rw [hn]; exact stored_weights h hw

lemma dataset_ne {E : Ext} {args : KDEArgs d} {k : KDE d} (h : KDE.init E args = .ok k) : k.dataset ≠ [] := by
  obtain ⟨_, _, _, _, _, _, _, _, _, hne, _, _, _, _, _, _, _, _, he⟩ := init_inv h
  rw [he]
  exact hne

lemma extrema_varies {data : List (Fin 2 → ℝ)} {i : Fin 2} (hv : Varies data i) {lo hi mn mx : ℝ}
    (he : IsExtrema (data.map (· i)) mn mx) (h1 : lo ≤ mn) (h2 : mx ≤ hi) : lo < hi := by
  obtain ⟨x, hx, y, hy, hxy⟩ := hv
  have a1 := he.2.2 _ (List.mem_map_of_mem hx)
  have a2 := he.2.2 _ (List.mem_map_of_mem hy)
  rcases lt_or_gt_of_ne hxy with h | h <;> linarith [a1.1, a1.2, a2.1, a2.2]

/-- **C96**, proved part: it holds without boundaries, for complete pairs of boundaries, and for two parameters unless all
boundaries are `None` (with contours, if these can be drawn). -/
theorem C96_partial (E : Ext) (srt : List ℝ → List ℕ) (hs : ∀ l, IsArgsort (srt l) l) (sel : ℕ → ℕ → List ℕ) (hsel : IsChoice sel)
    (args : KDEArgs d) (k : KDE d) (hk : KDE.init E args = .ok k) (a : Dist2dArgs) (ha : PlainArgs a) (p q : ℤ) (i j : Fin d)
    (hd : 2 ≤ d) (hpar : a.params = [p, q]) (hp : Names p i) (hq : Names q j) (hij : i ≠ j)
    (hvi : Varies k.dataset i) (hvj : Varies k.dataset j) (hres : Respects k.dataset k.reflect) (hb : BoundariesOk k i j)
    (hc : a.contour = true → ∃ C, kdeContour E srt k a.params (defaultQuantiles a.quantiles a.sigmas).1 a.pad = .ok C) :
    ∃ out, dist2d E srt sel k a = .ok out := by
  have hne := dataset_ne hk
  have hrefl := C20_result k.dataset hne (Reflect.ofChecked k.reflect)
  have hedges' := ha.edges.imp id fun ⟨n, hn, e⟩ => (⟨n, hn.le, e⟩ : ∃ n : ℤ, 0 ≤ n ∧ a.edges = EdgeArg.int n)
  -- the data shown
  obtain ⟨data, hplot, hlen, hvar, hsub⟩ : ∃ data, plotRows k.dataset a.params = .ok data ∧ data.length = k.dataset.length ∧
      (∀ l, Varies data l) ∧ ((2 < d → data = k.dataset.map fun x => ![x i, x j]) ∧
        ∀ h : d = 2, data = k.dataset.map fun x l => x (Fin.cast h.symm l)) := by
    rcases hd.lt_or_eq with hd' | hd'
    · refine ⟨_, by rw [hpar]; exact plotRows_names hd' hp hq, by simp, ?_, fun _ => rfl, fun h => by omega⟩
      obtain ⟨x, hx, y, hy, hxy⟩ := hvi
      obtain ⟨x', hx', y', hy', hxy'⟩ := hvj
      intro l
      fin_cases l
      · exact ⟨_, List.mem_map_of_mem hx, _, List.mem_map_of_mem hy, hxy⟩
      · exact ⟨_, List.mem_map_of_mem hx', _, List.mem_map_of_mem hy', hxy'⟩
    · subst hd'
      refine ⟨k.dataset, plotRows_two, rfl, ?_, fun h => by omega, fun _ => by simp⟩
      have h2 : ∀ l : Fin 2, l = i ∨ l = j := by omega
      intro l
      rcases h2 l with rfl | rfl
      · exact hvi
      · exact hvj
  have hdne : data ≠ [] := by
    rw [← List.length_pos_iff, hlen, List.length_pos_iff]
    exact hne
  have hw : ValidWeights data.length k.weights := validWeights_stored hk hlen
  unfold dist2d
  rw [hplot]
  -- edges
  have key : ∃ rows, parseEdgesParams srt data a.edges k.reflect a.params = .ok rows ∧
      ∀ l : Fin 2, (rows.getD l []).Pairwise (· < ·) ∧ 2 ≤ (rows.getD l []).length ∧ ∀ p ∈ data, InRangeOf (rows.getD l []) (p l) := by
    rcases hb with hb | ⟨hd', rows, b1, b2, b3, b4, hr, hi, hj⟩ | ⟨rfl, rows, pr, hr, hmem⟩
    · rw [hb]
      obtain ⟨rows, hrows⟩ := C45_succeeds srt hs data hdne a.edges hedges' none trivial 5 1000 (by norm_num) (by norm_num) none 1 none hvar
      exact ⟨rows, hrows, fun l => edges_cover hdne ha.edges hrows l⟩
    · obtain ⟨hl, hlt⟩ := hrefl rows (by rw [← hr]; exact checkReflect_stored hk)
      have h12 := hlt b1 b2 (List.mem_of_getElem? hi)
      have h34 := hlt b3 b4 (List.mem_of_getElem? hj)
      have hpi : listSeq (pyIndex rows) a.params = .ok [some (some b1, some b2), some (some b3, some b4)] := by
        rw [hpar]
        simp only [listSeq, pyIndex_names hl hp hi, pyIndex_names hl hq hj]
      obtain ⟨e1, e2⟩ := raw_eq (srt := srt) (edges := a.edges) hdne (by omega) hpi
      have hlt2 : ∀ l : Fin 2, ((![(b1, b2), (b3, b4)] : Fin 2 → ℝ × ℝ) l).1 < ((![(b1, b2), (b3, b4)] : Fin 2 → ℝ × ℝ) l).2 := by
        intro l
        fin_cases l
        · exact h12
        · exact h34
      obtain ⟨R, hR⟩ := C45_succeeds_extrema srt hs data hdne a.edges hedges' _ none trivial 5 1000 (by norm_num) (by norm_num) none 1 none
        _ e2 hlt2
      refine ⟨R, by rw [hr, e1, hR], fun l => ?_⟩
      obtain ⟨c1, c2, c3⟩ := edges_cover_ext ha.edges e2 hlt2 hR l
      refine ⟨c1, c2, fun x hx => ?_⟩
      rw [hsub.1 hd'] at hx
      obtain ⟨y, hy, rfl⟩ := List.mem_map.mp hx
      have r1 := hres rows hr i _ _ hi y hy
      have r2 := hres rows hr j _ _ hj y hy
      fin_cases l
      · exact c3 _ (r1.1 _ rfl) (r1.2 _ rfl)
      · exact c3 _ (r2.1 _ rfl) (r2.2 _ rfl)
    · obtain ⟨hl, hlt⟩ := hrefl rows (by rw [← hr]; exact checkReflect_stored hk)
      have hdata : data = k.dataset := by simpa using hsub.2 rfl
      subst hdata
      have hrow : ∀ l : Fin 2, ∃ r, rows[(l : ℕ)]? = some r := fun l => ⟨rows[(l : ℕ)], List.getElem?_eq_getElem (by omega)⟩
      choose r hr' using hrow
      obtain ⟨ext, hext, hx⟩ := C22_partial k.dataset hdne (rows.map ReflRow.toExt) (by simpa using hl)
        ⟨_, List.mem_map_of_mem hmem, _, rfl⟩ (fun l => (r l).elim none fun x => x.1) (fun l => (r l).elim none fun x => x.2) (by
          intro l
          rw [List.getElem?_map, hr' l]
          cases r l with
          | none => right; simp [ReflRow.toExt]
          | some x => left; rfl)
      obtain ⟨dat, _, hdat⟩ := C22_none k.dataset hdne
      have hbd : ∀ l, (ext l).1 ≤ (dat l).1 ∧ (dat l).2 ≤ (ext l).2 := by
        intro l
        rw [hx l _ _ (hdat l)]
        have hm := (hdat l)
        have hrl := hr' l
        obtain ⟨x1, hx1, e1⟩ := List.mem_map.mp hm.1
        obtain ⟨x2, hx2, e2⟩ := List.mem_map.mp hm.2.1
        cases hrc : r l with
        | none => exact ⟨le_rfl, le_rfl⟩
        | some x =>
          rw [hrc] at hrl
          have hh1 := (hres rows hr l x.1 x.2 hrl x1 hx1).1
          have hh2 := (hres rows hr l x.1 x.2 hrl x2 hx2).2
          simp only [Option.elim_some]
          constructor
          · cases hx1 : x.1 with
            | none => exact le_rfl
            | some v => rw [← e1]; exact hh1 v hx1
          · cases hx2 : x.2 with
            | none => exact le_rfl
            | some v => rw [← e2]; exact hh2 v hx2
      have hlt2 : ∀ l, (ext l).1 < (ext l).2 := fun l => extrema_varies (hvar l) (hdat l) (hbd l).1 (hbd l).2
      obtain ⟨R, hR⟩ := C45_succeeds_extrema srt hs k.dataset hdne a.edges hedges' _ none trivial 5 1000 (by norm_num) (by norm_num) none 1 none
        _ hext hlt2
      refine ⟨R, by rw [hr]; unfold parseEdgesParams; simp only [if_pos hl]; exact hR, fun l => ?_⟩
      obtain ⟨c1, c2, c3⟩ := edges_cover_ext ha.edges hext hlt2 hR l
      refine ⟨c1, c2, fun x hx' => ?_⟩
      have := (hdat l).2.2 _ (List.mem_map_of_mem hx')
      exact c3 _ ((hbd l).1.trans this.1) (this.2.trans (hbd l).2)
  obtain ⟨rows, hrows, hcov⟩ := key
  exact dist2dDraw_success hs hsel hdne hw ⟨ha.scatter, ha.quantiles, ha.sigmas⟩ hrows (hcov 0) (hcov 1) hc

/-- The boundaries of a parameter are not a pair of numbers. -/
def Spec.Incomplete (r : ReflRow) : Prop := ∀ a b, r ≠ some (some a, some b)

lemma rawEdges1d_incomplete {srt : List ℝ → List ℕ} (hs : ∀ l, IsArgsort (srt l) l) {row : List ℝ} (hv : ∃ x ∈ row, ∃ y ∈ row, x ≠ y)
    {spec : EdgeSpec} (hspec : spec = .auto ∨ ∃ n : ℤ, 0 < n ∧ spec = .int n) {r : ReflRow} (hr : Incomplete r) :
    rawEdges1d srt spec row r = .error .typeError := by
  have hauto : ∃ g, guessEdges srt row (npMin (row.headD 0) row.tail, npMax (row.headD 0) row.tail) none 2 5 1000 1 none = .ok g := by
    obtain ⟨x, hx, y, hy, hxy⟩ := hv
    cases row with
    | nil => cases hx
    | cons a l =>
      have hlt : npMin a l < npMax a l := by
        have m := (npMin_spec a l).2
        have M := (npMax_spec a l).2
        rcases lt_or_gt_of_ne hxy with h | h
        · exact (m _ hx).trans_lt (h.trans_le (M _ hy))
        · exact (m _ hy).trans_lt (h.trans_le (M _ hx))
      obtain ⟨e, he⟩ := getEdges1d_success hs (row := a :: l) (by simp) hlt (Or.inl rfl)
      unfold getEdges1d at he
      simp only at he
      split at he
      · cases he
      · rename_i g1 g2 hg
        exact ⟨_, hg⟩
  obtain ⟨g, hg⟩ := hauto
  obtain ⟨x, hx, _⟩ := hv
  cases row with
  | nil => cases hx
  | cons a l =>
    simp only [List.headD_cons, List.tail_cons] at hg
    rcases hspec with rfl | ⟨n, _, rfl⟩
    · rcases r with _ | ⟨_ | lo, _ | hi⟩
      · simp only [rawEdges1d, hg]
      · rfl
      · rfl
      · rfl
      · exact absurd rfl (hr lo hi)
    · rcases r with _ | ⟨_ | lo, _ | hi⟩
      · simp only [rawEdges1d, hg]
      · rfl
      · rfl
      · rfl
      · exact absurd rfl (hr lo hi)

lemma edgeSpecs_plain {edges : EdgeArg} (h : edges = .none ∨ ∃ n : ℤ, 0 < n ∧ edges = .int n) :
    ∃ spec, (spec = .auto ∨ ∃ n : ℤ, 0 < n ∧ spec = .int n) ∧ edgeSpecs 2 edges = .ok (List.replicate 2 spec) := by
  rcases h with rfl | ⟨n, hn, rfl⟩
  · exact ⟨_, Or.inl rfl, rfl⟩
  · exact ⟨_, Or.inr ⟨n, hn, rfl⟩, rfl⟩

/-- **C96.** For more than two parameters, `dist2d` fails with a `TypeError` whenever one of the parameters shown has no boundaries, or
only one, while boundaries have been given for some parameter. -/
theorem C96_fails (E : Ext) (srt : List ℝ → List ℕ) (hs : ∀ l, IsArgsort (srt l) l) (sel : ℕ → ℕ → List ℕ) (hsel : IsChoice sel)
    (args : KDEArgs d) (k : KDE d) (hk : KDE.init E args = .ok k) (a : Dist2dArgs) (ha : PlainArgs a) (p q : ℤ) (i j : Fin d)
    (hd : 2 < d) (hpar : a.params = [p, q]) (hp : Names p i) (hq : Names q j)
    (hvi : Varies k.dataset i) (hvj : Varies k.dataset j) (rows : List ReflRow) (hr : k.reflect = some rows) (ri rj : ReflRow)
    (hi : rows[(i : ℕ)]? = some ri) (hj : rows[(j : ℕ)]? = some rj) (hinc : Incomplete ri ∨ Incomplete rj) :
    dist2d E srt sel k a = .error .typeError := by
  have hne := dataset_ne hk
  obtain ⟨hl, hlt⟩ := C20_result k.dataset hne (Reflect.ofChecked k.reflect) rows (by rw [← hr]; exact checkReflect_stored hk)
  unfold dist2d
  rw [hpar, plotRows_names hd hp hq]
  set data := k.dataset.map fun x => ![x i, x j] with hdata
  obtain ⟨sc, hsc⟩ : ∃ sc, scatterPoints data a.scatter sel = .ok sc := by
    obtain ⟨c1, c2, c3, _, c5⟩ := C71_scatter data sel hsel
    cases hsca : a.scatter with
    | yes => exact ⟨_, c3⟩
    | no => exact ⟨_, c1⟩
    | none => exact ⟨_, c2⟩
    | num x =>
      obtain ⟨l, h, _⟩ := c5 x (ha.scatter x hsca)
      exact ⟨_, h⟩
  have hpi : listSeq (pyIndex rows) a.params = .ok [ri, rj] := by
    rw [hpar]
    simp only [listSeq, pyIndex_names hl hp hi, pyIndex_names hl hq hj]
  obtain ⟨spec, hspec, hspecs⟩ := edgeSpecs_plain ha.edges
  have hrow : ∀ l : Fin 2, ∃ x ∈ dataRow data l, ∃ y ∈ dataRow data l, x ≠ y := by
    obtain ⟨x, hx, y, hy, hxy⟩ := hvi
    obtain ⟨x', hx', y', hy', hxy'⟩ := hvj
    intro l
    fin_cases l
    · exact ⟨x i, by simp only [dataRow, hdata, List.map_map]; exact List.mem_map.mpr ⟨x, hx, rfl⟩, y i, by
        simp only [dataRow, hdata, List.map_map]; exact List.mem_map.mpr ⟨y, hy, rfl⟩, hxy⟩
    · exact ⟨x' j, by simp only [dataRow, hdata, List.map_map]; exact List.mem_map.mpr ⟨x', hx', rfl⟩, y' j, by
        simp only [dataRow, hdata, List.map_map]; exact List.mem_map.mpr ⟨y', hy', rfl⟩, hxy'⟩
  have hsome : ∀ (l : Fin 2) (r : ReflRow), r ∈ rows → Incomplete r ∨ ∃ e, rawEdges1d srt spec (dataRow data l) r = .ok e := by
    intro l r hmem
    by_cases h : Incomplete r
    · exact Or.inl h
    · right
      unfold Incomplete at h
      push Not at h
      obtain ⟨b1, b2, rfl⟩ := h
      have hrne : dataRow data l ≠ [] := by
        obtain ⟨x, hx, _⟩ := hrow l
        exact List.ne_nil_of_mem hx
      obtain ⟨e, he⟩ := getEdges1d_success hs hrne (hlt b1 b2 hmem) hspec
      refine ⟨e, ?_⟩
      rcases hspec with rfl | ⟨n, _, rfl⟩ <;> exact he
  have hedges : parseEdgesParams srt data a.edges k.reflect a.params = .error .typeError := by
    unfold parseEdgesParams
    rw [hr]
    simp only [if_neg (show ¬ rows.length = 2 by omega), hpi, hspecs]
    have h0 := hsome 0 ri (List.mem_of_getElem? hi)
    have f0 : Incomplete ri → rawEdges1d srt spec (dataRow data 0) ri = .error .typeError := rawEdges1d_incomplete hs (hrow 0) hspec
    have f1 : Incomplete rj → rawEdges1d srt spec (dataRow data 1) rj = .error .typeError := rawEdges1d_incomplete hs (hrow 1) hspec
    have hfin : finSeq (fun l : Fin 2 => rawEdges1d srt ((List.replicate 2 spec).getD l .auto) (dataRow data l) ([ri, rj].getD l none))
        = .error .typeError := by
      have g0 : (fun l : Fin 2 => rawEdges1d srt ((List.replicate 2 spec).getD l .auto) (dataRow data l) ([ri, rj].getD l none)) 0
        = rawEdges1d srt spec (dataRow data 0) ri := rfl
      have g1 : (fun l : Fin 2 => rawEdges1d srt ((List.replicate 2 spec).getD l .auto) (dataRow data l) ([ri, rj].getD l none)) 1
        = rawEdges1d srt spec (dataRow data 1) rj := rfl
      revert g0 g1
      generalize (fun l : Fin 2 => rawEdges1d srt ((List.replicate 2 spec).getD l .auto) (dataRow data l) ([ri, rj].getD l none)) = f
      intro g0 g1
      simp only [finSeq]
      rw [show (Fin.succ 0 : Fin 2) = 1 from rfl, g0, g1]
      rcases h0 with h0 | ⟨e, h0⟩
      · rw [f0 h0]
      · rw [h0]
        rcases hinc with hinc | hinc
        · rw [f0 hinc] at h0
          cases h0
        · rw [f1 hinc]
    rw [hfin]
  unfold dist2dDraw
  simp only [hsc, hedges]

lemma box_kde2 (E : Ext) : ∃ (args : KDEArgs 2) (k : KDE 2), KDE.init E args = .ok k ∧ k.dataset = [![0, 10], ![1, 12]] ∧ k.reflect = none ∧
    k.weights = none := by
  obtain ⟨k, hk, _⟩ := auto_init E [![(0 : ℝ), 10], ![1, 12]] (by simp) none (by simp) (by simp [covFact]) .box rfl 1
  obtain ⟨refl, w, _, _, _, _, _, _, hr, _, hw, _, _, _, _, _, _, _, he⟩ := init_inv hk
  refine ⟨_, k, hk, by rw [he], ?_, ?_⟩
  · rw [he]
    simp only [checkReflect, Except.ok.injEq] at hr
    exact hr.symm
  · rw [he]
    simp only [Option.elim_none, checkWeights, Except.ok.injEq] at hw
    exact hw.symm

/-- **C96** fails: a KDE of three parameters, the first of which has a lower boundary. -/
theorem C96_refuted : ¬ C96_Claim := by
  intro hc
  obtain ⟨srt, hs⟩ := exists_argsort
  let E : Ext := ⟨fun M => M⁻¹, fun _ => 0⟩
  obtain ⟨k, hk, _, _, _, hr, _, hd⟩ := unit_init_reflect (d := 3) E [![0, 10, 5], ![1, 12, 6]] (by simp) .box rfl
    [some (some 0, none), none, none] rfl (by simp) ⟨_, List.mem_cons_self⟩
  have hv0 : Varies k.dataset 0 := by
    rw [hd]
    exact ⟨_, List.mem_cons_self, _, List.mem_cons_of_mem _ List.mem_cons_self, by norm_num⟩
  have hv1 : Varies k.dataset 1 := by
    rw [hd]
    exact ⟨_, List.mem_cons_self, _, List.mem_cons_of_mem _ List.mem_cons_self, by norm_num⟩
  have ha : PlainArgs { contour := false } := ⟨Or.inl rfl, by simp, by simp, by simp⟩
  obtain ⟨out, h⟩ := hc 3 E srt _ _ k { contour := false } 0 1 0 1 hs isChoice_range hk (by norm_num) rfl (Or.inl rfl) (Or.inl rfl) (by decide)
    ha rfl hv0 hv1 (by
      intro rows hrows i lo hi hrow x hx
      rw [hr] at hrows
      cases hrows
      rw [hd] at hx
      fin_cases i
      · simp at hrow
        obtain ⟨rfl, rfl⟩ := hrow
        simp at hx
        rcases hx with rfl | rfl <;> simp
      · simp at hrow
      · simp at hrow)
  rw [C96_fails E srt hs _ isChoice_range _ k hk { contour := false } ha 0 1 0 1 (by norm_num) rfl (Or.inl rfl) (Or.inl rfl) hv0 hv1 _ hr _ _
    rfl rfl (Or.inl (by intro a b; simp))] at h
  cases h

/-- Hypotheses of `C96_partial` with boundaries: three parameters, the second and third of which are bounded on both sides. -/
example : ∃ (E : Ext) (srt : List ℝ → List ℕ) (k : KDE 3) (out : Dist2dOut), k.reflect = some [none, some (some 9, some 13), some (some 5, some 7)] ∧
    dist2d E srt (fun _ n => List.range n) k { contour := false, params := [1, -1] } = .ok out := by
  obtain ⟨srt, hs⟩ := exists_argsort
  let E : Ext := ⟨fun M => M⁻¹, fun _ => 0⟩
  obtain ⟨k, hk, _, _, _, hr, _, hd⟩ := unit_init_reflect (d := 3) E [![0, 10, 5], ![1, 12, 6]] (by simp) .box rfl
    [none, some (some 9, some 13), some (some 5, some 7)] rfl (by
      intro lo hi h
      simp at h
      rcases h with ⟨rfl, rfl⟩ | ⟨rfl, rfl⟩ <;> norm_num) ⟨_, List.mem_cons_of_mem _ List.mem_cons_self⟩
  have hv : ∀ l : Fin 3, Varies k.dataset l := by
    intro l
    rw [hd]
    refine ⟨_, List.mem_cons_self, _, List.mem_cons_of_mem _ List.mem_cons_self, ?_⟩
    fin_cases l
    · simp
    · simp
    · show (5 : ℝ) ≠ 6
      norm_num
  obtain ⟨out, h⟩ := C96_partial E srt hs _ isChoice_range _ k hk { contour := false, params := [1, -1] }
    ⟨Or.inl rfl, by simp, by simp, by simp⟩ 1 (-1) 1 2 (by norm_num) rfl (Or.inl rfl) (Or.inr rfl) (by decide) (hv 1) (hv 2) (by
      intro rows hrows i lo hi hrow x hx
      rw [hr] at hrows
      cases hrows
      rw [hd] at hx
      fin_cases i
      · simp at hrow
      · simp at hrow
        obtain ⟨rfl, rfl⟩ := hrow
        simp at hx
        rcases hx with rfl | rfl <;> simp <;> norm_num
      · simp at hrow
        obtain ⟨rfl, rfl⟩ := hrow
        simp at hx
        rcases hx with rfl | rfl <;> simp <;> norm_num)
    (Or.inr (Or.inl ⟨by norm_num, _, _, _, _, _, hr, rfl, rfl⟩)) (by simp)
  exact ⟨E, srt, k, out, hr, h⟩

/-- A KDE of two parameters is drawn; the hypotheses of `C95_partial` and `C96_partial`. -/
lemma box_dist2d (params : List ℤ) (p q : ℤ) (i j : Fin 2) (hpar : params = [p, q]) (hp : Names p i) (hq : Names q j) (hij : i ≠ j) :
    ∃ (E : Ext) (srt : List ℝ → List ℕ) (args : KDEArgs 2) (k : KDE 2) (out : Dist2dOut), (∀ l, IsArgsort (srt l) l) ∧
      KDE.init E args = .ok k ∧ k.dataset = [![0, 10], ![1, 12]] ∧ k.weights = none ∧
      dist2d E srt (fun _ n => List.range n) k { contour := false, params := params } = .ok out := by
  obtain ⟨srt, hs⟩ := exists_argsort
  let E : Ext := ⟨fun M => M⁻¹, fun _ => 0⟩
  obtain ⟨args, k, hk, hd, hr, hw⟩ := box_kde2 E
  have hv : ∀ l, Varies k.dataset l := by
    intro l
    rw [hd]
    refine ⟨_, List.mem_cons_self, _, List.mem_cons_of_mem _ List.mem_cons_self, ?_⟩
    fin_cases l <;> norm_num
  obtain ⟨out, h⟩ := C96_partial E srt hs _ isChoice_range args k hk { contour := false, params := params }
    ⟨Or.inl rfl, by simp, by simp, by simp⟩ p q i j le_rfl hpar hp hq hij (hv i) (hv j) (by intro rows h; rw [hr] at h; cases h) (Or.inl hr)
    (by simp)
  exact ⟨E, srt, args, k, out, hs, hk, hd, hw, h⟩

/-- Hypotheses of `C95_partial`. -/
example : ∃ (E : Ext) (srt : List ℝ → List ℕ) (k : KDE 2) (out : Dist2dOut),
    dist2d E srt (fun _ n => List.range n) k { contour := false } = .ok out ∧ Shows2d E srt k 0 1 1 out := by
  obtain ⟨E, srt, args, k, out, _, _, _, _, h⟩ := box_dist2d [0, 1] 0 1 0 1 rfl (Or.inl rfl) (Or.inl rfl) (by decide)
  exact ⟨E, srt, k, out, h, C95_partial E srt _ isChoice_range k _ 0 1 0 1 rfl (Or.inl rfl) (Or.inl rfl) (Or.inr ⟨rfl, rfl, rfl⟩) out h⟩

/-- **C95** fails: for a KDE of two parameters the data are drawn in their own order, whatever `params`. -/
theorem C95_refuted : ¬ C95_Claim := by
  intro hc
  obtain ⟨E, srt, args, k, out, hs, hk, hd, _, h⟩ := box_dist2d [1, 0] 1 0 1 0 rfl (Or.inl rfl) (Or.inl rfl) (by decide)
  have hsh := hc 2 E srt _ args k _ 1 0 1 0 out hs isChoice_range hk le_rfl rfl (Or.inl rfl) (Or.inl rfl) (by decide) h
  unfold dist2d at h
  rw [plotRows_two] at h
  obtain ⟨_, _, _, _, _, _, h1, _⟩ := dist2dDraw_ok h
  have hsc : out.scatter = some k.dataset := by
    have := (C71_scatter k.dataset _ isChoice_range).2.2.1
    exact (Except.ok.inj (this.symm.trans h1)).symm
  have hsub := hsh.scatter _ hsc
  rw [hd] at hsub
  have := hsub.subset (List.mem_cons_self)
  simp at this

/-! ### C97 -/

/-- The fractions of the distribution within the contours. -/
noncomputable def Spec.ContourFractions (a : Dist2dArgs) : List ℝ := (defaultQuantiles a.quantiles a.sigmas).1

/-- **C97.** `dist2d(mask_below=True)`: a bin is hidden if and only if its density is at most a positive number, the lowest contour level,
and this is the density of one of the bins.  The other bins contain at most the fraction of the outermost contour of the summed densities. -/
theorem C97_rule (E : Ext) (srt : List ℝ → List ℕ) (hs : ∀ l, IsArgsort (srt l) l) (sel : ℕ → ℕ → List ℕ) (args : KDEArgs d) (k : KDE d)
    (hk : KDE.init E args = .ok k) (a : Dist2dArgs) (p q : ℤ) (i j : Fin d) (hpar : a.params = [p, q]) (hp : Names p i) (hq : Names q j)
    (hd : 2 < d ∨ (d = 2 ∧ (i : ℕ) = 0 ∧ (j : ℕ) = 1)) (out : Dist2dOut) (h : dist2d E srt sel k a = .ok out)
    (hh : a.hist = true) (hm : a.maskBelow = .auto) (hfr : ∀ f ∈ ContourFractions a, 0 ≤ f ∧ f < 1) :
    ∃ P T, out.hist = some P ∧ 0 < T ∧
      (∀ m n, m + 1 < P.x.length → n + 1 < P.y.length → (Spec.shown P m n = none ↔
        cellDensity (k.dataset.map fun x => ![x i, x j]) k.weights P.x P.y m n ≤ T)) ∧
      (∃ m n, m + 1 < P.x.length ∧ n + 1 < P.y.length ∧ cellDensity (k.dataset.map fun x => ![x i, x j]) k.weights P.x P.y m n = T) ∧
      ∃ f ∈ ContourFractions a,
        ∑ idx ∈ validIdx ![P.x.length - 1, P.y.length - 1], (Spec.shown P (idx 0) (idx 1)).getD 0 ≤
          f * ∑ idx ∈ validIdx ![P.x.length - 1, P.y.length - 1],
            cellDensity (k.dataset.map fun x => ![x i, x j]) k.weights P.x P.y (idx 0) (idx 1) := by
  have hrows : plotRows k.dataset a.params = .ok (k.dataset.map fun x => ![x i, x j]) := by
    rcases hd with hd | ⟨rfl, hi, hj⟩
    · rw [hpar]; exact plotRows_names hd hp hq
    · rw [plotRows_two]
      congr 1
      symm
      rw [show (fun x : Fin 2 → ℝ => ![x i, x j]) = id by
        funext x l
        have ei : i = 0 := Fin.ext hi
        have ej : j = 1 := Fin.ext hj
        fin_cases l
        · simp [ei]
        · simp [ej]]
      exact List.map_id _
  unfold dist2d at h
  rw [hrows] at h
  obtain ⟨rows, H, sg, levels, qs, mask, h1, h2, h3, h4, h5, h6, h7, h8⟩ := dist2dDraw_ok h
  set data := k.dataset.map fun x => ![x i, x j] with hdata
  have hw : ValidWeights data.length k.weights := validWeights_stored hk (by simp [hdata])
  obtain ⟨hnn, hpos⟩ := histogram2d_facts hw h3
  obtain ⟨hx, hy, hxl, hyl, ht, hsh, hg⟩ := histogram2d_ok h3
  obtain ⟨levels', qs', s', f, e1, _, _, _, hperm, _, hf⟩ := C55_mass_partial H hnn hpos srt hs a.quantiles a.sigmas
  rw [h4] at e1
  cases e1
  have hqs : qs = ContourFractions a := by
    unfold dfmLevels at h4
    simp only at h4
    split at h4
    · cases h4
    · cases h4; rfl
  rw [hh, if_pos rfl] at h8
  -- the threshold
  have hT : ∃ T, mask = some T ∧ T ∈ levels := by
    rw [hm] at h5
    unfold maskLevel at h5
    cases levels with
    | nil => cases h5
    | cons b l => cases h5; exact ⟨_, rfl, (npMin_spec b l).1⟩
  obtain ⟨T, hmask, hTl⟩ := hT
  obtain ⟨g, hgq, rfl⟩ := List.mem_map.mp (hperm.mem_iff.mp hTl)
  rw [hqs] at hgq
  obtain ⟨g0, g1⟩ := hfr g hgq
  obtain ⟨⟨idx0, hv0, hval0⟩, hmass⟩ := hf g
  have hmass := (hmass g0).1
  have hTpos : 0 < f g := by
    by_contra hneg
    have hz : f g = 0 := le_antisymm (not_lt.mp hneg) (hval0 ▸ hnn idx0 hv0)
    rw [hz] at hmass
    have : (∑ idx ∈ validIdx H.shape, if 0 < H.get idx then H.get idx else 0) = H.sum := by
      unfold NDArr.sum
      refine Finset.sum_congr rfl fun idx hi => ?_
      split
      · rfl
      · rename_i hle
        exact (le_antisymm (not_lt.mp hle) (hnn idx (validIdx_mem.mp hi))).symm
    rw [this] at hmass
    nlinarith
  refine ⟨_, f g, h8, hTpos, ?_, ?_, g, hgq, ?_⟩
  · intro m n hm' hn'
    have hm2 : m < (rows.getD 0 []).length - 1 := by
      have : m + 1 < (rows.getD 0 []).length := hm'
      omega
    have hn2 : n < (rows.getD 1 []).length - 1 := by
      have : n + 1 < (rows.getD 1 []).length := hn'
      omega
    have e := hg m n hm2 hn2
    show Spec.shown _ m n = none ↔ cellDensity data k.weights (rows.getD 0 []) (rows.getD 1 []) m n ≤ f g
    rw [← e]
    simp only [Spec.shown, drawHist2d, hmask]
    have e' : ![(![n, m] : Fin 2 → ℕ) 1, (![n, m] : Fin 2 → ℕ) 0] = ![m, n] := rfl
    rw [e']
    constructor
    · intro hn
      split at hn
      · rename_i hc; exact hc.2
      · cases hn
    · intro hle
      exact if_pos ⟨hTpos.ne', hle⟩
  · have a0 : idx0 0 < (rows.getD 0 []).length - 1 := by simpa [hsh] using hv0 0
    have a1 : idx0 1 < (rows.getD 1 []).length - 1 := by simpa [hsh] using hv0 1
    refine ⟨idx0 0, idx0 1, show idx0 0 + 1 < (rows.getD 0 []).length by omega, show idx0 1 + 1 < (rows.getD 1 []).length by omega, ?_⟩
    have e := hg _ _ a0 a1
    have e' : ![idx0 0, idx0 1] = idx0 := by
      funext l
      fin_cases l <;> rfl
    rw [e', hval0] at e
    exact e.symm
  · have hmass' := hmass
    unfold NDArr.sum at hmass'
    rw [hsh] at hmass'
    have hcell : ∀ idx ∈ validIdx ![(rows.getD 0 []).length - 1, (rows.getD 1 []).length - 1],
        H.get idx = cellDensity data k.weights (rows.getD 0 []) (rows.getD 1 []) (idx 0) (idx 1) := by
      intro idx hidx
      have hv := validIdx_mem.mp hidx
      rw [← hg (idx 0) (idx 1) (by simpa using hv 0) (by simpa using hv 1)]
      congr 1
      funext l
      fin_cases l <;> rfl
    have hl : ∀ idx ∈ validIdx ![(rows.getD 0 []).length - 1, (rows.getD 1 []).length - 1],
        (Spec.shown (drawHist2d (rows.getD 0 []) (rows.getD 1 []) H mask) (idx 0) (idx 1)).getD 0 =
          if f g < H.get idx then H.get idx else 0 := by
      intro idx hidx
      have e' : ![(![idx 1, idx 0] : Fin 2 → ℕ) 1, (![idx 1, idx 0] : Fin 2 → ℕ) 0] = idx := by
        funext l
        fin_cases l <;> rfl
      simp only [Spec.shown, drawHist2d, hmask]
      rw [e']
      by_cases hlt : f g < H.get idx
      · rw [if_pos hlt, if_neg (by rintro ⟨_, h⟩; linarith)]
        rfl
      · rw [if_neg hlt, if_pos ⟨hTpos.ne', not_lt.mp hlt⟩]
        rfl
    have s1 := Finset.sum_congr rfl hl
    have s2 := Finset.sum_congr rfl hcell
    rw [← s1, s2] at hmass'
    exact hmass'

/-- **C97** as documented: without weights, `dist2d(mask_below=True)` hides exactly the bins that contain no data. -/
def C97_Claim : Prop :=
  ∀ (d : ℕ) (E : Ext) (srt : List ℝ → List ℕ) (sel : ℕ → ℕ → List ℕ) (args : KDEArgs d) (k : KDE d) (a : Dist2dArgs) (p q : ℤ) (i j : Fin d)
    (out : Dist2dOut) (P : Pcolor), (∀ l, IsArgsort (srt l) l) → IsChoice sel → KDE.init E args = .ok k → k.weights = none →
    a.params = [p, q] → Names p i → Names q j → (2 < d ∨ (d = 2 ∧ (i : ℕ) = 0 ∧ (j : ℕ) = 1)) → dist2d E srt sel k a = .ok out →
    a.maskBelow = .auto → (∀ f ∈ ContourFractions a, 0 ≤ f ∧ f < 1) → out.hist = some P →
    ∀ m n, m + 1 < P.x.length → n + 1 < P.y.length →
      (Spec.shown P m n = none ↔ ∀ x ∈ k.dataset, ¬ InCell P.x P.y m n ![x i, x j])

lemma hist_drawn {E : Ext} {srt : List ℝ → List ℕ} {sel : ℕ → ℕ → List ℕ} {k : KDE d} {a : Dist2dArgs} {out : Dist2dOut} {P : Pcolor}
    (h : dist2d E srt sel k a = .ok out) (hP : out.hist = some P) : a.hist = true := by
  unfold dist2d at h
  split at h
  · cases h
  obtain ⟨_, _, _, _, _, _, _, _, _, _, _, _, _, h8⟩ := dist2dDraw_ok h
  by_contra hc
  rw [if_neg hc, hP] at h8
  cases h8

/-- **C97**, proved part: bins without data are hidden. -/
theorem C97_partial (E : Ext) (srt : List ℝ → List ℕ) (hs : ∀ l, IsArgsort (srt l) l) (sel : ℕ → ℕ → List ℕ) (args : KDEArgs d) (k : KDE d)
    (hk : KDE.init E args = .ok k) (a : Dist2dArgs) (p q : ℤ) (i j : Fin d) (hpar : a.params = [p, q]) (hp : Names p i) (hq : Names q j)
    (hd : 2 < d ∨ (d = 2 ∧ (i : ℕ) = 0 ∧ (j : ℕ) = 1)) (out : Dist2dOut) (h : dist2d E srt sel k a = .ok out)
    (hm : a.maskBelow = .auto) (hfr : ∀ f ∈ ContourFractions a, 0 ≤ f ∧ f < 1) (P : Pcolor) (hP : out.hist = some P)
    (m n : ℕ) (hm1 : m + 1 < P.x.length) (hn1 : n + 1 < P.y.length) (hemp : ∀ x ∈ k.dataset, ¬ InCell P.x P.y m n ![x i, x j]) :
    Spec.shown P m n = none := by
  obtain ⟨P', T, h1, h2, h3, _⟩ := C97_rule E srt hs sel args k hk a p q i j hpar hp hq hd out h (hist_drawn h hP) hm hfr
  rw [hP] at h1
  cases h1
  rw [h3 m n hm1 hn1, cellDensity]
  have : weightWhere (InCell P.x P.y m n) (k.dataset.map fun x => ![x i, x j]) k.weights = 0 := by
    unfold weightWhere
    refine List.sum_eq_zero fun y hy => ?_
    obtain ⟨z, hz, rfl⟩ := List.mem_map.mp hy
    obtain ⟨x, hx, e⟩ := List.mem_map.mp (List.of_mem_zip hz).1
    rw [if_neg]
    rw [← e]
    exact hemp x hx
  rw [this, zero_div, zero_div]
  exact h2.le

/-- **C97.** `dist2d(mask_below=True)` always hides a bin that contains data. -/
theorem C97_always (E : Ext) (srt : List ℝ → List ℕ) (hs : ∀ l, IsArgsort (srt l) l) (sel : ℕ → ℕ → List ℕ) (args : KDEArgs d) (k : KDE d)
    (hk : KDE.init E args = .ok k) (a : Dist2dArgs) (p q : ℤ) (i j : Fin d) (hpar : a.params = [p, q]) (hp : Names p i) (hq : Names q j)
    (hd : 2 < d ∨ (d = 2 ∧ (i : ℕ) = 0 ∧ (j : ℕ) = 1)) (out : Dist2dOut) (h : dist2d E srt sel k a = .ok out)
    (hh : a.hist = true) (hm : a.maskBelow = .auto) (hfr : ∀ f ∈ ContourFractions a, 0 ≤ f ∧ f < 1) :
    ∃ P m n, out.hist = some P ∧ m + 1 < P.x.length ∧ n + 1 < P.y.length ∧ Spec.shown P m n = none ∧
      ∃ x ∈ k.dataset, InCell P.x P.y m n ![x i, x j] := by
  obtain ⟨P, T, h1, h2, h3, ⟨m, n, h4, h5, h6⟩, _⟩ := C97_rule E srt hs sel args k hk a p q i j hpar hp hq hd out h hh hm hfr
  refine ⟨P, m, n, h1, h4, h5, (h3 m n h4 h5).mpr h6.le, ?_⟩
  by_contra hc
  push Not at hc
  have : weightWhere (InCell P.x P.y m n) (k.dataset.map fun x => ![x i, x j]) k.weights = 0 := by
    unfold weightWhere
    refine List.sum_eq_zero fun y hy => ?_
    obtain ⟨z, hz, rfl⟩ := List.mem_map.mp hy
    obtain ⟨x, hx, e⟩ := List.mem_map.mp (List.of_mem_zip hz).1
    rw [if_neg]
    rw [← e]
    exact hc x hx
  rw [cellDensity, this, zero_div, zero_div] at h6
  exact h2.ne h6

/-- The default contours, and all given by `sigmas`, contain fractions below one. -/
lemma contourFractions_sigmas {a : Dist2dArgs} (h : a.quantiles = none) : ∀ f ∈ ContourFractions a, 0 ≤ f ∧ f < 1 := by
  intro f hf
  unfold ContourFractions defaultQuantiles at hf
  rw [h] at hf
  simp only at hf
  obtain ⟨x, _, rfl⟩ := List.mem_map.mp hf
  have h1 : Real.exp (-(1 / 2) * x ^ 2) ≤ 1 := Real.exp_le_one_iff.mpr (by nlinarith [sq_nonneg x])
  have h2 := Real.exp_pos (-(1 / 2) * x ^ 2)
  exact ⟨by linarith, by linarith⟩

/-- **C97** fails for every plot with the default arguments. -/
theorem C97_refuted : ¬ C97_Claim := by
  intro hc
  obtain ⟨E, srt, args, k, out, hs, hk, hd, hw, h⟩ := box_dist2d [0, 1] 0 1 0 1 rfl (Or.inl rfl) (Or.inl rfl) (by decide)
  obtain ⟨P, m, n, h1, h2, h3, h4, x, hx, h5⟩ := C97_always E srt hs _ args k hk _ 0 1 0 1 rfl (Or.inl rfl) (Or.inl rfl)
    (Or.inr ⟨rfl, rfl, rfl⟩) out h rfl rfl (contourFractions_sigmas rfl)
  exact (hc 2 E srt _ args k _ 0 1 0 1 out P hs isChoice_range hk hw rfl (Or.inl rfl) (Or.inl rfl) (Or.inr ⟨rfl, rfl, rfl⟩) h rfl
    (contourFractions_sigmas rfl) h1 m n h2 h3).mp h4 x hx h5

end Kalepy
