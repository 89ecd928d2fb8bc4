import Verif.Props.CornerPlot
import Verif.Props.Extrema

/-!
# C107, C108: corner plots of data
-/

namespace Kalepy

open Spec

variable {d : ℕ}

/-! ### specification -/

/-- Everything drawn by `dist1d` shows the data and weights: the curve follows the density (times `scale`) of a KDE made from them, the steps are the densities of
their bins, the bands and the points show the data. -/
structure Spec.ShowsData1d (E : Ext) (srt : List ℝ → List ℕ) (auto : List ℝ → ℕ) (data : List ℝ) (weights : Option (List ℝ)) (a : Dist1dArgs) (scale : ℝ)
    (out : Dist1dOut) : Prop where
  curve : ∀ c, out.curve = some c → ∃ k : KDE 1, KDE.init E { defaultArgs (data.map fun x _ => x) weights with squeeze := true } = .ok k ∧ ∀ p ∈ c, ∃ v,
    (k.density E srt (some (.rows [[(upright a.rotate p).1]])) .none .none false a.probability).1
      = .ok (.rows [[(upright a.rotate p).1]], ⟨[1], [v]⟩) ∧ (upright a.rotate p).2 = v * scale
  hist : ∀ h, out.hist = some h → ∃ hist e, hist1d auto false data (histArgs a.edges weights true a.probability true a.rotate) = .ok (hist, e, h)
  bands : ∀ b, out.bands = some b → confidence srt data none (defaultQuantiles a.quantiles none).1 true a.rotate = .ok b
  carpet : ∀ m, out.carpet = some m → (m.map fun q => if a.rotate then q.y else q.x).Subperm data

/-- Everything drawn by `dist2d` shows the pairs and weights: as for a KDE made from them. -/
def Spec.ShowsData2d (E : Ext) (srt : List ℝ → List ℕ) (data : List (Fin 2 → ℝ)) (weights : Option (List ℝ)) (pad : ℕ) (out : Dist2dOut) : Prop :=
  ∃ k : KDE 2, KDE.init E (defaultArgs data weights) = .ok k ∧ k.dataset = data ∧ k.weights = weights ∧ Shows2d E srt k 0 1 pad out

/-- The panels of a corner plot of data, with one set `e` of edges per parameter, shared by its row, its column and the diagonal. -/
structure Spec.DataCorner (E : Ext) (srt : List ℝ → List ℕ) (auto : List ℝ → ℕ) (rotate : Bool) (data : List (Fin d → ℝ)) (weights : Option (List ℝ))
    (edges : EdgeArg) (qs : List ℝ) (o1 : Dist1dArgs) (o2 : Dist2dArgs) (e : Fin d → List ℝ) (out : CornerOut d) : Prop where
  covers : (edges = .none ∨ ∃ n : ℤ, 0 < n ∧ edges = .int n) → Covers e data
  given : ∀ l, edges = .list l → l.length = d → ∀ (i : Fin d) (x : List ℝ), l[(i : ℕ)]? = some (.arr x) → e i = x
  diag : ∀ jj, ShowsData1d E srt auto (dataRow data jj) weights (diagPanel e rotate { o1 with quantiles := some qs } jj) ((o1.density.getD none).getD 0) (out.diag jj)
  diagParts : ∀ jj, ((out.diag jj).curve = none ↔ o1.density = none ∨ o1.density = some none) ∧ (out.diag jj).hist.isSome = o1.hist.getD true ∧
    (out.diag jj).bands.isSome = o1.confidence ∧ ((out.diag jj).carpet = none ↔ o1.carpet = .no ∨ o1.carpet = .none)
  above : ∀ ii jj, ii ≤ jj → out.panel ii jj = none
  below : ∀ ii jj, jj < ii → ∃ p, out.panel ii jj = some p ∧ ShowsData2d E srt (data.map fun x => ![x jj, x ii]) weights (padNumber o2.pad) p ∧
    (∀ P, p.hist = some P → P.x = e jj ∧ P.y = e ii) ∧
    (p.scatter = none ↔ o2.scatter = .no ∨ o2.scatter = .none) ∧ p.lines.isSome = o2.median ∧
    p.hist.isSome = o2.hist ∧ p.contour.isSome = o2.contour

/-! ### C107 -/

lemma dataPanel {E : Ext} {srt : List ℝ → List ℕ} {auto : List ℝ → ℕ} {sel : ℕ → ℕ → List ℕ} (hsel : IsChoice sel) {fuzz : ℕ → ℝ} {top : ℝ}
    {data : List ℝ} {weights : Option (List ℝ)} (hw : ∀ w, weights = some w → w.length = data.length) {a : Dist1dArgs} (hp : a.param = 0)
    {out : Dist1dOut} (h : dist1dData E srt auto sel fuzz top false data weights a = .ok out) :
    ShowsData1d E srt auto data weights a ((a.density.getD none).getD 0) out ∧
    ((out.curve = none ↔ a.density = none ∨ a.density = some none) ∧ (out.hist.isSome = a.hist.getD true) ∧ (out.bands.isSome = a.confidence) ∧
    (out.carpet = none ↔ a.carpet = .no ∨ a.carpet = .none)) := by
  have hq : Names (d := 1) a.param 0 := by rw [hp]; exact Or.inl rfl
  unfold dist1dData at h
  obtain ⟨limit, h1, h2, h3, h4, h5, h6, h7, h8⟩ := dist1dDraw_ok h
  refine ⟨⟨?_, h3, h4, ?_⟩, ?_, h6, h7, ?_⟩
  · intro c hc
    obtain ⟨s, hs, hcurve⟩ := withArg_ok h2 hc
    split at hcurve
    · cases hcurve
    rename_i k hk
    refine ⟨k, hk, fun p hp => ?_⟩
    obtain ⟨l, vals, c1, c2, rfl⟩ := dist1dCurve_ok hq hcurve
    obtain ⟨⟨x, v⟩, hxv, rfl⟩ := List.mem_map.mp hp
    obtain ⟨n, hn⟩ := List.mem_iff_getElem?.mp hxv
    rw [List.getElem?_zip_eq_some] at hn
    rw [hs]
    refine ⟨v, ?_, ?_⟩
    · have e : (upright a.rotate (upright a.rotate (x, v * s))).1 = x := by cases a.rotate <;> rfl
      rw [e]
      exact density_single c2 (single_not_scalar (d := 1) 0) hn.1 hn.2
    · cases a.rotate <;> rfl
  · intro m hm
    obtain ⟨⟨lo, hi⟩, hr⟩ := h5 m hm
    exact (C90_points srt sel hsel fuzz _ weights hw top _ m lo hi hr).2.1
  · rcases hd : a.density with _ | _ | s
    · rw [hd] at h2
      have h2' : out.curve = none := (Except.ok.inj h2).symm
      simp [h2']
    · rw [hd] at h2
      have h2' : out.curve = none := (Except.ok.inj h2).symm
      simp [h2']
    · rw [hd] at h2
      cases hc : out.curve with
      | none =>
        rw [hc] at h2
        simp only [Option.getD_some, withArg] at h2
        split at h2
        · cases h2
        · rename_i k _
          revert h2
          cases dist1dCurve E srt k a.edges a.param a.probability a.rotate s <;> simp [Except.map]
      | some c => simp
  · rw [h8]
    cases hc : a.carpet <;> rw [hc] at h1 <;> simp only [scatterLimit] at h1
    · cases h1; simp
    · cases h1; simp
    · cases h1; simp
    · split at h1
      · cases h1
      · cases h1; simp

/-- A KDE made from data and weights keeps them. -/
lemma default_stored {E : Ext} {data : List (Fin d → ℝ)} {weights : Option (List ℝ)} {k : KDE d} (h : KDE.init E (defaultArgs data weights) = .ok k) :
    k.dataset = data ∧ k.weights = weights ∧ k.reflect = none ∧ ∀ w, weights = some w → w.length = data.length := by
  obtain ⟨_, hw⟩ := C16_weights h
  obtain ⟨rr, _, _, _, _, _, _, _, hr, _, _, _, _, _, _, _, _, _, e⟩ := init_inv h
  have hinj : Function.Injective Flt.fin := fun a b h => by cases h; rfl
  refine ⟨by rw [e]; rfl, ?_⟩
  have e3 : k.reflect = none := by
    rw [e]
    simpa [defaultArgs, checkReflect, eq_comm] using hr
  cases weights with
  | none =>
    rcases hw with ⟨_, h2⟩ | ⟨l, h1, _⟩
    · exact ⟨h2, e3, by simp⟩
    · cases h1
  | some w =>
    rcases hw with ⟨h1, _⟩ | ⟨l, h1, h2, h3⟩
    · cases h1
    · have h4 : w.map Flt.fin = l.map Flt.fin := by simpa [defaultArgs] using h1
      have := List.map_injective_iff.mpr hinj h4
      subst this
      exact ⟨h2, e3, by rintro _ ⟨⟩; exact h3.1⟩

/-- `dist2d` of data is `dist2d` of their KDE. -/
lemma dist2dData_eq {E : Ext} {srt : List ℝ → List ℕ} {sel : ℕ → ℕ → List ℕ} {data : List (Fin 2 → ℝ)} {weights : Option (List ℝ)} {a : Dist2dArgs}
    {out : Dist2dOut} (h : dist2dData E srt sel data weights a = .ok out) :
    ∃ k : KDE 2, KDE.init E (defaultArgs data weights) = .ok k ∧ k.dataset = data ∧ k.weights = weights ∧ k.reflect = none ∧ dist2d E srt sel k a = .ok out := by
  unfold dist2dData at h
  split at h
  · cases h
  · cases h
  rename_i k hk
  have hk' : KDE.init E (defaultArgs data weights) = .ok k := hk
  obtain ⟨e1, e2, e3, -⟩ := default_stored hk'
  refine ⟨k, hk', e1, e2, e3, ?_⟩
  unfold dist2d
  rw [plotRows_two, e1, e2]
  exact h

lemma drawData_panels {E : Ext} {srt : List ℝ → List ℕ} {auto : List ℝ → ℕ} {r : CornerRnd d} (hr1 : ∀ i, IsChoice (r.sel1 i))
    (hr2 : ∀ i j, IsChoice (r.sel2 i j)) {rotate : Bool} {data : List (Fin d → ℝ)} (hne : data ≠ []) {weights : Option (List ℝ)}
    (hw : ∀ w, weights = some w → w.length = data.length) {edges : EdgeArg} {quantiles : Option (List ℝ)} {o1 : Dist1dArgs} {o2 : Dist2dArgs}
    (ho : o2.params = [0, 1]) {out : CornerOut d} (h : Corner.drawData E srt auto r rotate data weights edges quantiles o1 o2 = .ok out) :
    ∃ e, DataCorner E srt auto rotate data weights edges (defaultQuantiles quantiles none).1 o1 o2 e out := by
  unfold Corner.drawData at h
  split at h
  · cases h
  rename_i rows hrows
  rw [cornerPanels_ok] at h
  obtain ⟨h1, h2, h3⟩ := h
  have hd : ∀ jj, _ := fun jj => dataPanel (a := diagArgs rotate rows { o1 with quantiles := some (defaultQuantiles quantiles none).1 } 0 jj) (hr1 jj)
    (by simpa [dataRow] using hw) rfl (h1 jj)
  have hargs : ∀ jj : Fin d, ∀ o : Dist1dArgs, diagArgs rotate rows o 0 jj = { diagPanel (fun i : Fin d => rows.getD i []) rotate o jj with param := 0 } := by
    intro jj o
    have hj := jj.2
    have : ((jj : ℕ) = d - 1) ↔ ((jj : ℕ) + 1 = d) := by omega
    simp only [diagArgs, diagPanel, this]
  refine ⟨fun i => rows.getD i [], ⟨fun he => ?_, ?_, fun jj => ?_, fun jj => (hd jj).2, h2, fun ii jj hij => ?_⟩⟩
  · have := fun i => edges_cover hne he hrows i
    exact ⟨fun i => (this i).1, fun i => (this i).2.1, fun i => (this i).2.2⟩
  · intro l hl hlen i x hx
    obtain ⟨-, ext, -, h4⟩ := C45_edges srt data edges none none 5 1000 none 1 none one_pos rows hrows
    obtain ⟨y, hy, hok⟩ := h4 i (.arr x) (by rw [hl]; exact Or.inl ⟨hlen, hx⟩)
    have : y = x := by simpa [EdgesOk] using hok
    simp [List.getD, hy, this]
  · have := (hd jj).1
    rw [hargs] at this
    exact ⟨this.curve, this.hist, this.bands, this.carpet⟩
  · obtain ⟨o, ho', he⟩ := h3 ii jj hij
    obtain ⟨k, hk, e1, e2, e3, hdist⟩ := dist2dData_eq ho'
    refine ⟨o, he, ⟨k, hk, e1, e2, ?_⟩, ?_, dist2d_components (a := { o2 with edges := panelEdges rows ii jj, quantiles := some (defaultQuantiles quantiles none).1 }) hdist⟩
    · exact C95_partial E srt _ (hr2 ii jj) k { o2 with edges := panelEdges rows ii jj, quantiles := some (defaultQuantiles quantiles none).1 } 0 1 0 1 ho
        (Or.inl rfl) (Or.inl rfl) (Or.inr ⟨rfl, rfl, rfl⟩) o hdist
    · intro P hP
      unfold dist2d at hdist
      split at hdist
      · cases hdist
      obtain ⟨R, hh, sg, levels, qs, mask, -, g2, -, -, -, -, -, g8⟩ := dist2dDraw_ok hdist
      rw [parseEdgesParams_panel g2] at g8
      split at g8
      · rw [hP] at g8
        cases g8
        exact ⟨rfl, rfl⟩
      · rw [hP] at g8
        cases g8

/-- **C107.** A corner plot of data (`Corner.plot_data`) with one set of edges per parameter: the panel on the diagonal shows the data of its parameter with the weights,
the panel in row `ii` and column `jj` below the diagonal those of parameters `jj` (horizontal) and `ii` (vertical); histograms use the shared edges; exactly the requested
components are drawn, and nothing above the diagonal. -/
theorem C107_data (E : Ext) (srt : List ℝ → List ℕ) (auto : List ℝ → ℕ) (r : CornerRnd d) (hr1 : ∀ i, IsChoice (r.sel1 i))
    (hr2 : ∀ i j, IsChoice (r.sel2 i j)) (rotate : Bool) (data : List (Fin d → ℝ)) (weights : Option (List ℝ)) (edges : EdgeArg)
    (quantiles : Option (List ℝ)) (o1 : Dist1dArgs) (o2 : Dist2dArgs) (ho : o2.params = [0, 1]) (out : CornerOut d)
    (h : Corner.plotData E srt auto r rotate data weights edges quantiles o1 o2 = .ok out) :
    ∃ e, DataCorner E srt auto rotate data weights edges (defaultQuantiles quantiles none).1 o1 o2 e out := by
  unfold Corner.plotData at h
  split at h
  · cases h
  rename_i k hk
  exact drawData_panels hr1 hr2 (C16_weights hk).1 (default_stored (weights := weights) hk).2.2.2 ho h

/-- **C107.** The corner plot of the data of a KDE shows its data with its weights. -/
theorem C107_kde (E : Ext) (srt : List ℝ → List ℕ) (auto : List ℝ → ℕ) (r : CornerRnd d) (hr1 : ∀ i, IsChoice (r.sel1 i))
    (hr2 : ∀ i j, IsChoice (r.sel2 i j)) (rotate : Bool) (args : KDEArgs d) (k : KDE d) (hk : KDE.init E args = .ok k) (edges : EdgeArg)
    (quantiles : Option (List ℝ)) (o1 : Dist1dArgs) (o2 : Dist2dArgs) (ho : o2.params = [0, 1]) (out : CornerOut d)
    (h : Corner.plotDataKde E srt auto r rotate k edges quantiles o1 o2 = .ok out) :
    ∃ e, DataCorner E srt auto rotate k.dataset k.weights edges (defaultQuantiles quantiles none).1 o1 o2 e out :=
  drawData_panels hr1 hr2 (dataset_ne hk) (fun _ e => (stored_weights hk e).1) ho h

/-- **C107.** `Corner.plot_data` succeeds for data and weights of which two count and whose parameters all vary, if densities are not asked for (as by default),
with automatic edges or numbers of bins. -/
theorem C107_succeeds (E : Ext) (srt : List ℝ → List ℕ) (hs : ∀ l, IsArgsort (srt l) l) (auto : List ℝ → ℕ) (r : CornerRnd d)
    (hr1 : ∀ i, IsChoice (r.sel1 i)) (hr2 : ∀ i j, IsChoice (r.sel2 i j)) (rotate : Bool) (data : List (Fin d → ℝ)) (weights : Option (List ℝ))
    (h2 : TwoPoints data weights) (hv : ∀ i, Varies data i) (edges : EdgeArg) (hedges : edges = .none ∨ ∃ n : ℤ, 0 < n ∧ edges = .int n)
    (quantiles : Option (List ℝ)) (hq : quantiles ≠ some []) (o1 : Dist1dArgs) (o2 : Dist2dArgs) (ho : CornerArgs r weights o1 o2)
    (h1d : o1.density = none ∨ o1.density = some none) (h2d : o2.contour = false) :
    ∃ out, Corner.plotData E srt auto r rotate data weights edges quantiles o1 o2 = .ok out := by
  obtain ⟨hne, hw, -, -⟩ := covFact_pos h2
  have hvw : ∀ n, n = data.length → ValidWeights n weights := by
    rintro n rfl
    cases weights with
    | none => trivial
    | some w => exact ⟨(hw w rfl).1, (hw w rfl).2.1, validW_sum (hw w rfl)⟩
  obtain ⟨k0, hk0, -⟩ := C110_default E data weights h2
  obtain ⟨rows, hrows⟩ := C45_succeeds srt hs data hne edges (hedges.imp id fun ⟨n, hn, e⟩ => ⟨n, hn.le, e⟩) none trivial 5 1000
    (by norm_num) (by norm_num) none 1 none hv
  have hcov := fun i => edges_cover hne hedges hrows i
  have hdens : o1.density.getD none = none := by rcases h1d with h | h <;> rw [h] <;> rfl
  have g1 : ∀ jj, ∃ o, dist1dData E srt auto (r.sel1 jj) (r.fuzz jj) (r.top jj) false (dataRow data jj) weights
      (diagArgs rotate rows { o1 with quantiles := some (defaultQuantiles quantiles none).1 } 0 jj) = .ok o := by
    intro jj
    obtain ⟨c1, c2, c3⟩ := hcov jj
    unfold dist1dData
    refine dist1dDraw_success hs (hr1 jj) (l := rows.getD jj []) (by simpa [dataRow] using two_of_varies (hv jj))
      (hvw _ (by simp [dataRow])) (fun t ht => ?_) rfl c2 c1 ho.number
      (ho.carpet.imp id fun h => h.imp id fun h => ⟨h.1 jj, h.2⟩)
    exact absurd (hdens.symm.trans ht) (by simp)
  have g2 : ∀ ii jj, jj < ii → ∃ o, dist2dData E srt (r.sel2 ii jj) (data.map fun x => ![x jj, x ii]) weights
      { o2 with edges := panelEdges rows ii jj, quantiles := some (defaultQuantiles quantiles none).1 } = .ok o := by
    intro ii jj hij
    have ht : TwoPoints (data.map fun x => ![x jj, x ii]) weights := by
      cases weights with
      | none => simpa [TwoPoints] using h2
      | some w => simpa [TwoPoints] using h2
    obtain ⟨k, hk, e1, e2, -⟩ := C110_default E _ _ ht
    have e3 := (default_stored hk).2.2.1
    have hk' : KDE.init E { dataset := data.map fun x => ![x jj, x ii], weights := weights.elim .none fun w => .arr (w.map .fin) } = .ok k := hk
    unfold dist2dData
    rw [hk']
    refine dist2dDraw_success hs (hr2 ii jj) (by simpa using hne) (hvw _ (by simp))
      (a := { o2 with edges := panelEdges rows ii jj, quantiles := some (defaultQuantiles quantiles none).1 })
      ⟨ho.scatter, ?_, ho.sigmas⟩ (rows := [rows.getD jj [], rows.getD ii []])
      (by rw [e3]; exact parseEdgesParams_panel_ok (by simpa using hne)) ?_ ?_
      fun h => absurd (h2d.symm.trans h) (by simp)
    · exact fun h => defaultQuantiles_ne hq (s := none) (by simp) (Option.some.inj h)
    · refine ⟨(hcov jj).1, (hcov jj).2.1, fun p hp => ?_⟩
      obtain ⟨x, hx, rfl⟩ := List.mem_map.mp hp
      exact (hcov jj).2.2 x hx
    · refine ⟨(hcov ii).1, (hcov ii).2.1, fun p hp => ?_⟩
      obtain ⟨x, hx, rfl⟩ := List.mem_map.mp hp
      exact (hcov ii).2.2 x hx
  choose f hf using g1
  choose g hg using g2
  have hk0' : KDE.init E { dataset := data, weights := weights.elim .none fun w => .arr (w.map .fin) } = .ok k0 := hk0
  refine ⟨⟨f, fun ii jj => if h : jj < ii then some (g ii jj h) else none⟩, ?_⟩
  unfold Corner.plotData
  rw [hk0']
  unfold Corner.drawData
  simp only [hrows]
  rw [cornerPanels_ok]
  exact ⟨hf, fun ii jj h => dif_neg (not_lt.mpr h), fun ii jj h => ⟨_, hg ii jj h, dif_pos h⟩⟩

/-- Hypotheses of the C107 theorems: three weighted points in the plane and everything drawn as `Corner.plot_data` does by default. -/
example : ∃ (E : Ext) (srt : List ℝ → List ℕ) (auto : List ℝ → ℕ) (r : CornerRnd 3) (out : CornerOut 3),
    (∀ i, IsChoice (r.sel1 i)) ∧ (∀ i j, IsChoice (r.sel2 i j)) ∧ data2dArgs.params = [0, 1] ∧
    Corner.plotData E srt auto r true [![0, 10, 5], ![1, 12, 6], ![1, 13, 7]] (some [1, 2, 1]) .none none data1dArgs data2dArgs = .ok out := by
  obtain ⟨srt, hs⟩ := exists_argsort
  let E : Ext := ⟨fun M => M⁻¹, fun _ => 0⟩
  let r : CornerRnd 3 := ⟨fun _ _ n => List.range n, fun _ _ => 0, fun _ => 1, fun _ _ _ n => List.range n⟩
  obtain ⟨out, ho⟩ := C107_succeeds E srt hs (fun _ => 1) r (fun _ => isChoice_range) (fun _ _ => isChoice_range) true
    [![0, 10, 5], ![1, 12, 6], ![1, 13, 7]] (some [1, 2, 1]) ⟨rfl, by simp, 0, 1, 1, 2, by norm_num, rfl, rfl, by norm_num, by norm_num⟩ (by
      intro i
      refine ⟨_, List.mem_cons_self, _, List.mem_cons_of_mem _ List.mem_cons_self, ?_⟩
      fin_cases i <;> simp) .none (Or.inl rfl) none (by simp) data1dArgs data2dArgs
    ⟨by simp [data2dArgs], by simp [data2dArgs], by simp [data2dArgs], by simp [data1dArgs], Or.inr (Or.inr ⟨fun _ => zero_le_one, by
      intro w e
      cases e
      refine ⟨by simp, Or.inr ?_⟩
      simp
      norm_num⟩)⟩ (Or.inr rfl) rfl
  exact ⟨E, srt, _, r, out, fun _ => isChoice_range, fun _ _ => isChoice_range, rfl, ho⟩

/-! ### C105 for KDEs made from data alone -/

lemma varies_of_cov {P : List ((Fin d → ℝ) × ℝ)} {data : List (Fin d → ℝ)} (hP : ∀ q ∈ P, q.1 ∈ data) (hs : (P.map Prod.snd).sum ≠ 0) {i : Fin d}
    (h : sampleCov P i i ≠ 0) : Varies data i := by
  by_contra hc
  apply h
  have hall : ∀ x ∈ data, ∀ y ∈ data, x i = y i := by
    intro x hx y hy
    by_contra hxy
    exact hc ⟨x, hx, y, hy, hxy⟩
  cases P with
  | nil => simp at hs
  | cons q0 P' =>
    set P := q0 :: P' with hPdef
    have hq : ∀ q ∈ P, q.1 i = q0.1 i := fun q hq => hall _ (hP q hq) _ (hP q0 List.mem_cons_self)
    have hm : Spec.mean P i = q0.1 i := by
      have : (P.map fun q => q.2 * q.1 i) = P.map fun q => q.2 * q0.1 i := List.map_congr_left fun q h => by rw [hq q h]
      rw [Spec.mean, this, List.sum_map_mul_right, mul_comm, mul_div_assoc, div_self hs, mul_one]
    have : (P.map fun q => q.2 * (q.1 i - Spec.mean P i) * (q.1 i - Spec.mean P i)) = P.map fun _ => 0 :=
      List.map_congr_left fun q h => by rw [hq q h, hm]; ring
    simp only [sampleCov, Matrix.of_apply, this]
    simp

/-- **C105.** `Corner(KDE(data, weights=weights)).plot()` succeeds for data which do not lie in a hyperplane (the covariance is not singular) and whose effective
number is at least two, in particular without weights. -/
theorem C105_default (E : Ext) (hE : IsNormalQuantile E.ppf) (srt : List ℝ → List ℕ) (hs : ∀ l, IsArgsort (srt l) l) (auto : List ℝ → ℕ) (r : CornerRnd d)
    (hr1 : ∀ i, IsChoice (r.sel1 i)) (hr2 : ∀ i j, IsChoice (r.sel2 i j)) (rotate : Bool) (data : List (Fin d → ℝ)) (weights : Option (List ℝ))
    (h2 : TwoPoints data weights) (hn : ∀ w, weights = some w → 2 * (w.map (· ^ 2)).sum ≤ w.sum ^ 2)
    (hM : (sampleCov (weighted data weights)).PosDef) (edges : EdgeArg) (hedges : edges = .none ∨ ∃ n : ℤ, 0 < n ∧ edges = .int n)
    (o1 : Dist1dArgs) (o2 : Dist2dArgs) (ho : CornerArgs r weights o1 o2) :
    ∃ k out, KDE.init E (defaultArgs data weights) = .ok k ∧ Corner.plotKde E srt auto r rotate k edges o1 o2 = .ok out := by
  obtain ⟨hne, hw, hf, hn1⟩ := covFact_pos h2
  obtain ⟨k, hk, hdat, hkw, hD, hneff⟩ := C110_default E data weights h2
  have hC : k.covariance = sampleCov (weighted data weights) := by
    rw [(C19_covariance hk rfl).1, hkw]; rfl
  have hv : ∀ i, Varies k.dataset i := by
    intro i
    rw [hdat]
    refine varies_of_cov (P := weighted data weights) ?_ ?_ (hM.diag_pos (i := i)).ne'
    · intro q hq
      cases weights with
      | none =>
        obtain ⟨x, hx, rfl⟩ := List.mem_map.mp hq
        exact hx
      | some w => exact (List.of_mem_zip hq).1
    · have := (weighted_total_pos hk).1
      rw [hkw] at this
      exact this.ne'
  have h2n : 2 ≤ k.neff := by
    have := neff_eq hk rfl
    cases weights with
    | none =>
      rw [this.1 hkw]
      exact_mod_cast h2
    | some w =>
      rw [this.2 w hkw, le_div_iff₀ (sum_sq_pos (validW_sum (hw w rfl)))]
      exact hn w rfl
  have hb : ∀ i, k.bandwidth i i ≠ 0 := by
    intro i
    obtain ⟨B, ⟨b, ⟨hb0, hb | hb⟩, hB⟩, hR⟩ := C18_bandwidth hk
    swap
    · exact absurd hb.1 (by decide)
    have hkb : k.bandwidth = B := hR
    rw [hkb, hB, if_neg (by simp), hb.2]
    positivity
  have hMk : (Spec.kernelMatrix k.covariance k.bandwidth).PosDef := by
    rw [← (C18_matrix hk).1]
    exact (C19_kernel_matrix hk (Or.inr (Or.inl rfl)) (by rintro C ⟨⟩)).2.2.2 (by rw [hC]; exact hM) hb
  have hx : ∀ i, (k.extrema i).1 < (k.extrema i).2 := by
    intro i
    have he := C109_partial hE hk rfl rfl (Or.inr h2n) i
    obtain ⟨x, hx, y, hy, hxy⟩ := hv i
    rcases lt_or_gt_of_ne hxy with h | h
    · exact lt_of_le_of_lt (he x hx).1 (lt_of_lt_of_le h (he y hy).2)
    · exact lt_of_le_of_lt (he y hy).1 (lt_of_lt_of_le h (he x hx).2)
  obtain ⟨out, hout⟩ := C105_succeeds E srt hs auto r hr1 hr2 rotate _ k hk rfl rfl (by simp [defaultArgs]) hMk hx hv edges hedges o1 o2 (by rw [hkw]; exact ho)
  exact ⟨k, out, hk, hout⟩

/-- Hypotheses of `C105_default`: the data `(0, 0), (1, 0), (0, 1)`. -/
example : TwoPoints (d := 2) [![0, 0], ![1, 0], ![0, 1]] none ∧ (sampleCov (weighted (α := Fin 2 → ℝ) [![0, 0], ![1, 0], ![0, 1]] none)).PosDef := by
  refine ⟨by simp [TwoPoints], ?_⟩
  have : sampleCov (weighted (α := Fin 2 → ℝ) [![0, 0], ![1, 0], ![0, 1]] none) = !![1 / 3, -1 / 6; -1 / 6, 1 / 3] := by
    ext i j
    fin_cases i <;> fin_cases j <;> simp [sampleCov, weighted, Spec.mean] <;> norm_num
  rw [this]
  refine Matrix.PosDef.of_dotProduct_mulVec_pos ?_ ?_
  · ext i j
    fin_cases i <;> fin_cases j <;> simp
  · intro x hx
    have : x 0 ≠ 0 ∨ x 1 ≠ 0 := by
      by_contra h
      push Not at h
      apply hx
      funext i
      fin_cases i
      · exact h.1
      · exact h.2
    simp [Matrix.mulVec, dotProduct, Fin.sum_univ_two]
    rcases this with h | h
    · nlinarith [sq_nonneg (x 0 - x 1), sq_nonneg (x 0 - 2 * x 1), sq_nonneg (x 1), pow_pos (abs_pos.mpr h) 2, sq_abs (x 0), sq_nonneg (x 0 - x 1)]
    · nlinarith [sq_nonneg (x 0 - x 1), sq_nonneg (x 1 - 2 * x 0), sq_nonneg (x 0), pow_pos (abs_pos.mpr h) 2, sq_abs (x 1), sq_nonneg (x 0 - x 1)]

/-! ### C108 -/

/-- **C108** as claimed: `corner(data, weights=weights)` draws the data with these weights. -/
def C108_Claim : Prop := ∀ (D W : Type) (data : D) (weights : Option W), cornerFunction (.data data) none weights = .ok (data, weights)

/-- **C108**, proved part: without the argument `weights`, data are drawn with the weights given in `kwcorner` (if any), and KDEs with their own. -/
theorem C108_partial {D W : Type*} (data : D) (w : Option W) :
    cornerFunction (.data data) w none = .ok (data, w) ∧ cornerFunction (.kde data w) none none = .ok (data, w) := ⟨rfl, rfl⟩

/-- **C108**, exactly what happens otherwise: with the argument `weights` the function always fails. -/
theorem C108_fails {D W : Type*} (kd : KdeData D W) (cw : Option W) (w : W) : cornerFunction kd cw (some w) = .error .valueError := by
  cases kd with
  | data x => rfl
  | kde x v => cases cw <;> rfl

theorem C108_refuted : ¬ C108_Claim := by
  intro h
  have := h Unit Unit () (some ())
  rw [C108_fails] at this
  cases this

end Kalepy
