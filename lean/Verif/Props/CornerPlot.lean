import Verif.Model.CornerPlot
import Verif.Props.Dist1d
import Verif.Props.Contour
import Verif.Props.Distribution

/-!
# C104, C105: the panels of corner plots
-/

namespace Kalepy

open Spec MeasureTheory

variable {d : ℕ}

/-! ### specification -/

/-- The edges cover the data: increasing, at least two, and every datum lies between the first and the last one. -/
structure Spec.Covers (edges : Fin d → List ℝ) (data : List (Fin d → ℝ)) : Prop where
  increasing : ∀ i, (edges i).Pairwise (· < ·)
  two : ∀ i, 2 ≤ (edges i).length
  range : ∀ i, ∀ x ∈ data, InRangeOf (edges i) (x i)

/-- The arguments of the diagonal panel of parameter `jj` of a corner plot: the edges of this parameter; only the last panel may be rotated. -/
def Spec.diagPanel (edges : Fin d → List ℝ) (rotate : Bool) (o : Dist1dArgs) (jj : Fin d) : Dist1dArgs :=
  { o with
    edges := .arr (edges jj)
    param := jj
    rotate := rotate && decide ((jj : ℕ) + 1 = d) }

/-! ### proofs -/

lemma cornerPanels_ok {diag : Fin d → Res Dist1dOut} {panel : Fin d → Fin d → Res Dist2dOut} {out : CornerOut d} :
    cornerPanels diag panel = .ok out ↔ (∀ jj, diag jj = .ok (out.diag jj)) ∧ (∀ ii jj, ii ≤ jj → out.panel ii jj = none) ∧
      ∀ ii jj, jj < ii → ∃ o, panel ii jj = .ok o ∧ out.panel ii jj = some o := by
  unfold cornerPanels
  constructor
  · intro h
    split at h
    · cases h
    rename_i dg h1
    split at h
    · cases h
    rename_i pn h2
    cases h
    rw [finSeq_ok] at h1 h2
    refine ⟨h1, fun ii jj hij => ?_, fun ii jj hij => ?_⟩
    · have := h2 ii
      rw [finSeq_ok] at this
      have := this jj
      rw [if_pos hij] at this
      exact (Except.ok.inj this).symm
    · have := h2 ii
      rw [finSeq_ok] at this
      have := this jj
      rw [if_neg (not_le.mpr hij)] at this
      cases hp : panel ii jj with
      | error e => rw [hp] at this; cases this
      | ok o =>
        rw [hp] at this
        exact ⟨o, rfl, (Except.ok.inj this).symm⟩
  · rintro ⟨h1, h2, h3⟩
    rw [finSeq_ok.mpr h1]
    have : (finSeq fun ii => finSeq fun jj => if ii ≤ jj then .ok none else (panel ii jj).map some) = .ok out.panel := by
      rw [finSeq_ok]
      intro ii
      rw [finSeq_ok]
      intro jj
      by_cases hij : ii ≤ jj
      · rw [if_pos hij, h2 ii jj hij]
      · obtain ⟨o, ho, he⟩ := h3 ii jj (not_le.mp hij)
        rw [if_neg hij, ho, he]
        rfl
    simp only [this]

lemma diagArgs_eq (rotate : Bool) (rows : List (List ℝ)) (o : Dist1dArgs) (jj : Fin d) :
    diagArgs rotate rows o jj jj = diagPanel (fun i => rows.getD i []) rotate o jj := by
  have hj := jj.2
  have : ((jj : ℕ) = d - 1) ↔ ((jj : ℕ) + 1 = d) := by omega
  simp only [diagArgs, diagPanel, this]

lemma edgeSpecs_panel (rows : List (List ℝ)) (ii jj : Fin d) :
    edgeSpecs 2 (panelEdges rows ii jj) = .ok [.arr (rows.getD jj []), .arr (rows.getD ii [])] := by
  simp [edgeSpecs, panelEdges, EdgeSpec.scalar]

/-- Given edges are used as they are. -/
lemma parseEdgesParams_panel {srt : List ℝ → List ℕ} {data : List (Fin 2 → ℝ)} {rows : List (List ℝ)} {ii jj : Fin d} {reflect : Option (List ReflRow)}
    {params : List ℤ} {R : List (List ℝ)} (h : parseEdgesParams srt data (panelEdges rows ii jj) reflect params = .ok R) :
    R = [rows.getD jj [], rows.getD ii []] := by
  have key : ∀ {ext}, parseEdges srt data (panelEdges rows ii jj) ext none 5 1000 none 1 none = .ok R → R = [rows.getD jj [], rows.getD ii []] := by
    intro ext h
    unfold parseEdges at h
    rw [edgeSpecs_panel] at h
    split at h
    · cases h
    split at h
    · cases h
    rename_i hh
    cases hh
    split at h
    · cases h
    rename_i f hf
    cases h
    rw [finSeq_ok] at hf
    have h0 := hf 0
    have h1 := hf 1
    simp [getEdges1d] at h0 h1
    simp [← h0, ← h1]
  unfold parseEdgesParams at h
  cases reflect with
  | none => exact key h
  | some r =>
    simp only at h
    split at h
    · exact key h
    · split at h
      · cases h
      rw [edgeSpecs_panel] at h
      simp only at h
      split at h
      · cases h
      rename_i f hf
      cases h
      rw [finSeq_ok] at hf
      have h0 := hf 0
      have h1 := hf 1
      simp [rawEdges1d] at h0 h1
      simp [← h0, ← h1]

lemma dist2d_components {E : Ext} {srt : List ℝ → List ℕ} {sel : ℕ → ℕ → List ℕ} {k : KDE d} {a : Dist2dArgs} {out : Dist2dOut}
    (h : dist2d E srt sel k a = .ok out) : (out.scatter = none ↔ a.scatter = .no ∨ a.scatter = .none) ∧ out.lines.isSome = a.median ∧
      out.hist.isSome = a.hist ∧ out.contour.isSome = a.contour := by
  unfold dist2d at h
  split at h
  · cases h
  obtain ⟨rows, hh, sg, levels, qs, mask, h1, h2, h3, h4, h5, h6, h7, h8⟩ := dist2dDraw_ok h
  refine ⟨?_, ?_, ?_, ?_⟩
  · unfold scatterPoints at h1
    cases hs : a.scatter with
    | yes => rw [hs] at h1; simp only [scatterLimit] at h1; have := Except.ok.inj h1; simp [← this]
    | no => rw [hs] at h1; simp only [scatterLimit] at h1; have := Except.ok.inj h1; simp [← this]
    | none => rw [hs] at h1; simp only [scatterLimit] at h1; have := Except.ok.inj h1; simp [← this]
    | num x =>
      rw [hs] at h1
      by_cases hx : pyInt x < 1
      · simp only [scatterLimit, if_pos hx] at h1; cases h1
      · simp only [scatterLimit, if_neg hx] at h1; have := Except.ok.inj h1; simp [← this]
  · rcases optional_ok h6 with ⟨a1, a2⟩ | ⟨x, a1, a2, a3⟩ <;> simp [*]
  · rw [h8]; cases a.hist <;> rfl
  · rcases optional_ok h7 with ⟨a1, a2⟩ | ⟨x, a1, a2, a3⟩ <;> simp [*]

/-! ### C104 -/

/-- **C104.** A corner plot of a KDE has one set of edges per parameter, shared by its row, its column and the diagonal; automatic edges and
numbers of bins cover the data.  The panel of parameter `jj` on the diagonal shows this parameter, upright except for the last panel with `rotate`; the panel in row
`ii` and column `jj` below the diagonal shows parameter `jj` along the horizontal and `ii` along the vertical axis, its histogram with the shared edges.
Exactly the requested components are drawn, and nothing above the diagonal. -/
theorem C104_panels (E : Ext) (srt : List ℝ → List ℕ) (auto : List ℝ → ℕ) (r : CornerRnd d) (hr1 : ∀ i, IsChoice (r.sel1 i))
    (hr2 : ∀ i j, IsChoice (r.sel2 i j)) (rotate : Bool) (args : KDEArgs d) (k : KDE d) (hk : KDE.init E args = .ok k) (edges : EdgeArg)
    (o1 : Dist1dArgs) (o2 : Dist2dArgs) (out : CornerOut d) (h : Corner.plotKde E srt auto r rotate k edges o1 o2 = .ok out) :
    ∃ e : Fin d → List ℝ,
      ((edges = .none ∨ ∃ n : ℤ, 0 < n ∧ edges = .int n) → Covers e k.dataset) ∧
      (∀ l, edges = .list l → l.length = d → ∀ (i : Fin d) (x : List ℝ), l[(i : ℕ)]? = some (.arr x) → e i = x) ∧
      (∀ jj, Shows1d E srt auto k jj (diagPanel e rotate o1 jj) ((o1.density.getD (some 1)).getD 0) (out.diag jj) ∧
        ((out.diag jj).curve = none ↔ o1.density = some none) ∧ (out.diag jj).hist.isSome = o1.hist.getD false ∧
        (out.diag jj).bands.isSome = o1.confidence ∧ ((out.diag jj).carpet = none ↔ o1.carpet = .no ∨ o1.carpet = .none)) ∧
      (∀ ii jj, ii ≤ jj → out.panel ii jj = none) ∧
      ∀ ii jj, jj < ii → ∃ p, out.panel ii jj = some p ∧ Shows2d E srt k jj ii (padNumber o2.pad) p ∧
        (∀ P, p.hist = some P → P.x = e jj ∧ P.y = e ii) ∧
        (p.scatter = none ↔ o2.scatter = .no ∨ o2.scatter = .none) ∧ p.lines.isSome = o2.median ∧
        p.hist.isSome = o2.hist ∧ p.contour.isSome = o2.contour := by
  unfold Corner.plotKde at h
  split at h
  · cases h
  rename_i rows hrows
  rw [cornerPanels_ok] at h
  obtain ⟨h1, h2, h3⟩ := h
  have hne := dataset_ne hk
  refine ⟨fun i => rows.getD i [], fun he => ?_, ?_, fun jj => ?_, h2, fun ii jj hij => ?_⟩
  · have := fun i => edges_cover hne he hrows i
    exact ⟨fun i => (this i).1, fun i => (this i).2.1, fun i => (this i).2.2⟩
  · intro l hl hlen i x hx
    obtain ⟨-, ext, -, h4⟩ := C45_edges srt k.dataset edges none none 5 1000 none 1 none one_pos rows hrows
    obtain ⟨y, hy, hok⟩ := h4 i (.arr x) (by rw [hl]; exact Or.inl ⟨hlen, hx⟩)
    have : y = x := by simpa [EdgesOk] using hok
    simp [List.getD, hy, this]
  · have := h1 jj
    rw [diagArgs_eq] at this
    exact C100_components E srt auto _ (hr1 jj) _ _ k (fun w e => (stored_weights hk e).1) _ jj (Or.inl rfl) _ this
  · obtain ⟨o, ho, he⟩ := h3 ii jj hij
    refine ⟨o, he, ?_, ?_,
      dist2d_components (a := { o2 with edges := panelEdges rows ii jj, params := [(jj : ℤ), (ii : ℤ)] }) ho⟩
    · refine C95_partial E srt _ (hr2 ii jj) k { o2 with edges := panelEdges rows ii jj, params := [(jj : ℤ), (ii : ℤ)] } jj ii jj ii rfl
        (Or.inl rfl) (Or.inl rfl) ?_ o ho
      have := ii.2
      have : (jj : ℕ) < ii := hij
      omega
    · intro P hP
      unfold dist2d at ho
      split at ho
      · cases ho
      obtain ⟨R, hh, sg, levels, qs, mask, -, e2, -, -, -, -, -, e8⟩ := dist2dDraw_ok ho
      rw [parseEdgesParams_panel e2] at e8
      split at e8
      · rw [hP] at e8
        cases e8
        exact ⟨rfl, rfl⟩
      · rw [hP] at e8
        cases e8

/-! ### success: the contours -/

/-- The default points: increasing, at least two in each parameter. -/
lemma default_points {E : Ext} {a : KDEArgs d} {k : KDE d} (h : KDE.init E a = .ok k) {srt : List ℝ → List ℕ}
    (hs : ∀ l, IsArgsort (srt l) l) (hd : 0 < d) (hp : a.points = .none) (hsq : a.squeeze = true → d = 1)
    (hx : ∀ i, (k.extrema i).1 < (k.extrema i).2) :
    ∃ pts, (k.points srt).1 = .ok pts ∧ ∀ i : Fin d, (pts.toRows.getD i []).Pairwise (· < ·) ∧ 2 ≤ (pts.toRows.getD i []).length := by
  have hne := (C16_weights h).1
  obtain ⟨_, _, _, _, _, _, _, _, _, _, _, _, _, _, _, _, _, _, hk⟩ := init_inv h
  have hk1 : k.pointsVal = none := by rw [hk]
  have hk2 : k.pointsSpec = .none := by rw [hk, hp]
  have hk3 : k.dataset = a.dataset := by rw [hk]
  have hk4 : k.squeeze = a.squeeze := by rw [hk]
  obtain ⟨ext, e1, e2⟩ := parseExtremaOf_extremaList hd hne k.extrema
  have hw : ValidWeights k.dataset.length k.weights := by
    cases hkw : k.weights with
    | none => trivial
    | some w =>
      have := stored_valid h hkw
      exact ⟨by rw [hk3]; exact this.1, this.2.1, validW_sum this⟩
  obtain ⟨rows, hrows⟩ := C45_succeeds_extrema srt hs k.dataset (by rw [hk3]; exact hne) .none (Or.inl rfl)
    (some (extremaList k.extrema)) k.weights hw 3 200 (by norm_num) (by norm_num) (some 0) (Real.sqrt 10)
    (some k.bandwidth) ext (by rw [hk3]; exact e1) (fun i => by rw [e2]; exact hx i)
  refine ⟨k.shapePoints rows, by simp only [KDE.points, hk1, KDE.computePoints, hk2, hrows], fun i => ?_⟩
  obtain ⟨hlen, ext', hext, hall⟩ := C45_edges srt _ _ _ _ _ _ _ _ _ (by positivity) _ hrows
  obtain ⟨l, hl, n, w, hn1, hn2, hw, hsp⟩ := hall i .auto rfl
  have hn : 0 < n := lt_of_lt_of_le (by norm_num) (hn2 (by norm_num))
  have hsp := hsp hn
  simp only [Option.getD_some, zero_mul, sub_zero, add_zero] at hsp
  have hexteq : ext' i = k.extrema i := by
    rw [parseExtremaOf] at hext
    split at hext
    · cases hext
    · exact parseExtremaList_extremaList hext i
  rw [hexteq] at hsp
  obtain ⟨h1, -, -⟩ := equallySpaced_increasing hsp (by omega) (hx i)
  have hl2 : 2 ≤ l.length := by rw [hsp.1]; omega
  have : (k.shapePoints rows).toRows.getD i [] = l := by
    unfold KDE.shapePoints
    rw [hk4]
    split
    · rename_i hs
      have := hsq hs
      subst this
      have hi : (i : ℕ) = 0 := by omega
      rw [hi] at hl ⊢
      simp [Pts.toRows, List.getD, hl]
    · simp [Pts.toRows, List.getD, hl]
  rw [this]
  exact ⟨h1, hl2⟩

/-- The density of two parameters exists everywhere and is not negative. -/
lemma pair_density {E : Ext} {args : KDEArgs d} {k : KDE d} (hk : KDE.init E args = .ok k) (srt : List ℝ → List ℕ) (hr : args.reflect = .none)
    (hM : (Spec.kernelMatrix k.covariance k.bandwidth).PosDef) {i j : Fin d} (hij : i ≠ j) :
    ∃ F : ℝ → ℝ → ℝ, (∀ a b, 0 ≤ F a b) ∧ (∀ a b, (k.density E srt (some (.rows [[a], [b]])) .none (.list [(i : ℤ), (j : ℤ)]) false false).1 =
      .ok (.rows [[a], [b]], ⟨[1], [F a b]⟩)) ∧
      ∃ c, 0 < c ∧ ∀ a b, F a b = Spec.kernelSum k.kernel.dist ((Spec.kernelMatrix k.covariance k.bandwidth).submatrix [i, j].get [i, j].get)
            (Spec.weighted (args.dataset.map (Spec.project [i, j])) k.weights) ![a, b] * c := by
  have hd : d ≠ 1 := by
    rintro rfl
    exact hij (Subsingleton.elim _ _)
  have hinj : Function.Injective [i, j].get := by
    intro a b h
    fin_cases a <;> fin_cases b <;> simp_all
  have hM' := hM.submatrix hinj
  obtain ⟨hw, hw0⟩ := weighted_total_pos hk
  have hT0 : 0 < k.totalWeight := by
    cases hkw : k.weights with
    | none => simpa [KDE.totalWeight, hkw] using List.length_pos_iff.mpr (dataset_ne hk)
    | some w => simpa [KDE.totalWeight, hkw] using (stored_weights hk hkw).2.2
  refine ⟨fun a b => Spec.kernelSum k.kernel.dist ((Spec.kernelMatrix k.covariance k.bandwidth).submatrix [i, j].get [i, j].get)
            (Spec.weighted (args.dataset.map (Spec.project [i, j])) k.weights) ![a, b]
          / (Real.sqrt ((Spec.kernelMatrix k.covariance k.bandwidth).submatrix [i, j].get [i, j].get).det
              * k.kernel.dist.norm [i, j].length)
          / ((Spec.weighted args.dataset k.weights).map Prod.snd).sum * k.totalWeight, fun a b => ?_, fun a b => ?_,
    1 / (Real.sqrt ((Spec.kernelMatrix k.covariance k.bandwidth).submatrix [i, j].get [i, j].get).det
              * k.kernel.dist.norm [i, j].length) / ((Spec.weighted args.dataset k.weights).map Prod.snd).sum * k.totalWeight, ?_, fun a b => by ring⟩
  · refine mul_nonneg (div_nonneg (div_nonneg ?_ (mul_nonneg (Real.sqrt_nonneg _) (Dist.norm_pos _ _ (by simp)).le)) hw.le) hT0.le
    refine List.sum_nonneg fun y hy => ?_
    obtain ⟨p, hp, rfl⟩ := List.mem_map.mp hy
    refine mul_nonneg ?_ (shape_nonneg' _ _)
    have : ∃ p' ∈ Spec.weighted args.dataset k.weights, p'.2 = p.2 := by
      cases hkw : k.weights with
      | none =>
        rw [hkw] at hp
        simp only [Spec.weighted, List.mem_map] at hp ⊢
        obtain ⟨_, ⟨x, hx, rfl⟩, rfl⟩ := hp
        exact ⟨_, ⟨x, hx, rfl⟩, rfl⟩
      | some w =>
        rw [hkw] at hp
        simp only [Spec.weighted, List.zip_map_left, List.mem_map] at hp ⊢
        obtain ⟨x, hx, rfl⟩ := hp
        exact ⟨x, hx, rfl⟩
    obtain ⟨p', hp', e⟩ := this
    rw [← e]
    exact hw0 p' hp'
  · have := C10_params_density hk srt hd hr [i, j] (by simp) hM' [] [![a, b]]
    rw [List.foldl_nil] at this
    have e : rowsOf (m := [i, j].length) [![a, b]] = [[a], [b]] := by simp [rowsOf, List.ofFn_succ]
    rw [e] at this
    have h2 := density_unnormalised hT0.ne' this
    simpa [paramList] using h2
  · exact mul_pos (div_pos (div_pos one_pos (mul_pos (Real.sqrt_pos.mpr hM'.det_pos) (Dist.norm_pos _ _ (by simp)))) hw) hT0

/-- The contours of a KDE on given points, and the array that is padded and drawn: the density of the two parameters. -/
lemma kdeContour_grid {E : Ext} {k : KDE d} {srt : List ℝ → List ℕ} (hs : ∀ l, IsArgsort (srt l) l) {i j : Fin d} (hij : i ≠ j) {pt : Pts} (hpt : (k.points srt).1 = .ok pt)
    (hgrid : ∀ i : Fin d, (pt.toRows.getD i []).Pairwise (· < ·) ∧ 2 ≤ (pt.toRows.getD i []).length)
    {F : ℝ → ℝ → ℝ} (hF0 : ∀ a b, 0 ≤ F a b)
    (hF : ∀ a b, (k.density E srt (some (.rows [[a], [b]])) .none (.list [(i : ℤ), (j : ℤ)]) false false).1 = .ok (.rows [[a], [b]], ⟨[1], [F a b]⟩))
    (qs : List ℝ) (pad : PadArg) : ∃ C v z, kdeContour E srt k [(i : ℤ), (j : ℤ)] qs pad = .ok C ∧ PaddedBy (padNumber pad) v z C.z ∧
      (0 < padNumber pad → (∃ idx, ValidIdx z.shape idx ∧ z.get idx = v) ∧ ∀ idx, ValidIdx z.shape idx → v ≤ z.get idx) ∧
      z.shape = ![(pt.toRows.getD i []).length, (pt.toRows.getD j []).length] ∧
      ∀ idx, ValidIdx z.shape idx → z.get idx = F ((pt.toRows.getD i []).getD (idx 0) 0) ((pt.toRows.getD j []).getD (idx 1) 0) := by
  have hd : d ≠ 1 := by
    rintro rfl
    exact hij (Subsingleton.elim _ _)
  have h2 : List.Forall₂ Names [(i : ℤ), (j : ℤ)] [i, j] := .cons (Or.inl rfl) (.cons (Or.inl rfl) .nil)
  have hden := C83_default_points_params E srt k hd pt hpt _ (by simp) [i, j] h2 .none false false
  have hg : decide (1 < [(i : ℤ), (j : ℤ)].length) = true := by simp
  rw [hg] at hden
  set x := pt.toRows.getD i [] with hxdef
  set y := pt.toRows.getD j [] with hydef
  obtain ⟨x1, x2⟩ := hgrid i
  obtain ⟨y1, y2⟩ := hgrid j
  rw [← hxdef] at x1 x2
  rw [← hydef] at y1 y2
  -- the density on the grid
  obtain ⟨arr, harr⟩ : ∃ arr, (k.density E srt (some (.rows [x, y])) .none (.list [(i : ℤ), (j : ℤ)]) true false).1 = .ok (.rows [x, y], arr) := by
    obtain ⟨o, ho⟩ := density_rows E srt k .none (.list [(i : ℤ), (j : ℤ)]) false
    obtain ⟨f, sq, hok⟩ : ∃ f sq, o 2 = .ok (f, sq) := by
      rcases ho [[0], [0]] false with ⟨e, e1, e', e2⟩ | ⟨f, sq, e1, _⟩
      · rw [hF 0 0] at e2
        cases e2
      · exact ⟨f, sq, e1⟩
    rcases ho [x, y] true with ⟨e, e1, _⟩ | ⟨f', sq', e1, e2, e3⟩
    · have e1 : o 2 = .error e := e1
      rw [hok] at e1
      cases e1
    · obtain ⟨c, hc, -⟩ := toCols_eq (rows := meshRows [x, y]) (n := ∏ i, ([x, y].get i).length) (by simp [meshRows]) (by
        intro r hr
        simp only [meshRows, List.mem_ofFn] at hr
        obtain ⟨i, rfl⟩ := hr
        rw [NDArr.flat_length]
        rfl)
      rw [if_pos rfl, hc] at e3
      have h1 := e3
      simp only [Except.map] at h1
      set res := packResult ⟨.rows [x, y], true, sq'⟩ (c.cols.map fun x => f' (List.ofFn x)) with hres
      have := (C15_grid E srt k [x, y] .none (.list [(i : ℤ), (j : ℤ)]) (by simp) false res.1 res.2 (by rw [h1])).1
      exact ⟨res.2, by rw [h1, ← this]⟩
  obtain ⟨-, g2, g3, g4⟩ := C15_grid E srt k [x, y] .none (.list [(i : ℤ), (j : ℤ)]) (by simp) false _ arr harr
  simp only [List.map_cons, List.map_nil] at g2
  have hsh : arr.mat.shape = ![x.length, y.length] := by simp [Arr.mat, g2]
  have hvals : ∀ idx, ValidIdx arr.mat.shape idx → arr.mat.get idx = F (x.getD (idx 0) 0) (y.getD (idx 1) 0) := by
    intro idx hv
    rw [hsh] at hv
    obtain ⟨v, v1, v2⟩ := g4 idx (by
      intro i
      have := hv i
      fin_cases i <;> exact this)
    have hval : arr.mat.get idx = v := by
      have : arr.mat.get idx = arr.vals.getD (ravelIdx ![arr.shape.getD 0 0, arr.shape.getD 1 0] idx) 0 := rfl
      rw [this, g2]
      have es : (![[x.length, y.length].getD 0 0, [x.length, y.length].getD 1 0] : Fin 2 → ℕ) = fun i : Fin 2 => ([x, y].get i).length := by
        funext i
        fin_cases i <;> rfl
      rw [es, List.getD_eq_getElem?_getD]
      have v1' : arr.vals[ravelIdx (fun i : Fin 2 => ([x, y].get i).length) idx]? = some v := v1
      rw [v1']
      rfl
    rw [hval]
    have e : gridPoint [x, y] idx = [[x.getD (idx 0) 0], [y.getD (idx 1) 0]] := by
      simp [gridPoint, List.ofFn_succ]
    rw [e, hF] at v2
    have := congrArg (fun r : Res (Pts × Arr) => match r with | .ok r => r.2.vals.getD 0 0 | .error _ => 0) v2
    simp at this
    exact this.symm
  obtain ⟨C, v, _, _, hC, h3, h4, _⟩ := drawContour2d_success hs x1 y1 x2 y2 (z := arr.mat) (fun idx hv => by
    rw [hvals idx hv]
    exact hF0 _ _) (Or.inl hsh) (some qs) pad
  refine ⟨C, v, arr.mat, ?_, h3, h4, hsh, hvals⟩
  unfold kdeContour
  rw [hden]
  simp only [List.map_cons, List.map_nil]
  rw [← hxdef, ← hydef, harr]
  exact hC

/-- The contours of a KDE can be drawn. -/
lemma kdeContour_success {E : Ext} {args : KDEArgs d} {k : KDE d} (hk : KDE.init E args = .ok k) {srt : List ℝ → List ℕ}
    (hs : ∀ l, IsArgsort (srt l) l) (hr : args.reflect = .none) (hp : args.points = .none) (hsq : args.squeeze = true → d = 1)
    (hM : (Spec.kernelMatrix k.covariance k.bandwidth).PosDef) (hx : ∀ i, (k.extrema i).1 < (k.extrema i).2) {i j : Fin d} (hij : i ≠ j)
    (qs : List ℝ) (pad : PadArg) : ∃ C, kdeContour E srt k [(i : ℤ), (j : ℤ)] qs pad = .ok C := by
  obtain ⟨pt, hpt, hgrid⟩ := default_points hk hs (by have := i.2; omega) hp hsq hx
  obtain ⟨F, hF0, hF, -⟩ := pair_density hk srt hr hM hij
  obtain ⟨C, _, _, hC, _⟩ := kdeContour_grid hs hij hpt hgrid hF0 hF qs pad
  exact ⟨C, hC⟩

/-! ### C105 -/

/-- The arguments of a corner plot: numbers of points of at least one, quantiles, and if points are drawn on the diagonal, the upper limits
of the axes are not negative and the weights are not too different (see C92). -/
structure Spec.CornerArgs (r : CornerRnd d) (weights : Option (List ℝ)) (o1 : Dist1dArgs) (o2 : Dist2dArgs) : Prop where
  scatter : ∀ x, o2.scatter = .num x → 1 ≤ x
  quantiles : o2.quantiles ≠ some []
  sigmas : o2.sigmas ≠ some []
  number : ∀ x, o1.carpet = .num x → 1 ≤ x
  carpet : o1.carpet = .no ∨ o1.carpet = .none ∨ (∀ i, 0 ≤ r.top i) ∧ ∀ w, weights = some w →
    (∀ x ∈ w, 0 < x) ∧ ((∀ x ∈ w, 1 < x) ∨ ∀ x ∈ w, ∀ y ∈ w, x ≤ 10 * y)

/-- The components on the diagonal can be drawn. -/
lemma dist1dDraw_success {srt : List ℝ → List ℕ} (hs : ∀ l, IsArgsort (srt l) l) {auto : List ℝ → ℕ} {sel : ℕ → ℕ → List ℕ} (hsel : IsChoice sel)
    {fuzz : ℕ → ℝ} {top : ℝ} {data : List ℝ} (h2 : 2 ≤ data.length) {weights : Option (List ℝ)} (hw : ValidWeights data.length weights)
    {mkCurve : ℝ → Res (List (ℝ × ℝ))} {dens : Option ℝ} (hc : ∀ s, dens = some s → ∃ c, mkCurve s = .ok c) {hist : Bool} {a : Dist1dArgs} {l : List ℝ}
    (he : a.edges = .arr l) (hl2 : 2 ≤ l.length) (hl : l.Pairwise (· < ·)) (hnum : ∀ x, a.carpet = .num x → 1 ≤ x)
    (hcarpet : a.carpet = .no ∨ a.carpet = .none ∨ 0 ≤ top ∧ ∀ w, weights = some w →
      (∀ x ∈ w, 0 < x) ∧ ((∀ x ∈ w, 1 < x) ∨ ∀ x ∈ w, ∀ y ∈ w, x ≤ 10 * y)) :
    ∃ out, dist1dDraw srt auto sel fuzz top false data weights mkCurve dens hist a = .ok out := by
  have hne : data ≠ [] := by
    rintro rfl
    simp at h2
  obtain ⟨limit, hlim, hlim0⟩ : ∃ limit, scatterLimit a.carpet = .ok limit ∧ ∀ n, limit = .num n → 0 < n := by
    cases hca : a.carpet with
    | yes => exact ⟨_, rfl, by simp⟩
    | no => exact ⟨_, rfl, by simp⟩
    | none => exact ⟨_, rfl, by simp⟩
    | num x =>
      have hx := hnum x hca
      have h1 : ¬ pyInt x < 1 := by
        rw [pyInt_of_nonneg (by linarith)]
        have := Nat.one_le_floor_iff x |>.mpr hx
        omega
      exact ⟨_, by simp only [scatterLimit, if_neg h1]; rfl, fun n hn => by cases hn; omega⟩
  obtain ⟨curve, hcurve⟩ : ∃ c, withArg dens mkCurve = .ok c := by
    cases hd : dens with
    | none => exact ⟨none, rfl⟩
    | some s =>
      obtain ⟨c, e⟩ := hc s hd
      exact ⟨some c, by simp [withArg, e, Except.map]⟩
  obtain ⟨h, hhist⟩ : ∃ h, (withArg (if hist then some () else none) fun _ => hist1d auto false data
      { edges := a.edges, weights := weights, density := true, probability := a.probability, rotate := a.rotate }) = .ok h := by
    cases hist with
    | false => exact ⟨none, rfl⟩
    | true =>
      obtain ⟨r, e⟩ := (C98_partial (fun _ => 1) false data hne le_rfl weights hw (.arr l) ⟨hl2, hl⟩ true a.probability true a.rotate).2.2
        (by simp) (by simp)
      have e' : hist1d auto false data { edges := a.edges, weights := weights, density := true, probability := a.probability, rotate := a.rotate } = .ok r := by
        rw [he]
        exact e
      exact ⟨some r, by simp [withArg, e', Except.map]⟩
  obtain ⟨bands, hbands⟩ : ∃ b, (withArg (if a.confidence then some () else none) fun _ =>
      dist1dConfidence srt data weights (defaultQuantiles a.quantiles none).1 a.rotate) = .ok b := by
    cases a.confidence with
    | false => exact ⟨none, rfl⟩
    | true =>
      obtain ⟨cdf, sorted, g1, _, _, _, _, g2, _⟩ := confidenceGrid_spec srt data none (hs _) h2
      exact ⟨_, by simp only [if_true, withArg, dist1dConfidence, confidence_eq g1 g2]; rfl⟩
  have key : limit = .none ∨ ∃ r, carpet srt sel fuzz data weights top { limit := limit, rotate := a.rotate } = .ok r := by
    rcases hcarpet with h | h | ⟨h, h'⟩
    · rw [h] at hlim; exact Or.inl (Except.ok.inj hlim).symm
    · rw [h] at hlim; exact Or.inl (Except.ok.inj hlim).symm
    · refine Or.inr (C92_partial srt hs sel hsel fuzz data hne weights (fun w e => ⟨?_, h' w e⟩) top _ hlim0 (Or.inr ⟨rfl, h⟩))
      rw [e] at hw
      exact hw.1
  unfold dist1dDraw
  simp only [hlim, hcurve, hhist, hbands]
  rcases key with rfl | ⟨r, e⟩
  · exact ⟨_, rfl⟩
  · cases limit with
    | none => exact ⟨_, rfl⟩
    | inf => simp only [withArg, e]; exact ⟨_, rfl⟩
    | num n => simp only [withArg, e]; exact ⟨_, rfl⟩

lemma two_of_varies {data : List (Fin d → ℝ)} {i : Fin d} (h : Varies data i) : 2 ≤ data.length := by
  obtain ⟨x, hx, y, hy, hxy⟩ := h
  rcases data with _ | ⟨a, _ | ⟨b, l⟩⟩
  · cases hx
  · simp only [List.mem_singleton] at hx hy
    subst hx hy
    exact absurd rfl hxy
  · simp

/-- Given edges can be used if there are no boundaries. -/
lemma parseEdgesParams_panel_ok {srt : List ℝ → List ℕ} {data : List (Fin 2 → ℝ)} (hne : data ≠ []) {rows : List (List ℝ)} {ii jj : Fin d} {params : List ℤ} :
    parseEdgesParams srt data (panelEdges rows ii jj) none params = .ok [rows.getD jj [], rows.getD ii []] := by
  obtain ⟨dat, hdat, -⟩ := C22_none data hne
  have hf : (finSeq fun i : Fin 2 => getEdges1d srt (([.arr (rows.getD jj []), .arr (rows.getD ii [])] : List EdgeSpec).getD i .auto) (dataRow data i) (dat i)
      none 2 5 1000 1 1 none) = .ok ![rows.getD jj [], rows.getD ii []] := by
    rw [finSeq_ok]
    intro i
    fin_cases i <;> rfl
  simp only [parseEdgesParams, parseEdges, hdat, edgeSpecs_panel, Option.isNone_none, if_true, Option.getD_none, Option.map_none, hf]
  rfl

/-- **C105.** A corner plot of a KDE without reflection is drawn, whatever is shown in the panels: if all parameters vary, the kernel matrix is not
singular, the extrema of the KDE are proper and its points are the default ones, for automatic edges and numbers of bins. -/
theorem C105_succeeds (E : Ext) (srt : List ℝ → List ℕ) (hs : ∀ l, IsArgsort (srt l) l) (auto : List ℝ → ℕ) (r : CornerRnd d)
    (hr1 : ∀ i, IsChoice (r.sel1 i)) (hr2 : ∀ i j, IsChoice (r.sel2 i j)) (rotate : Bool) (args : KDEArgs d) (k : KDE d)
    (hk : KDE.init E args = .ok k) (hrefl : args.reflect = .none) (hp : args.points = .none) (hsq : args.squeeze = true → d = 1)
    (hM : (Spec.kernelMatrix k.covariance k.bandwidth).PosDef) (hx : ∀ i, (k.extrema i).1 < (k.extrema i).2)
    (hv : ∀ i, Varies k.dataset i) (edges : EdgeArg) (hedges : edges = .none ∨ ∃ n : ℤ, 0 < n ∧ edges = .int n)
    (o1 : Dist1dArgs) (o2 : Dist2dArgs) (ho : CornerArgs r k.weights o1 o2) :
    ∃ out, Corner.plotKde E srt auto r rotate k edges o1 o2 = .ok out := by
  have hne := dataset_ne hk
  have hkr : k.reflect = none := by
    obtain ⟨_, _, _, _, _, _, _, _, hr', _, _, _, _, _, _, _, _, _, he⟩ := init_inv hk
    rw [he]
    rw [hrefl] at hr'
    simpa [checkReflect, eq_comm] using hr'
  obtain ⟨rows, hrows⟩ := C45_succeeds srt hs k.dataset hne edges (hedges.imp id fun ⟨n, hn, e⟩ => ⟨n, hn.le, e⟩) none trivial 5 1000
    (by norm_num) (by norm_num) none 1 none hv
  have hcov := fun i => edges_cover hne hedges hrows i
  have h1 : ∀ jj, ∃ o, dist1d E srt auto (r.sel1 jj) (r.fuzz jj) (r.top jj) k (diagArgs rotate rows o1 jj jj) = .ok o := by
    intro jj
    obtain ⟨c1, c2, c3⟩ := hcov jj
    have hq : Names (jj : ℤ) jj := Or.inl rfl
    obtain ⟨F, hF⟩ := single_density_of hk srt hrefl hM jj o1.probability
    obtain ⟨g1, -, -⟩ := scalar_density hq (fun h => by have := jj.2; omega) hF
    obtain ⟨s, e⟩ := g1 (rows.getD jj [])
    unfold dist1d
    rw [show dimIndex d (diagArgs rotate rows o1 jj jj).param = .ok jj from dimIndex_names hq]
    refine dist1dDraw_success hs (hr1 jj) (l := rows.getD jj []) (by simpa [dataRow] using two_of_varies (hv jj))
      (validWeights_stored hk (by simp [dataRow])) (fun t _ => ?_) rfl c2 c1 ho.number
      (ho.carpet.imp id fun h => h.imp id fun h => ⟨h.1 jj, h.2⟩)
    simp only [dist1dCurve, dist1dDensity, diagArgs, e, plotPairs_flat]
    exact ⟨_, rfl⟩
  have h2 : ∀ ii jj, jj < ii → ∃ o, dist2d E srt (r.sel2 ii jj) k { o2 with edges := panelEdges rows ii jj, params := [(jj : ℤ), (ii : ℤ)] } = .ok o := by
    intro ii jj hij
    have hplot : plotRows k.dataset [(jj : ℤ), (ii : ℤ)] = .ok (k.dataset.map fun x => ![x jj, x ii]) := by
      by_cases hd : 2 < d
      · exact plotRows_names hd (Or.inl rfl) (Or.inl rfl)
      · have h2 := ii.2
        have h3 : (jj : ℕ) < ii := hij
        have : d = 2 := by omega
        subst this
        have e1 : jj = 0 := by omega
        have e2 : ii = 1 := by omega
        rw [plotRows_two, e1, e2]
        conv_lhs => rw [← List.map_id k.dataset]
        congr 1
        refine List.map_congr_left fun x _ => ?_
        funext l
        fin_cases l <;> rfl
    unfold dist2d
    simp only [hplot]
    refine dist2dDraw_success hs (hr2 ii jj) (by simpa using hne) (validWeights_stored hk (by simp))
      (a := { o2 with edges := panelEdges rows ii jj, params := [(jj : ℤ), (ii : ℤ)] })
      ⟨ho.scatter, ho.quantiles, ho.sigmas⟩ (rows := [rows.getD jj [], rows.getD ii []])
      (by rw [hkr]; exact parseEdgesParams_panel_ok (by simpa using hne)) ?_ ?_
      fun _ => kdeContour_success hk hs hrefl hp hsq hM hx hij.ne _ _
    · refine ⟨(hcov jj).1, (hcov jj).2.1, fun p hp => ?_⟩
      obtain ⟨x, hx, rfl⟩ := List.mem_map.mp hp
      exact (hcov jj).2.2 x hx
    · refine ⟨(hcov ii).1, (hcov ii).2.1, fun p hp => ?_⟩
      obtain ⟨x, hx, rfl⟩ := List.mem_map.mp hp
      exact (hcov ii).2.2 x hx
  choose f hf using h1
  choose g hg using h2
  refine ⟨⟨f, fun ii jj => if h : jj < ii then some (g ii jj h) else none⟩, ?_⟩
  unfold Corner.plotKde
  simp only [hrows]
  rw [cornerPanels_ok]
  exact ⟨hf, fun ii jj h => dif_neg (not_lt.mpr h), fun ii jj h => ⟨_, hg ii jj h, dif_pos h⟩⟩

/-- Hypotheses of `C105_succeeds` and `C104_panels`: three parameters, weighted data, everything drawn as `Corner.plot` does by default. -/
example : ∃ (E : Ext) (srt : List ℝ → List ℕ) (auto : List ℝ → ℕ) (r : CornerRnd 3) (args : KDEArgs 3) (k : KDE 3) (out : CornerOut 3),
    (∀ i, IsChoice (r.sel1 i)) ∧ (∀ i j, IsChoice (r.sel2 i j)) ∧ KDE.init E args = .ok k ∧ k.dataset = [![0, 10, 5], ![1, 12, 6]] ∧
    k.weights = some [1, 2] ∧ Corner.plotKde E srt auto r true k .none plot1dArgs plot2dArgs = .ok out := by
  obtain ⟨srt, hs⟩ := exists_argsort
  let E : Ext := ⟨fun M => M⁻¹, fun _ => 0⟩
  let r : CornerRnd 3 := ⟨fun _ _ n => List.range n, fun _ _ => 0, fun _ => 1, fun _ _ _ n => List.range n⟩
  obtain ⟨k, hk, hw, hD, hM⟩ := unit_init (d := 3) E [![0, 10, 5], ![1, 12, 6]] (by simp) [1, 2] (by
    refine ⟨rfl, ?_, ?_⟩ <;> simp) .box rfl
  have hd : k.dataset = [![0, 10, 5], ![1, 12, 6]] := by
    obtain ⟨_, _, _, _, _, _, _, _, _, _, _, _, _, _, _, _, _, _, he⟩ := init_inv hk
    rw [he]
  have hM' : (Spec.kernelMatrix k.covariance k.bandwidth).PosDef := by rw [hM]; exact Matrix.PosDef.one
  obtain ⟨out, ho⟩ := C105_succeeds E srt hs (fun _ => 1) r (fun _ => isChoice_range) (fun _ _ => isChoice_range) true _ k hk rfl rfl (by simp)
    hM' (fun i => extrema_lt hk rfl rfl (by rw [hD]; rfl) hM' i) (by
      intro i
      rw [hd]
      refine ⟨_, List.mem_cons_self, _, List.mem_cons_of_mem _ List.mem_cons_self, ?_⟩
      fin_cases i <;> simp) .none (Or.inl rfl) plot1dArgs plot2dArgs
    ⟨by simp [plot2dArgs], by simp [plot2dArgs], by simp [plot2dArgs], by simp [plot1dArgs], Or.inr (Or.inr ⟨fun _ => zero_le_one, by
      intro w e
      rw [hw] at e
      cases e
      refine ⟨by simp, Or.inr ?_⟩
      simp
      norm_num⟩)⟩
  exact ⟨E, srt, _, r, _, k, out, fun _ => isChoice_range, fun _ _ => isChoice_range, hk, hd, hw, ho⟩

end Kalepy
