import Verif.Props.CornerPlot
import Verif.Props.MaskDense
import Mathlib.Tactic.IntervalCases

/-!
# C142, C143 for the contours of a KDE
-/

namespace Kalepy

open Spec

variable {d : ℕ}

lemma kdeContour_levels {E : Ext} {srt : List ℝ → List ℕ} {k : KDE d} {params : List ℤ} {qs : List ℝ} {pad : PadArg} {C : ContourCmd}
    (h : kdeContour E srt k params qs pad = .ok C) : ∃ s q, dfmLevels srt .float C.z (some qs) none = .ok (s, C.levels, q) := by
  unfold kdeContour at h
  split at h
  · cases h
  · exact drawContour2d_levels h
  · cases h

/-- **C142.** The contours of a KDE without reflection, at its default points, are drawn if the fractions are at least `δ` and differ by at
least `δ`, and the grid points of the same density never hold more than the fraction `δ` of the total. -/
theorem C142_kde_partial (E : Ext) (srt : List ℝ → List ℕ) (hs : ∀ l, IsArgsort (srt l) l) (args : KDEArgs d) (k : KDE d) (hk : KDE.init E args = .ok k)
    (hr : args.reflect = .none) (hp : args.points = .none) (hsq : args.squeeze = true → d = 1)
    (hM : (Spec.kernelMatrix k.covariance k.bandwidth).PosDef) (hx : ∀ i, (k.extrema i).1 < (k.extrema i).2) (i j : Fin d) (hij : i ≠ j)
    (qs : List ℝ) (pad : PadArg) (C : ContourCmd) (hC : kdeContour E srt k [(i : ℤ), (j : ℤ)] qs pad = .ok C)
    (δ : ℝ) (hδ : 0 < δ) (hsep : Separated δ qs) (htie : ∀ v, 0 < v → tied C.z v ≤ δ * C.z.sum) :
    ∃ lines, axContour C = .ok lines ∧ ((∃ l ∈ C.levels, InsideRange C.z l) → lines = C.levels) := by
  obtain ⟨pt, hpt, hgrid⟩ := default_points hk hs (by have := i.2; omega) hp hsq hx
  obtain ⟨F, hF0, hF, -⟩ := pair_density hk srt hr hM hij
  obtain ⟨C', v, z, hC', hP, hmin, hsh, hz⟩ := kdeContour_grid hs hij hpt hgrid hF0 hF qs pad
  rw [hC] at hC'
  cases hC'
  have hz0 : ∀ idx, ValidIdx z.shape idx → 0 ≤ z.get idx := fun idx hi => by rw [hz idx hi]; exact hF0 _ _
  have hsh0 : 2 ≤ C.z.shape 0 := by
    have := (hgrid i).2
    rw [hP.shape, hsh]
    show 2 ≤ (pt.toRows.getD i []).length + _
    omega
  have hsh1 : 2 ≤ C.z.shape 1 := by
    have := (hgrid j).2
    rw [hP.shape, hsh]
    show 2 ≤ (pt.toRows.getD j []).length + _
    omega
  have hv0 : 0 < padNumber pad → 0 ≤ v := fun hn => by
    obtain ⟨⟨idx, hi, e⟩, -⟩ := hmin hn
    rw [← e]
    exact hz0 idx hi
  obtain ⟨s, q, hl⟩ := kdeContour_levels hC
  rcases (show 0 ≤ z.sum from Finset.sum_nonneg fun idx hi => hz0 idx (validIdx_mem.mp hi)).eq_or_lt with ht | ht
  · -- the density vanishes on the grid
    have hz' : ∀ idx, ValidIdx z.shape idx → z.get idx = 0 := fun idx hi =>
      (Finset.sum_eq_zero_iff_of_nonneg fun idx hi => hz0 idx (validIdx_mem.mp hi)).mp ht.symm idx (validIdx_mem.mpr hi)
    have hall : ∀ x ∈ C.z.flat, x = 0 := by
      intro x hx
      obtain ⟨idx, hi, rfl⟩ := (NDArr.mem_flat C.z x).mp hx
      by_cases ho : ∃ i, idx i < padNumber pad ∨ padNumber pad + z.shape i ≤ idx i
      · rw [hP.outside idx hi ho]
        have hn : 0 < padNumber pad := by
          by_contra h0
          obtain ⟨i, ho⟩ := ho
          have := hi i
          rw [hP.shape] at this
          omega
        obtain ⟨⟨j, hj, e⟩, -⟩ := hmin hn
        rw [← e]
        exact hz' j hj
      · push Not at ho
        have e : (fun i => padNumber pad + (idx i - padNumber pad)) = idx := by
          funext i
          have := ho i
          omega
        rw [← e, hP.inside (fun i => idx i - padNumber pad) fun i => by have := ho i; show idx i - padNumber pad < _; omega]
        exact hz' _ fun i => by have := ho i; omega
    have hno : ∀ l, ¬ InsideRange C.z l := by
      rintro l ⟨⟨a, ha, h1⟩, b, hb, h2⟩
      rw [hall a ha] at h1
      rw [hall b hb] at h2
      linarith
    have hlen : 0 < C.z.flat.length := by
      rw [NDArr.flat_length, NDArr.size, Fin.prod_univ_two]
      exact Nat.mul_pos (by omega) (by omega)
    obtain ⟨x, l, hxl⟩ := List.exists_cons_of_ne_nil (List.length_pos_iff.mp hlen)
    refine ⟨[npMin x l], ?_, fun ⟨l, _, h⟩ => absurd h (hno l)⟩
    unfold axContour
    rw [if_neg (by omega), if_pos fun l _ => hno l, hxl]
    rfl
  · obtain ⟨f0, ft⟩ := padded_facts hP hz0 hv0 ht
    exact axContour_strict hsh0 hsh1 (levels_strict hs f0 ft hl hδ hsep htie)

/-- The same KDE with other points. -/
lemma init_points {E : Ext} {a : KDEArgs d} {k : KDE d} (h : KDE.init E a = .ok k) (p : EdgeArg) :
    KDE.init E { a with points := p } = .ok { k with pointsSpec := p } := by
  obtain ⟨refl, w, cov, bw0, D, o, eff, ext, h1, h2, h3, h4, h5, h6, h7, h8, h9, h10, he⟩ := init_inv h
  rw [he]
  unfold KDE.init
  simp only [h1, h3, h4, h5, h6, h7, h8, h9, h10, if_neg h2]
  rfl

/-! ### an example -/

lemma points_of_spec {k : KDE d} {srt : List ℝ → List ℕ} {rows : List (List ℝ)} (h1 : k.pointsVal = none) (h2 : k.squeeze = false)
    (h : k.computePoints srt = .ok rows) : (k.points srt).1 = .ok (.rows rows) := by
  unfold KDE.points KDE.shapePoints
  rw [h1, h2, h]
  rfl

/-- Three points of weights 4, 3, 2, a parabola kernel, and a grid with three positions of positive density. -/
lemma mask_kde (E : Ext) {srt : List ℝ → List ℕ} (hs : ∀ l, IsArgsort (srt l) l) : ∃ (args : KDEArgs 2) (k : KDE 2), KDE.init E args = .ok k ∧
    k.dataset = [![0, 10], ![1, 12], ![0, 14]] ∧ k.reflect = none ∧ k.weights = some [4, 3, 2] ∧
    ∀ qs, ∃ C c, kdeContour E srt k [0, 1] qs .off = .ok C ∧ 0 < c ∧ C.z.shape = ![3, 2] ∧ C.z.get ![0, 0] = c ∧ C.z.get ![0, 1] = 0 ∧
      C.z.get ![1, 0] = 3 / 4 * c ∧ C.z.get ![1, 1] = 0 ∧ C.z.get ![2, 0] = 7 / 16 * c ∧ C.z.get ![2, 1] = 0 := by
  obtain ⟨k, hk, hkw, hkd, hM⟩ := unit_init (d := 2) E [![(0 : ℝ), 10], ![1, 12], ![0, 14]] (by simp) [4, 3, 2]
    ⟨rfl, by simp, 4, by simp, by norm_num⟩ .parabola rfl
  let p : EdgeArg := .list [.arr [0, 1 / 2, 3 / 4], .arr [10, 100]]
  have hk' := init_points hk p
  obtain ⟨refl, w, _, _, _, _, _, _, hr, _, _, _, _, _, _, _, _, _, he⟩ := init_inv hk
  have e1 : k.dataset = [![(0 : ℝ), 10], ![1, 12], ![0, 14]] := by rw [he]
  have e2 : k.reflect = none := by
    rw [he]
    simp only [checkReflect, Except.ok.injEq] at hr
    exact hr.symm
  have e3 : k.pointsVal = none := by rw [he]
  have e4 : k.squeeze = false := by rw [he]
  refine ⟨_, { k with pointsSpec := p }, hk', e1, e2, hkw, fun qs => ?_⟩
  have hpt : (({ k with pointsSpec := p } : KDE 2).points srt).1 = .ok (.rows [[0, 1 / 2, 3 / 4], [10, 100]]) := by
    refine points_of_spec e3 e4 ?_
    unfold KDE.computePoints parseEdges
    obtain ⟨ext, hx, -⟩ := parseExtremaOf_extremaList (d := 2) (data := k.dataset) (by norm_num) (by rw [e1]; simp) k.extrema
    have hsp : edgeSpecs 2 p = .ok [.arr [0, 1 / 2, 3 / 4], .arr [10, 100]] := by simp [edgeSpecs, p, EdgeSpec.scalar]
    have hf : ∀ (pd r : ℝ) (w : Option (List ℝ)) (b : Fin 2 → Option ℝ), (finSeq fun i : Fin 2 =>
        getEdges1d srt (([.arr [0, 1 / 2, 3 / 4], .arr [10, 100]] : List EdgeSpec).getD i .auto) (dataRow k.dataset i) (ext i)
        w 2 3 200 pd r (b i)) = .ok ![[0, 1 / 2, 3 / 4], [10, 100]] := by
      intro pd r w b
      rw [finSeq_ok]
      intro i
      fin_cases i <;> rfl
    simp only [hx, hsp, hf]
    rfl
  obtain ⟨F, hF0, hF, c, hc, hFc⟩ := pair_density (i := 0) (j := 1) hk' srt rfl
    (by show (Spec.kernelMatrix k.covariance k.bandwidth).PosDef; rw [hM]; exact Matrix.PosDef.one) (by simp)
  obtain ⟨C, v, z, hC, hP, -, hsh, hz⟩ := kdeContour_grid hs (i := 0) (j := 1) (by simp) hpt (by
    intro i
    fin_cases i
    · simp [Pts.toRows]
      norm_num
    · simp [Pts.toRows]
      norm_num) hF0 hF qs .off
  have hsub : ((1 : Matrix (Fin 2) (Fin 2) ℝ).submatrix [(0 : Fin 2), 1].get [(0 : Fin 2), 1].get) = 1 := by
    ext i j
    fin_cases i <;> fin_cases j <;> rfl
  have hval : ∀ a b, F a b = (4 * Spec.shape .parabola (a ^ 2 + (b - 10) ^ 2) + (3 * Spec.shape .parabola ((a - 1) ^ 2 + (b - 12) ^ 2) +
      2 * Spec.shape .parabola (a ^ 2 + (b - 14) ^ 2))) * c := by
    intro a b
    rw [hFc]
    show Spec.kernelSum k.kernel.dist ((Spec.kernelMatrix k.covariance k.bandwidth).submatrix _ _) (Spec.weighted _ k.weights) _ * c = _
    rw [hM, hkw, hkd, hsub]
    simp [Spec.kernelSum, Spec.weighted, Spec.dist2, Spec.project, dotProduct, Fin.sum_univ_two, Matrix.mulVec, pow_two]
  have hsh2 : z.shape = ![3, 2] := by rw [hsh]; rfl
  have hzC : ∀ idx, ValidIdx z.shape idx → C.z.get idx = z.get idx := by
    intro idx hi
    have := hP.inside idx hi
    simpa [padNumber] using this
  have hv : ∀ a b, a < 3 → b < 2 → ValidIdx z.shape ![a, b] := by
    intro a b ha hb i
    rw [hsh2]
    fin_cases i
    · exact ha
    · exact hb
  have hget : ∀ a b, a < 3 → b < 2 → C.z.get ![a, b] = F (([0, 1 / 2, 3 / 4] : List ℝ).getD a 0) (([10, 100] : List ℝ).getD b 0) := by
    intro a b ha hb
    rw [hzC _ (hv a b ha hb), hz _ (hv a b ha hb)]
    rfl
  refine ⟨C, 4 * c, hC, by positivity, ?_, ?_, ?_, ?_, ?_, ?_, ?_⟩
  · funext i
    rw [hP.shape, hsh2]
    fin_cases i <;> rfl
  · rw [hget 0 0 (by norm_num) (by norm_num), hval]
    simp [Spec.shape]
    norm_num
  · rw [hget 0 1 (by norm_num) (by norm_num), hval]
    simp [Spec.shape]
    norm_num
  · rw [hget 1 0 (by norm_num) (by norm_num), hval]
    simp [Spec.shape]
    norm_num
    ring
  · rw [hget 1 1 (by norm_num) (by norm_num), hval]
    simp [Spec.shape]
    norm_num
  · rw [hget 2 0 (by norm_num) (by norm_num), hval]
    simp [Spec.shape]
    norm_num
    ring
  · rw [hget 2 1 (by norm_num) (by norm_num), hval]
    simp [Spec.shape]
    norm_num

/-- The positions of an array of shape (3, 2). -/
lemma validIdx_three_two : validIdx (![3, 2] : Fin 2 → ℕ) = {![0, 0], ![0, 1], ![1, 0], ![1, 1], ![2, 0], ![2, 1]} := by
  decide +kernel

/-- The positions of an array of shape (2, 3). -/
lemma validIdx_two_three : validIdx (![2, 3] : Fin 2 → ℕ) = {![0, 0], ![0, 1], ![0, 2], ![1, 0], ![1, 1], ![1, 2]} := by
  decide +kernel

/-- The two edges of the example. -/
lemma mask_edges {srt : List ℝ → List ℕ} {data : List (Fin 2 → ℝ)} (hd : data = [![0, 10], ![1, 12], ![0, 14]]) (params : List ℤ) :
    parseEdgesParams srt data (.list [.arr [-1, 1 / 2, 2], .arr [9, 11, 13, 15]]) none params = .ok [[-1, 1 / 2, 2], [9, 11, 13, 15]] := by
  let ex : List ℝ := [-1, 1 / 2, 2]
  let ey : List ℝ := [9, 11, 13, 15]
  show parseEdges srt data (.list [.arr ex, .arr ey]) none none 5 1000 none 1 none = .ok [ex, ey]
  obtain ⟨dat, hdat⟩ : ∃ dat, parseExtremaOf data none = .ok dat := by rw [hd]; exact ⟨_, rfl⟩
  have hsp : edgeSpecs 2 (.list [.arr ex, .arr ey]) = .ok [.arr ex, .arr ey] := by simp [edgeSpecs, EdgeSpec.scalar]
  have hf : (finSeq fun i : Fin 2 => getEdges1d srt (([.arr ex, .arr ey] : List EdgeSpec).getD i .auto) (dataRow data i) (dat i)
      none 2 5 1000 1 1 none) = .ok ![ex, ey] := by
    rw [finSeq_ok]
    intro i
    fin_cases i <;> rfl
  simp only [parseEdges, hdat, hsp, Option.isNone_none, if_true, Option.getD_none, Option.map_none, hf]
  rfl

/-- The assumptions of `C143_contour` and `C143_partial` hold for this KDE. -/
example : ∃ (E : Ext) (srt : List ℝ → List ℕ) (sel : ℕ → ℕ → List ℕ) (k : KDE 2) (a : Dist2dArgs) (out : Dist2dOut) (C : ContourCmd) (lines : List ℝ)
    (M : MaskCmd), dist2dDraw E srt sel k k.dataset k.weights a = .ok out ∧ out.contour = some C ∧ axContour C = .ok lines ∧ C.levels ≠ [] ∧
      (∃ l ∈ C.levels, ∃ idx, ValidIdx C.z.shape idx ∧ l < C.z.get idx) ∧
      dist2dFinish srt k k.dataset k.weights a none out = .ok (some lines, some M) := by
  obtain ⟨srt, hs⟩ := exists_argsort
  let E : Ext := ⟨fun M => M⁻¹, fun _ => 0⟩
  obtain ⟨args, k, hk, hd, hr, hw, hcon⟩ := mask_kde E hs
  let a : Dist2dArgs := { edges := .list [.arr [-1, 1 / 2, 2], .arr [9, 11, 13, 15]], quantiles := some [9 / 10], pad := .off }
  have hE : parseEdgesParams srt k.dataset a.edges k.reflect a.params = .ok [[-1, 1 / 2, 2], [9, 11, 13, 15]] := by
    rw [hr]
    exact mask_edges hd _
  have hvw : ValidWeights k.dataset.length k.weights := validWeights_stored hk rfl
  obtain ⟨C, c, hC, hc, hsh, g00, g01, g10, g11, g20, g21⟩ := hcon [9 / 10]
  obtain ⟨out, hout⟩ := dist2dDraw_success (E := E) (k := k) (a := a) hs isChoice_range (dataset_ne hk) hvw
    ⟨by simp [a], by simp [a], by simp [a]⟩ hE
    ⟨by simp; norm_num, by simp, by rw [hd]; simp [InRangeOf]⟩
    ⟨by simp; norm_num, by simp, by rw [hd]; simp [InRangeOf]; norm_num⟩ (fun _ => ⟨C, hC⟩)
  obtain ⟨rows, hh, sg, levels, qs, mask, g0, -, -, g3, -, -, g7, -⟩ := dist2dDraw_ok hout
  have hq := dfmLevels_quantiles g3
  have hoC : out.contour = some C := by
    rcases optional_ok g7 with ⟨e, -⟩ | ⟨C', -, e, e'⟩
    · cases e
    · rw [hq] at e
      have : kdeContour E srt k [0, 1] [9 / 10] .off = .ok C' := e
      rw [hC] at this
      cases this
      exact e'
  obtain ⟨s, q, hl⟩ := kdeContour_levels hC
  have hsumg : ∀ g : ℝ → ℝ, ∑ idx ∈ validIdx C.z.shape, g (C.z.get idx) = g c + g 0 + g (3 / 4 * c) + g 0 + g (7 / 16 * c) + g 0 := by
    intro g
    rw [hsh, validIdx_three_two, Finset.sum_insert (by simp), Finset.sum_insert (by simp), Finset.sum_insert (by simp), Finset.sum_insert (by simp),
      Finset.sum_insert (by simp), Finset.sum_singleton, g00, g01, g10, g11, g20, g21]
    ring
  have hf0 : ∀ idx, ValidIdx C.z.shape idx → 0 ≤ C.z.get idx := by
    intro idx hi
    replace hi := validIdx_mem.mpr hi
    rw [hsh, validIdx_three_two] at hi
    simp only [Finset.mem_insert, Finset.mem_singleton] at hi
    rcases hi with rfl | rfl | rfl | rfl | rfl | rfl
    · rw [g00]; positivity
    · rw [g01]
    · rw [g10]; positivity
    · rw [g11]
    · rw [g20]; positivity
    · rw [g21]
  have hsum : C.z.sum = 35 / 16 * c := by
    have := hsumg id
    simp only [id] at this
    rw [NDArr.sum, this]
    ring
  have ht : 0 < C.z.sum := by rw [hsum]; positivity
  obtain ⟨levels', qs', s', f, k1, k2, hlen, -, hperm, -, hmem⟩ := C55_mass_partial C.z hf0 ht srt hs (some [9 / 10]) none
  rw [hl] at k1
  cases k1
  have hqe := k2 _ rfl
  subst hqe
  have hlev : C.levels = [f (9 / 10)] := List.perm_singleton.mp hperm
  have hv00 : ValidIdx C.z.shape ![0, 0] := by rw [hsh]; intro k; fin_cases k <;> simp
  have hv10 : ValidIdx C.z.shape ![1, 0] := by rw [hsh]; intro k; fin_cases k <;> simp
  have hlt : f (9 / 10) < C.z.get ![0, 0] := by
    by_contra hge
    rw [not_lt, g00] at hge
    have := ((hmem (9 / 10)).2 (by norm_num)).2 ![1, 0] hv10 (by rw [g10]; linarith)
    rw [g10, hsumg (fun x => if 3 / 4 * c ≤ x then x else 0), hsum, if_pos (by linarith), if_neg (by linarith), if_pos le_rfl, if_neg (by linarith)] at this
    linarith
  have hcon' : ∃ l ∈ C.levels, ∃ idx, ValidIdx C.z.shape idx ∧ l < C.z.get idx := ⟨f (9 / 10), by rw [hlev]; simp, ![0, 0], hv00, hlt⟩
  obtain ⟨lines, hL, -⟩ := axContour_strict (C := C) (by rw [hsh]; simp) (by rw [hsh]; simp) (by rw [hlev]; simp)
  have hne : C.levels ≠ [] := by rw [hlev]; simp
  have hscat : out.scatter ≠ none := by
    rw [show a.scatter = .yes from rfl, (C71_scatter k.dataset _ isChoice_range).2.2.1] at g0
    rw [← Except.ok.inj g0]
    simp
  obtain ⟨M, hM⟩ := (C143_partial E srt _ k k.dataset k.weights a none out hout C hoC lines hL hne (Or.inr ⟨rfl, hscat, rfl⟩)).1 hcon'
  exact ⟨E, srt, _, k, a, out, C, lines, M, hout, hoC, hL, hne, hcon', hM⟩

/-- The mask of an array with masked cells. -/
lemma maskRegion_masked {srt : List ℝ → List ℕ} {qs x y : List ℝ} {z : NDArr 2 (Option ℝ)} {raw : NDArr 2 ℝ} (h0 : 2 ≤ raw.shape 0) (h1 : 2 ≤ raw.shape 1)
    {s : List (Option ℝ)} {levels q : List ℝ} (hl : dfmLevels srt .float raw (some qs) none = .ok (s, levels, q))
    (hex : ∃ l ∈ levels, ∃ idx v, ValidIdx z.shape idx ∧ z.get idx = some v ∧ l < v) : ∃ M, maskRegion srt qs x y z raw = .ok (some M) := by
  obtain ⟨l, hl', idx, v, hi, e, hlt⟩ := hex
  obtain ⟨a, t, rfl⟩ := List.exists_cons_of_ne_nil (List.ne_nil_of_mem hl')
  have hv := (NDArr.mem_flat_option z v).mpr ⟨idx, hi, e⟩
  obtain ⟨b, u, hb⟩ := List.exists_cons_of_ne_nil (List.ne_nil_of_mem hv)
  rw [hb] at hv
  refine ⟨⟨x, y, z, npMin a t, npMax b u⟩, ?_⟩
  unfold maskRegion
  rw [if_neg (by omega), hl]
  simp only [npMinR, hb]
  rw [if_neg (not_le.mpr (((npMin_spec a t).2 _ hl').trans_lt (hlt.trans_le ((npMax_spec b u).2 _ hv))))]

open Classical in
/-- The assumptions of `C143_hist` hold for this KDE without contours. -/
example : ∃ (E : Ext) (srt : List ℝ → List ℕ) (sel : ℕ → ℕ → List ℕ) (k : KDE 2) (a : Dist2dArgs) (out : Dist2dOut) (P : Pcolor) (M : MaskCmd),
    (∀ l, IsArgsort (srt l) l) ∧ ValidWeights k.dataset.length k.weights ∧ dist2dDraw E srt sel k k.dataset k.weights a = .ok out ∧
      out.contour = none ∧ out.hist = some P ∧ a.maskBelow = .auto ∧ dist2dFinish srt k k.dataset k.weights a none out = .ok (none, some M) := by
  obtain ⟨srt, hs⟩ := exists_argsort
  let E : Ext := ⟨fun M => M⁻¹, fun _ => 0⟩
  obtain ⟨args, k, hk, hd, hr, hw, -⟩ := mask_kde E hs
  let ex : List ℝ := [-1, 1 / 2, 2]
  let ey : List ℝ := [9, 11, 13, 15]
  let a : Dist2dArgs := { edges := .list [.arr ex, .arr ey], quantiles := some [9 / 10], contour := false }
  have hE : parseEdgesParams srt k.dataset a.edges k.reflect a.params = .ok [ex, ey] := by
    rw [hr]
    exact mask_edges hd _
  have hvw : ValidWeights k.dataset.length k.weights := validWeights_stored hk rfl
  obtain ⟨out, hout⟩ := dist2dDraw_success (E := E) (k := k) (a := a) hs isChoice_range (dataset_ne hk) hvw
    ⟨by simp [a], by simp [a], by simp [a]⟩ hE
    ⟨by simp [ex]; norm_num, by simp [ex], by rw [hd]; simp [InRangeOf, ex]⟩
    ⟨by simp [ey]; norm_num, by simp [ey], by rw [hd]; simp [InRangeOf, ey]; norm_num⟩ (by simp [a])
  obtain ⟨rows, hh, sg, levels, qs, mask, g0, g1, g2, g3, g4, -, g7, g8⟩ := dist2dDraw_ok hout
  rw [hE] at g1
  cases g1
  have hcn : out.contour = none := by
    rcases optional_ok g7 with ⟨-, e⟩ | ⟨C', e, -⟩
    · exact e
    · cases e
  have hP : out.hist = some (drawHist2d ex ey hh mask) := g8
  replace g2 : histogram2d k.dataset ex ey k.weights = .ok hh := g2
  obtain ⟨-, -, -, -, -, hsh, hcell⟩ := histogram2d_ok g2
  obtain ⟨f0, ft⟩ := histogram2d_facts hvw g2
  have hsh' : hh.shape = ![2, 3] := hsh
  have c0 : ∀ x, CountedIn ex 0 x ↔ -1 ≤ x ∧ x < 1 / 2 := by intro x; simp [CountedIn, ex]
  have c1 : ∀ x, CountedIn ex 1 x ↔ 1 / 2 ≤ x ∧ (x < 2 ∨ x = 2) := by intro x; simp [CountedIn, ex]
  have d0 : ∀ x, CountedIn ey 0 x ↔ 9 ≤ x ∧ x < 11 := by intro x; simp [CountedIn, ey]
  have d1 : ∀ x, CountedIn ey 1 x ↔ 11 ≤ x ∧ x < 13 := by intro x; simp [CountedIn, ey]
  have d2 : ∀ x, CountedIn ey 2 x ↔ 13 ≤ x ∧ (x < 15 ∨ x = 15) := by intro x; simp [CountedIn, ey]
  have rx : ∀ x, InRangeOf ex x ↔ -1 ≤ x ∧ x ≤ 2 := by intro x; simp [InRangeOf, ex]
  have ry : ∀ x, InRangeOf ey x ↔ 9 ≤ x ∧ x ≤ 15 := by intro x; simp [InRangeOf, ey]
  rw [hd, hw] at hcell
  have hT : weightWhere (fun p => InRangeOf ex (p 0) ∧ InRangeOf ey (p 1)) [![(0 : ℝ), 10], ![1, 12], ![0, 14]] (some [4, 3, 2]) = 9 := by
    simp only [weightWhere, List.zip_cons_cons, List.zip_nil_right, List.filter_cons, List.filter_nil, List.map_cons, List.map_nil, rx, ry]
    norm_num
  have q00 : hh.get ![0, 0] = 4 / 27 := by
    rw [hcell 0 0 (by simp [ex]) (by simp [ey]), cellDensity, hT]
    simp only [weightWhere, List.zip_cons_cons, List.zip_nil_right, InCell, c0, d0, cellArea, ex, ey]
    norm_num
  have q01 : hh.get ![0, 1] = 0 := by
    rw [hcell 0 1 (by simp [ex]) (by simp [ey]), cellDensity, hT]
    simp only [weightWhere, List.zip_cons_cons, List.zip_nil_right, InCell, c0, d1, cellArea, ex, ey]
    norm_num
  have q02 : hh.get ![0, 2] = 2 / 27 := by
    rw [hcell 0 2 (by simp [ex]) (by simp [ey]), cellDensity, hT]
    simp only [weightWhere, List.zip_cons_cons, List.zip_nil_right, InCell, c0, d2, cellArea, ex, ey]
    norm_num
  have q10 : hh.get ![1, 0] = 0 := by
    rw [hcell 1 0 (by simp [ex]) (by simp [ey]), cellDensity, hT]
    simp only [weightWhere, List.zip_cons_cons, List.zip_nil_right, InCell, c1, d0, cellArea, ex, ey]
    norm_num
  have q11 : hh.get ![1, 1] = 3 / 27 := by
    rw [hcell 1 1 (by simp [ex]) (by simp [ey]), cellDensity, hT]
    simp only [weightWhere, List.zip_cons_cons, List.zip_nil_right, InCell, c1, d1, cellArea, ex, ey]
    norm_num
  have q12 : hh.get ![1, 2] = 0 := by
    rw [hcell 1 2 (by simp [ex]) (by simp [ey]), cellDensity, hT]
    simp only [weightWhere, List.zip_cons_cons, List.zip_nil_right, InCell, c1, d2, cellArea, ex, ey]
    norm_num
  have hsumg : ∀ g : ℝ → ℝ, ∑ idx ∈ validIdx hh.shape, g (hh.get idx) = g (4 / 27) + g 0 + g (2 / 27) + g 0 + g (3 / 27) + g 0 := by
    intro g
    rw [hsh', validIdx_two_three, Finset.sum_insert (by simp), Finset.sum_insert (by simp), Finset.sum_insert (by simp), Finset.sum_insert (by simp),
      Finset.sum_insert (by simp), Finset.sum_singleton, q00, q01, q02, q10, q11, q12]
    ring
  have hsum : hh.sum = 1 / 3 := by
    have := hsumg id
    simp only [id] at this
    rw [NDArr.sum, this]
    norm_num
  obtain ⟨levels', qs', s', f, k1, k2, -, -, hperm, -, hmem⟩ := C55_mass_partial hh f0 ft srt hs a.quantiles a.sigmas
  rw [g3] at k1
  cases k1
  have hqe := k2 _ rfl
  subst hqe
  have hlev : levels = [f (9 / 10)] := List.perm_singleton.mp hperm
  have hv00 : ValidIdx hh.shape ![0, 0] := by rw [hsh']; intro k; fin_cases k <;> simp
  have hv11 : ValidIdx hh.shape ![1, 1] := by rw [hsh']; intro k; fin_cases k <;> simp
  have hlt : f (9 / 10) < 4 / 27 := by
    by_contra hge
    rw [not_lt] at hge
    have := ((hmem (9 / 10)).2 (by norm_num)).2 ![1, 1] hv11 (by rw [q11]; linarith)
    rw [q11, hsumg (fun x => if 3 / 27 ≤ x then x else 0), hsum] at this
    norm_num at this
  have hmask : mask = some (f (9 / 10)) := by
    rw [hlev] at g4
    cases g4
    rfl
  obtain ⟨s', hl'⟩ := dfmLevels_some g3
  obtain ⟨mm, hmid⟩ : ∃ mm, listSeq midpoints1 [ex, ey] = .ok mm := ⟨_, rfl⟩
  obtain ⟨M, hM⟩ := maskRegion_masked (x := mm.getD 0 []) (y := mm.getD 1 [])
    (z := { shape := hh.shape, get := fun idx => (drawHist2d ex ey hh mask).c.get ![idx 1, idx 0] })
    (by rw [hsh']; simp) (by rw [hsh']; simp) hl' ⟨f (9 / 10), by rw [hlev]; simp, ![0, 0], 4 / 27, hv00, by
      show (drawHist2d ex ey hh mask).c.get ![0, 0] = _
      rw [hmask]
      show (if f (9 / 10) ≠ 0 ∧ hh.get ![0, 0] ≤ f (9 / 10) then none else some (hh.get ![0, 0])) = _
      rw [if_neg (by rw [q00]; rintro ⟨-, h⟩; linarith), q00], hlt⟩
  have hscat : out.scatter.isSome = true := by
    rw [show a.scatter = .yes from rfl, (C71_scatter k.dataset _ isChoice_range).2.2.1] at g0
    rw [← Except.ok.inj g0]
    rfl
  have hm : maskDenseArg none out.scatter.isSome a = true := by
    rw [hscat]
    rfl
  have hsrc : maskSource [ex, ey] hh a out = .ok (mm.getD 0 [], mm.getD 1 [],
      { shape := hh.shape, get := fun idx => (drawHist2d ex ey hh mask).c.get ![idx 1, idx 0] }, hh) := by
    unfold maskSource
    rw [hcn, hP]
    simp only [hmid]
  have hlin : drawnLines out = .ok none := by
    unfold drawnLines
    rw [hcn]
  replace g2 : histogram2d k.dataset ([ex, ey].getD 0 []) ([ex, ey].getD 1 []) k.weights = .ok hh := g2
  refine ⟨E, srt, _, k, a, out, _, M, hs, hvw, hout, hcn, hP, rfl, ?_⟩
  unfold dist2dFinish
  simp only [hlin, hm, if_true, hE, g2, hsrc, hM]

end Kalepy
