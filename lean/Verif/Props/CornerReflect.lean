import Verif.Props.CornerPlot
import Verif.Props.Params
import Verif.Props.Nonneg
import Verif.Props.ResampleReflect

/-!
# C105: corner plots of KDEs with reflecting boundaries
-/

namespace Kalepy

open Spec MeasureTheory

variable {d : ℕ}

/-- The densities of selected parameters of a KDE with boundaries exist everywhere. -/
lemma params_density_reflect {E : Ext} {args : KDEArgs d} {k : KDE d} (hk : KDE.init E args = .ok k) (srt : List ℝ → List ℕ) (hd : d ≠ 1)
    {rows : List ReflRow} (hr : k.reflect = some rows) (hM : (Spec.kernelMatrix k.covariance k.bandwidth).PosDef) {l : List ℤ} (hl : l ≠ [])
    {ps : List (Fin d)} (hps : List.Forall₂ Names l ps) (hnd : ps.Nodup) (probability : Bool) :
    ∃ G : (Fin ps.length → ℝ) → ℝ, ∀ pts, (k.density E srt (some (.rows (rowsOf pts))) .none (.list l) false probability).1
      = .ok (.rows (rowsOf pts), ⟨[pts.length], pts.map G⟩) := by
  have hT0 : k.totalWeight ≠ 0 := by
    cases hkw : k.weights with
    | none => simpa [KDE.totalWeight, hkw] using dataset_ne hk
    | some w => simpa [KDE.totalWeight, hkw] using (stored_weights hk hkw).2.2.ne'
  have hM' := hM.submatrix (List.nodup_iff_injective_get.mp hnd)
  obtain ⟨G, hG⟩ : ∃ G : (Fin ps.length → ℝ) → ℝ, ∀ pts, (k.density E srt (some (.rows (rowsOf pts))) .none (.list l) false true).1
      = .ok (.rows (rowsOf pts), ⟨[pts.length], pts.map G⟩) :=
    ⟨_, fun pts => C82_params_reflect hk srt hd rows hr l hl ps hps hM' [] pts⟩
  cases probability with
  | true => exact ⟨G, hG⟩
  | false =>
    refine ⟨fun x => G x * k.totalWeight, fun pts => ?_⟩
    have := density_unnormalised hT0 (hG pts)
    rwa [List.map_map] at this

lemma single_density_reflect {E : Ext} {args : KDEArgs d} {k : KDE d} (hk : KDE.init E args = .ok k) (srt : List ℝ → List ℕ) (hd : d ≠ 1)
    {rows : List ReflRow} (hr : k.reflect = some rows) (hM : (Spec.kernelMatrix k.covariance k.bandwidth).PosDef) (i : Fin d) (probability : Bool) :
    ∃ F : ℝ → ℝ,
      ∀ l, (k.density E srt (some (.rows [l])) .none (single i) false probability).1 = .ok (.rows [l], ⟨[l.length], l.map F⟩) := by
  obtain ⟨G, hG⟩ := params_density_reflect hk srt hd hr hM (l := [(i : ℤ)]) (ps := [i]) (by simp) (.cons (Or.inl rfl) .nil) (by simp) probability
  refine ⟨fun x => G fun _ => x, fun l => ?_⟩
  have := hG (l.map fun x _ => x)
  have e : rowsOf (m := [i].length) (l.map fun x _ => x) = [l] := by simp [rowsOf, Function.comp_def]
  rw [e] at this
  simpa [single, hd, Function.comp_def] using this

lemma pair_density_reflect {E : Ext} {args : KDEArgs d} {k : KDE d} (hk : KDE.init E args = .ok k) (srt : List ℝ → List ℕ)
    {rows : List ReflRow} (hr : k.reflect = some rows) (hM : (Spec.kernelMatrix k.covariance k.bandwidth).PosDef) {i j : Fin d} (hij : i ≠ j) :
    ∃ F : ℝ → ℝ → ℝ, (∀ a b, 0 ≤ F a b) ∧ ∀ a b, (k.density E srt (some (.rows [[a], [b]])) .none (.list [(i : ℤ), (j : ℤ)]) false false).1 =
      .ok (.rows [[a], [b]], ⟨[1], [F a b]⟩) := by
  have hd : d ≠ 1 := by
    rintro rfl
    exact hij (Subsingleton.elim _ _)
  obtain ⟨G, hG⟩ := params_density_reflect hk srt hd hr hM (l := [(i : ℤ), (j : ℤ)]) (ps := [i, j]) (by simp)
    (.cons (Or.inl rfl) (.cons (Or.inl rfl) .nil)) (by simpa using hij) false
  have key : ∀ a b, (k.density E srt (some (.rows [[a], [b]])) .none (.list [(i : ℤ), (j : ℤ)]) false false).1 =
      .ok (.rows [[a], [b]], ⟨[1], [G ![a, b]]⟩) := by
    intro a b
    have := hG [![a, b]]
    have e : rowsOf (m := [i, j].length) [![a, b]] = [[a], [b]] := by simp [rowsOf, List.ofFn_succ]
    rw [e] at this
    simpa using this
  refine ⟨fun a b => G ![a, b], fun a b => ?_, key⟩
  exact C05_kde_all hk srt (by have := i.2; omega) [] _ _ _ _ _ _ _ (key a b) _ (by simp)

/-- The edges of a panel can be used, whatever the boundaries. -/
lemma parseEdgesParams_panel_reflect {srt : List ℝ → List ℕ} {data : List (Fin 2 → ℝ)} (hne : data ≠ []) {rows : List (List ℝ)} {ii jj : Fin d}
    {refl : List ReflRow} (hl : refl.length = d) :
    parseEdgesParams srt data (panelEdges rows ii jj) (some refl) [(jj : ℤ), (ii : ℤ)] = .ok [rows.getD jj [], rows.getD ii []] := by
  unfold parseEdgesParams
  by_cases h2 : refl.length = 2
  · obtain ⟨dat, hdat, -⟩ := dataExtrema_spec hne
    obtain ⟨ext, hext⟩ : ∃ ext, parseExtremaOf data (some (refl.map ReflRow.toExt)) = .ok ext := by
      obtain ⟨a, b, rfl⟩ := List.length_eq_two.mp h2
      simp only [parseExtremaOf, hdat, parseExtrema, parseExtremaList]
      rcases a with _ | ⟨a1, a2⟩ <;> rcases b with _ | ⟨b1, b2⟩ <;> simp [ReflRow.toExt, ExtElem.scalar, ExtElem.pair]
    have hf : ∀ pad : ℝ, (finSeq fun i : Fin 2 => getEdges1d srt (([.arr (rows.getD jj []), .arr (rows.getD ii [])] : List EdgeSpec).getD i .auto)
        (dataRow data i) (ext i) none 2 5 1000 pad 1 none) = .ok ![rows.getD jj [], rows.getD ii []] := by
      intro pad
      rw [finSeq_ok]
      intro i
      fin_cases i <;> rfl
    simp only [if_pos h2, parseEdges, hext, edgeSpecs_panel, Option.map_none, hf]
    rfl
  · have hi : listSeq (pyIndex refl) [(jj : ℤ), (ii : ℤ)] = .ok [refl.get (Fin.cast hl.symm jj), refl.get (Fin.cast hl.symm ii)] := by
      rw [listSeq_ok]
      exact .cons (pyIndex_nat _ _ (by rw [hl]; exact jj.2)) (.cons (pyIndex_nat _ _ (by rw [hl]; exact ii.2)) .nil)
    have hf : ∀ e : List ReflRow, (finSeq fun i : Fin 2 => rawEdges1d srt (([.arr (rows.getD jj []), .arr (rows.getD ii [])] : List EdgeSpec).getD i .auto)
        (dataRow data i) (e.getD i none)) = .ok ![rows.getD jj [], rows.getD ii []] := by
      intro e
      rw [finSeq_ok]
      intro i
      fin_cases i <;> rfl
    simp only [if_neg h2, hi, edgeSpecs_panel, hf]
    rfl

/-- The contours of a KDE with boundaries can be drawn. -/
lemma kdeContour_reflect {E : Ext} {args : KDEArgs d} {k : KDE d} (hk : KDE.init E args = .ok k) {srt : List ℝ → List ℕ}
    (hs : ∀ l, IsArgsort (srt l) l) {refl : List ReflRow} (hr : k.reflect = some refl) (hp : args.points = .none) (hsq : args.squeeze = false)
    (hM : (Spec.kernelMatrix k.covariance k.bandwidth).PosDef) (hx : ∀ i, (k.extrema i).1 < (k.extrema i).2) {i j : Fin d} (hij : i ≠ j)
    (qs : List ℝ) (pad : PadArg) : ∃ C, kdeContour E srt k [(i : ℤ), (j : ℤ)] qs pad = .ok C := by
  obtain ⟨pt, hpt, hgrid⟩ := default_points hk hs (by have := i.2; omega) hp (by simp [hsq]) hx
  obtain ⟨F, hF0, hF⟩ := pair_density_reflect hk srt hr hM hij
  obtain ⟨C, _, _, hC, _⟩ := kdeContour_grid hs hij hpt hgrid hF0 hF qs pad
  exact ⟨C, hC⟩

/-- **C105**, with reflecting boundaries in some or all of the parameters (also on one side only): a corner plot of a KDE of several parameters is
drawn, whatever is shown in the panels, under the same conditions as without boundaries.  Although `dist2d` fails by itself for boundaries on one
side (C96), the panels of a corner plot are not affected, because their edges are given. -/
theorem C105_reflect (E : Ext) (srt : List ℝ → List ℕ) (hs : ∀ l, IsArgsort (srt l) l) (auto : List ℝ → ℕ) (r : CornerRnd d)
    (hr1 : ∀ i, IsChoice (r.sel1 i)) (hr2 : ∀ i j, IsChoice (r.sel2 i j)) (rotate : Bool) (args : KDEArgs d) (k : KDE d)
    (hk : KDE.init E args = .ok k) (h1d : 1 < d) (refl : List ReflRow) (hrefl : k.reflect = some refl) (hp : args.points = .none)
    (hsq : args.squeeze = false)
    (hM : (Spec.kernelMatrix k.covariance k.bandwidth).PosDef) (hx : ∀ i, (k.extrema i).1 < (k.extrema i).2)
    (hv : ∀ i, Varies k.dataset i) (edges : EdgeArg) (hedges : edges = .none ∨ ∃ n : ℤ, 0 < n ∧ edges = .int n)
    (o1 : Dist1dArgs) (o2 : Dist2dArgs) (ho : CornerArgs r k.weights o1 o2) :
    ∃ out, Corner.plotKde E srt auto r rotate k edges o1 o2 = .ok out := by
  have hne := dataset_ne hk
  have hlen : refl.length = d := by
    obtain ⟨rows', _, _, _, _, _, _, _, hr', hne', _, _, _, _, _, _, _, _, he⟩ := init_inv hk
    rw [he] at hrefl
    simp only at hrefl
    subst hrefl
    exact (C20_result _ hne' _ refl hr').1
  obtain ⟨rows, hrows⟩ := C45_succeeds srt hs k.dataset hne edges (hedges.imp id fun ⟨n, hn, e⟩ => ⟨n, hn.le, e⟩) none trivial 5 1000
    (by norm_num) (by norm_num) none 1 none hv
  have hcov := fun i => edges_cover hne hedges hrows i
  have h1 : ∀ jj, ∃ o, dist1d E srt auto (r.sel1 jj) (r.fuzz jj) (r.top jj) k (diagArgs rotate rows o1 jj jj) = .ok o := by
    intro jj
    obtain ⟨c1, c2, c3⟩ := hcov jj
    have hq : Names (jj : ℤ) jj := Or.inl rfl
    obtain ⟨F, hF⟩ := single_density_reflect hk srt (by omega) hrefl hM jj o1.probability
    obtain ⟨g1, -, -⟩ := scalar_density hq (fun h => by have := jj.2; omega) hF
    obtain ⟨s, e⟩ := g1 (rows.getD jj [])
    unfold dist1d
    rw [show dimIndex d (diagArgs rotate rows o1 jj jj).param = .ok jj from dimIndex_names hq]
    refine dist1dDraw_success hs (hr1 jj) (l := rows.getD jj []) (by simpa [dataRow] using two_of_varies (hv jj))
      (validWeights_stored hk (by simp [dataRow])) (fun t _ => ?_) rfl c2 c1 ho.number
      (ho.carpet.imp id fun h => h.imp id fun h => ⟨h.1 jj, h.2⟩)
    simp only [dist1dCurve, dist1dDensity, diagArgs, e, plotPairs_flat]
    exact ⟨_, rfl⟩
  have h2 : ∀ ii jj, jj < ii → ∃ o, dist2d E srt (r.sel2 ii jj) k { o2 with edges := panelEdges rows ii jj, params := [(jj : ℤ), (ii : ℤ)] } = .ok o := by
    intro ii jj hij
    have hplot : plotRows k.dataset [(jj : ℤ), (ii : ℤ)] = .ok (k.dataset.map fun x => ![x jj, x ii]) := by
      by_cases hd : 2 < d
      · exact plotRows_names hd (Or.inl rfl) (Or.inl rfl)
      · have h2 := ii.2
        have h3 : (jj : ℕ) < ii := hij
        have : d = 2 := by omega
        subst this
        have e1 : jj = 0 := by omega
        have e2 : ii = 1 := by omega
        rw [plotRows_two, e1, e2]
        conv_lhs => rw [← List.map_id k.dataset]
        congr 1
        refine List.map_congr_left fun x _ => ?_
        funext l
        fin_cases l <;> rfl
    unfold dist2d
    simp only [hplot]
    refine dist2dDraw_success hs (hr2 ii jj) (by simpa using hne) (validWeights_stored hk (by simp))
      (a := { o2 with edges := panelEdges rows ii jj, params := [(jj : ℤ), (ii : ℤ)] })
      ⟨ho.scatter, ho.quantiles, ho.sigmas⟩ (rows := [rows.getD jj [], rows.getD ii []])
      (by rw [hrefl]; exact parseEdgesParams_panel_reflect (by simpa using hne) hlen) ?_ ?_
      fun _ => kdeContour_reflect hk hs hrefl hp hsq hM hx hij.ne _ _
    · refine ⟨(hcov jj).1, (hcov jj).2.1, fun p hp => ?_⟩
      obtain ⟨x, hx, rfl⟩ := List.mem_map.mp hp
      exact (hcov jj).2.2 x hx
    · refine ⟨(hcov ii).1, (hcov ii).2.1, fun p hp => ?_⟩
      obtain ⟨x, hx, rfl⟩ := List.mem_map.mp hp
      exact (hcov ii).2.2 x hx
  choose f hf using h1
  choose g hg using h2
  refine ⟨⟨f, fun ii jj => if h : jj < ii then some (g ii jj h) else none⟩, ?_⟩
  unfold Corner.plotKde
  simp only [hrows]
  rw [cornerPanels_ok]
  exact ⟨hf, fun ii jj h => dif_neg (not_lt.mpr h), fun ii jj h => ⟨_, hg ii jj h, dif_pos h⟩⟩

/-- The default extrema are proper if the data are inside the boundaries, for kernels of finite support. -/
lemma extrema_lt_reflect {E : Ext} {a : KDEArgs d} {k : KDE d} (h : KDE.init E a = .ok k) (he : a.extrema = none) {refl : List ReflRow}
    (hr : k.reflect = some refl) (hD : k.kernel.dist.finite = true) (hM : (Spec.kernelMatrix k.covariance k.bandwidth).PosDef)
    (hin : ∀ x ∈ k.dataset, ∀ i : Fin d, StrictlyInside (refl.getD i none) (x i)) (i : Fin d) : (k.extrema i).1 < (k.extrema i).2 := by
  have hMk := (C18_matrix h).1
  obtain ⟨rows, w, cov, bw0, D, out, eff, ext, hrr, hne, _, _, _, hDD, _, hout, heff, hext, hk⟩ := init_inv h
  have hdist : k.kernel.dist = D := by rw [hk]; rfl
  have hmat : (Kernel.init D (rescaleBw bw0 a.rescale) cov a.helper a.chunk).matrix
      = Spec.kernelMatrix k.covariance k.bandwidth := by rw [← hMk, hk]
  have hke : k.extrema = ext := by rw [hk]
  have hkd : k.dataset = a.dataset := by rw [hk]
  have hrows : rows = some refl := by rw [← hr, hk]
  subst hrows
  rw [hdist] at hD
  simp only [kernelOut, hD, if_true] at hout
  cases hout
  rw [hmat] at heff
  obtain ⟨x, hx⟩ := List.exists_mem_of_ne_nil _ hne
  have hlt : ∀ j, (eff j).1 < x j ∧ x j < (eff j).2 := by
    intro j
    unfold effExtrema at heff
    split at heff
    · obtain ⟨dat, hd1, hd2⟩ := dataExtrema_spec hne
      rw [hd1] at heff
      cases heff
      obtain ⟨g1, g2, g3⟩ := hd2 j
      have hp : 0 < Real.sqrt (Spec.kernelMatrix k.covariance k.bandwidth j j) * (1 + numPad) :=
        mul_pos (Real.sqrt_pos.mpr hM.diag_pos) (by norm_num [numPad])
      have := g3 (x j) (List.mem_map.mpr ⟨x, hx, rfl⟩)
      refine ⟨lt_of_le_of_lt (min_le_left _ _) ?_, lt_of_lt_of_le ?_ (le_max_right _ _)⟩ <;> linarith
    · cases heff
  have hin' := hin x (by rw [hkd]; exact hx)
  rw [he] at hext
  simp only [extremaArg, parseExtrema, Option.map_some, parseExtremaList] at hext
  have hl : refl.length = d := (C20_result _ hne _ refl hrr).1
  have hd : 0 < d := by have := i.2; omega
  rw [hke]
  split_ifs at hext with h1 h2 h3 h4 h5
  · cases hext
    have hb : ∀ n, ((refl.map ReflRow.toExt).getD n .none).bound = none := by
      intro n
      by_cases hn : n < refl.length
      · simp only [List.getD, List.getElem?_map, List.getElem?_eq_getElem hn, Option.map_some, Option.getD_some]
        rcases refl[n] with _ | ⟨p, q⟩ <;> rfl
      · rw [List.getD_eq_default _ _ (by simpa using hn)]; rfl
    simp only [hb, fillExtrema, Option.getD_none]
    exact (hlt _).1.trans (hlt _).2
  · cases hext
    have e : (refl.map ReflRow.toExt).get (Fin.cast h2.symm i) = ReflRow.toExt (refl.getD i none) := by
      simp [hl]
    simp only [e]
    have hi := hin' i
    have hb : ∀ lo hi, some (some lo, some hi) ∈ refl → lo < hi := (C20_result _ hne _ refl hrr).2
    rcases hrow : refl.getD i none with _ | ⟨_ | lo, _ | hi'⟩ <;> rw [hrow] at hi <;>
      simp only [ReflRow.toExt, ExtElem.pair, Option.getD_some, Option.getD_none, fillExtrema]
    · exact (hlt _).1.trans (hlt _).2
    · exact (hlt _).1.trans (hlt _).2
    · exact (hlt _).1.trans ((hi _ _ rfl).2 _ rfl)
    · exact ((hi _ _ rfl).1 _ rfl).trans (hlt _).2
    · exact ((hi _ _ rfl).1 _ rfl).trans ((hi _ _ rfl).2 _ rfl)

/-- Hypotheses of `C105_reflect`: three parameters, a boundary on one side of the first, on both sides of the second, and everything drawn as
`Corner.plot` does by default. -/
example : ∃ (E : Ext) (srt : List ℝ → List ℕ) (auto : List ℝ → ℕ) (r : CornerRnd 3) (args : KDEArgs 3) (k : KDE 3) (out : CornerOut 3),
    KDE.init E args = .ok k ∧ k.dataset = [![0, 10, 5], ![1, 12, 6]] ∧ k.reflect = some [some (some (-1), none), some (some 9, some 14), none] ∧
    Corner.plotKde E srt auto r true k .none plot1dArgs plot2dArgs = .ok out := by
  obtain ⟨srt, hs⟩ := exists_argsort
  let E : Ext := ⟨fun M => M⁻¹, fun _ => 0⟩
  let r : CornerRnd 3 := ⟨fun _ _ n => List.range n, fun _ _ => 0, fun _ => 1, fun _ _ _ n => List.range n⟩
  obtain ⟨k, hk, hw, hD, hM, hr, _, hdat⟩ := unit_init_reflect (d := 3) E [![0, 10, 5], ![1, 12, 6]] (by simp) .box rfl
    [some (some (-1), none), some (some 9, some 14), none] rfl (by
      intro lo hi h
      simp only [List.mem_cons, Option.some.injEq, Prod.mk.injEq, List.not_mem_nil, or_false, reduceCtorEq, and_false, false_or] at h
      rw [h.1, h.2]; norm_num) ⟨(some (-1), none), by simp⟩
  have hM' : (Spec.kernelMatrix k.covariance k.bandwidth).PosDef := by rw [hM]; exact Matrix.PosDef.one
  obtain ⟨out, ho⟩ := C105_reflect E srt hs (fun _ => 1) r (fun _ => isChoice_range) (fun _ _ => isChoice_range) true _ k hk (by norm_num) _ hr rfl rfl
    hM' (fun i => extrema_lt_reflect hk rfl hr (by rw [hD]; rfl) hM' (by
      intro x hx i
      rw [hdat] at hx
      simp only [List.mem_cons, List.not_mem_nil, or_false] at hx
      rcases hx with rfl | rfl <;> fin_cases i <;> simp [StrictlyInside] <;> norm_num) i) (by
      intro i
      rw [hdat]
      refine ⟨_, List.mem_cons_self, _, List.mem_cons_of_mem _ List.mem_cons_self, ?_⟩
      fin_cases i <;> simp) .none (Or.inl rfl) plot1dArgs plot2dArgs
    ⟨by simp [plot2dArgs], by simp [plot2dArgs], by simp [plot2dArgs], by simp [plot1dArgs], Or.inr (Or.inr ⟨fun _ => zero_le_one, by
      intro w e
      rw [hw] at e
      cases e⟩)⟩
  exact ⟨E, srt, _, r, _, k, out, hk, hdat, hr, ho⟩

end Kalepy
