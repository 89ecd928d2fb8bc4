import Verif.Props.GridPdfDefault

/-!
# C174 and C176 for all kernels and all boxes
-/

namespace Kalepy

open MeasureTheory ProbabilityTheory Filter Topology

variable {d : ℕ}

/-- **C174**, integrals, with different bounds of the variation in different cells: at every point of the grid the cdf differs
from the fraction of the integral of the pdf below the point by at most `2 W / ∫ F`, where `W` is the sum of the variations of the
pdf within the cells, each times the volume of the cell.  (With or without reflecting boundaries.) -/
theorem C174_integral_total {E : Ext} {a : KDEArgs d} {k : KDE d} (h : KDE.init E a = .ok k) (hd : 0 < d)
    (srt : List ℝ → List ℕ) {F : (Fin d → ℝ) → ℝ} (hF : Spec.Reports E srt k F)
    {pts : Pts} (hp : (k.points srt).1 = .ok pts) (q : Pts) (out : List ℝ) (hq : (k.cdf E srt q).1 = .ok out)
    {W : ℝ} (hW : Spec.VariesTotal pts.toRows F W)
    (hi : IntegrableOn F (Spec.box (Spec.lowNode pts.toRows) (Spec.topNode pts.toRows)))
    (hm : 0 < ∫ y in Spec.box (Spec.lowNode pts.toRows) (Spec.topNode pts.toRows), F y) :
    ∃ G : (Fin d → ℝ) → ℝ, Spec.ReportsCdf E srt k G ∧
      ∀ idx : Fin d → ℕ, (∀ i : Fin d, idx i < (pts.toRows.getD i []).length) →
        |G (Spec.node pts.toRows idx) - (∫ y in Spec.box (Spec.lowNode pts.toRows) (Spec.node pts.toRows idx), F y)
            / ∫ y in Spec.box (Spec.lowNode pts.toRows) (Spec.topNode pts.toRows), F y|
          ≤ 2 * W
            / ∫ y in Spec.box (Spec.lowNode pts.toRows) (Spec.topNode pts.toRows), F y := by
  obtain ⟨pts', G, hp', hG, hl, hrows, hpos, hval⟩ := C174_exact h hd srt hF [] q out hq
  obtain rfl : pts = pts' := by rw [hp] at hp'; exact Except.ok.inj hp'
  generalize pts.toRows = rows at *
  have hr : ∀ i : Fin d, 2 ≤ (rows.getD i []).length ∧ (rows.getD i []).Pairwise (· < ·) := by
    intro i
    have hi : (i : ℕ) < rows.length := hl ▸ i.2
    rw [List.getD_eq_getElem _ _ hi]
    exact hrows _ (List.getElem_mem hi)
  have hs := fun i => (hr i).2
  have hlast : ∀ i : Fin d, Spec.lastIdx (d := d) rows i < (rows.getD i []).length := by
    intro i
    have := (hr i).1
    unfold Spec.lastIdx
    omega
  have hFn : ∀ x, 0 ≤ F x := fun x => by
    have := C05_kde_all h srt hd [] _ _ _ _ _ _ _ (hF [x])
    exact this (F x) (by simp)
  refine ⟨G, hG, fun idx hidx => ?_⟩
  rw [hval idx hidx]
  have hle : ∀ i, idx i ≤ Spec.lastIdx rows i := fun i => Nat.le_sub_one_of_lt (hidx i)
  have hnl : ∀ i, Spec.node rows idx i ≤ Spec.topNode rows i := fun i => getD_mono (hs i) (hle i) (hlast i)
  have hsub : Spec.box (Spec.lowNode rows) (Spec.node rows idx) ⊆ Spec.box (Spec.lowNode rows) (Spec.topNode rows) :=
    fun y hy i => ⟨(hy i).1, (hy i).2.trans (hnl i)⟩
  exact quotient_error (e := W) (mass_error_total ⟨hl, hrows⟩ hW hidx (hi.mono_set hsub))
    (mass_error_total ⟨hl, hrows⟩ hW hlast hi) (massBelow_nonneg (fun j => hFn _) hidx hs)
    (massBelow_le (fun j => hFn _) hs hlast hle) hpos hm

/-- **C174**, limit.  Let `F` be bounded on the box between `u` and `v`, continuous there except on a closed
set without volume, and with positive integral over the box.  For every
tolerance `τ` there is a width `δ` such that for every `KDE` whose pdf is `F` and whose grid of evaluation points spans this
box with steps of at most `δ`, the cdf at every point `x` of the box (on the grid or between) is within `τ` of the
probability of values below `x` among those within the box. -/
theorem C174_mostly (hd : 0 < d) {F : (Fin d → ℝ) → ℝ} {u v : Fin d → ℝ} (hc : Spec.MostlyContinuous F u v)
    (hm : 0 < ∫ y in Spec.box u v, F y) {τ : ℝ} (hτ : 0 < τ) :
    ∃ δ > 0, ∀ (E : Ext) (a : KDEArgs d) (k : KDE d) (srt : List ℝ → List ℕ) (pts q : Pts) (out : List ℝ),
      KDE.init E a = .ok k → Spec.Reports E srt k F → (k.points srt).1 = .ok pts → (k.cdf E srt q).1 = .ok out →
      Spec.lowNode pts.toRows = u → Spec.topNode pts.toRows = v →
      (∀ (i : Fin d) (j : ℕ), j + 1 < (pts.toRows.getD i []).length →
        (pts.toRows.getD i []).getD (j + 1) 0 - (pts.toRows.getD i []).getD j 0 ≤ δ) →
      ∃ G : (Fin d → ℝ) → ℝ, Spec.ReportsCdf E srt k G ∧
        ∀ x ∈ Set.Icc u v, |G x - (∫ y in Spec.box u x, F y) / ∫ y in Spec.box u v, F y| ≤ τ := by
  set m := ∫ y in Spec.box u v, F y with hmdef
  obtain ⟨B, hB⟩ := hc.1
  have hPc : Continuous fun x : Fin d → ℝ => ∏ i, (x i - u i) :=
    continuous_finsetProd _ fun i _ => (continuous_apply i).sub continuous_const
  have huP := Metric.uniformContinuousOn_iff.mp
    (isCompact_Icc.uniformContinuousOn_of_continuous (hPc.continuousOn (s := Set.Icc u v)))
  obtain ⟨δ1, hδ1, hfine⟩ := varies_total_fine hc (W := τ * m / 4) (by positivity)
  obtain ⟨δ2, hδ2, h2⟩ := huP (τ * m / (2 * (|B| + 1))) (by positivity)
  have hδ : 0 < min δ1 δ2 / 2 := by positivity
  refine ⟨min δ1 δ2 / 2, hδ, ?_⟩
  intro E a k srt pts q out hk hF hp hq hu hv hmesh
  have hi : IntegrableOn F (Spec.box u v) := mostly_integrable hc
  obtain ⟨pts', G', hp', hl, hrows, hG', _, hmono, _⟩ := C61_cdf_partial hk hd srt [] q out hq
  obtain rfl : pts = pts' := by rw [hp] at hp'; exact Except.ok.inj hp'
  have hr : ∀ i : Fin d, 2 ≤ (pts.toRows.getD i []).length ∧ (pts.toRows.getD i []).Pairwise (· < ·) := by
    intro i
    have hi : (i : ℕ) < pts.toRows.length := hl ▸ i.2
    rw [List.getD_eq_getElem _ _ hi]
    exact hrows _ (List.getElem_mem hi)
  have hFn : ∀ x, 0 ≤ F x := fun x => by
    have := C05_kde_all hk srt hd [] _ _ _ _ _ _ _ (hF [x])
    exact this (F x) (by simp)
  have hin : ∀ x ∈ Set.Icc u v, Spec.InGrid pts.toRows x := by
    intro x hx i
    rw [first_eq, last_eq]
    exact ⟨by have := hx.1 i; rw [← hu] at this; exact this, by have := hx.2 i; rw [← hv] at this; exact this⟩
  have hnode : ∀ idx : Fin d → ℕ, (∀ i : Fin d, idx i < (pts.toRows.getD i []).length) →
      Spec.node pts.toRows idx ∈ Set.Icc u v := by
    intro idx hidx
    rw [← hu, ← hv]
    refine ⟨fun i => getD_mono (hr i).2 (Nat.zero_le _) (hidx i),
      fun i => getD_mono (hr i).2 (Nat.le_sub_one_of_lt (hidx i)) (by have := hidx i; unfold Spec.lastIdx; omega)⟩
  have hcell : ∀ j : Fin d → ℕ, (∀ i : Fin d, j i + 1 < (pts.toRows.getD i []).length) → ∀ y z,
      (∀ i, Spec.node pts.toRows j i ≤ y i ∧ y i ≤ Spec.node pts.toRows (fun i => j i + 1) i) →
      (∀ i, Spec.node pts.toRows j i ≤ z i ∧ z i ≤ Spec.node pts.toRows (fun i => j i + 1) i) →
      y ∈ Set.Icc u v ∧ z ∈ Set.Icc u v ∧ dist y z < min δ1 δ2 := by
    intro j hj y z hy hz
    have hn1 := hnode j fun i => by have := hj i; omega
    have hn2 := hnode (fun i => j i + 1) hj
    refine ⟨⟨fun i => (hn1.1 i).trans (hy i).1, fun i => (hy i).2.trans (hn2.2 i)⟩,
      ⟨fun i => (hn1.1 i).trans (hz i).1, fun i => (hz i).2.trans (hn2.2 i)⟩, ?_⟩
    refine lt_of_le_of_lt ((dist_pi_le_iff hδ.le).mpr fun i => ?_) (by linarith : min δ1 δ2 / 2 < min δ1 δ2)
    have hs : Spec.node pts.toRows (fun i => j i + 1) i - Spec.node pts.toRows j i ≤ min δ1 δ2 / 2 := hmesh i (j i) (hj i)
    rw [Real.dist_eq, abs_le]
    constructor <;> linarith [(hy i).1, (hy i).2, (hz i).1, (hz i).2]
  have hη : Spec.VariesTotal pts.toRows F (τ * m / 4) := hfine _ ⟨hl, hrows⟩ hu hv fun i j hj =>
    (hmesh i j hj).trans (by linarith [min_le_left δ1 δ2])
  obtain ⟨G, hG, hval⟩ := C174_integral_total hk hd srt hF hp q out hq hη (by rw [hu, hv]; exact hi) (by rw [hu, hv]; exact hm)
  obtain rfl : G' = G := reportsCdf_unique hG' hG
  rw [hu, hv, ← hmdef] at hval
  have herr : 2 * (τ * m / 4) / m ≤ τ / 2 := by
    have := hm.ne'
    refine le_of_eq ?_
    field_simp
    norm_num
  have hIle : ∀ x y, (∀ i, x i ≤ y i) → y ∈ Set.Icc u v →
      ∫ z in Spec.box u x, F z ≤ ∫ z in Spec.box u y, F z := by
    intro x y hxy hy
    refine setIntegral_mono_set (hi.mono_set fun z hz i => ⟨(hz i).1, (hz i).2.trans (hy.2 i)⟩)
      (Filter.Eventually.of_forall fun z => hFn z) (LE.le.eventuallyLE ?_)
    exact fun z hz i => ⟨(hz i).1, (hz i).2.trans (hxy i)⟩
  refine ⟨G', hG, fun x hx => ?_⟩
  have hex : ∀ i : Fin d, ∃ j, j + 1 < (pts.toRows.getD i []).length ∧ (pts.toRows.getD i []).getD j 0 ≤ x i ∧
      x i ≤ (pts.toRows.getD i []).getD (j + 1) 0 := by
    intro i
    obtain ⟨hin1, hin2⟩ := hin x hx i
    rw [first_eq] at hin1
    rw [last_eq] at hin2
    have h2 := (hr i).1
    rcases hin1.eq_or_lt with he | hlt
    · exact ⟨0, by omega, hin1, he ▸ getD_mono (hr i).2 (Nat.zero_le _) (by omega)⟩
    · obtain ⟨j, hj, hj1, hj2⟩ := exists_cell (f := fun n => (pts.toRows.getD i []).getD n 0) hlt hin2
      exact ⟨j, by omega, hj1.le, hj2⟩
  choose j hj hj1 hj2 using hex
  have hjv : ∀ i : Fin d, j i < (pts.toRows.getD i []).length := fun i => by have := hj i; omega
  set lo := Spec.node pts.toRows j with hlo
  set up := Spec.node pts.toRows (fun i => j i + 1) with hup
  have hlx : ∀ i, lo i ≤ x i := hj1
  have hxu : ∀ i, x i ≤ up i := hj2
  have hlu : ∀ i, lo i ≤ up i := fun i => (hlx i).trans (hxu i)
  obtain ⟨c1, c2, c3⟩ := hcell j hj up lo (fun i => ⟨hlu i, le_rfl⟩) fun i => ⟨le_rfl, hlu i⟩
  have g1 := hmono lo x (hin _ c2) (hin _ hx) hlx
  have g2 := hmono x up (hin _ hx) (hin _ c1) hxu
  have e1 := abs_le.mp ((hval j hjv).trans herr)
  have e2 := abs_le.mp ((hval (fun i => j i + 1) hj).trans herr)
  have i1 := div_le_div_of_nonneg_right (hIle lo x hlx hx) hm.le
  have i2 := div_le_div_of_nonneg_right (hIle x up hxu c1) hm.le
  have hPd := h2 up c1 lo c2 (c3.trans_le (min_le_right _ _))
  rw [Real.dist_eq] at hPd
  have hdiff : (∫ y in Spec.box u up, F y) - ∫ y in Spec.box u lo, F y ≤ |B| * (τ * m / (2 * (|B| + 1))) := by
    have hsub : Spec.box u lo ⊆ Spec.box u up := fun z hz i => ⟨(hz i).1, (hz i).2.trans (hlu i)⟩
    have hsubv : Spec.box u up ⊆ Spec.box u v := fun z hz i => ⟨(hz i).1, (hz i).2.trans (c1.2 i)⟩
    rw [← setIntegral_sdiff₀ (measurableSet_box u lo).nullMeasurableSet (hi.mono_set hsubv) hsub]
    have hfin : volume (Spec.box u up \ Spec.box u lo) < ⊤ :=
      (measure_mono Set.sdiff_subset).trans_lt (volume_box_lt u up)
    refine (le_abs_self _).trans ?_
    rw [← Real.norm_eq_abs]
    refine (norm_setIntegral_le_of_norm_le_const (C := |B|) hfin fun y hy => ?_).trans ?_
    · have hy' := hsubv hy.1
      exact (hB y ⟨fun i => (hy' i).1.le, fun i => (hy' i).2⟩).trans (le_abs_self B)
    · refine mul_le_mul_of_nonneg_left ?_ (abs_nonneg B)
      rw [measureReal_sdiff hsub (measurableSet_box u lo) (volume_box_lt u up).ne, volume_box fun i => c1.1 i,
        volume_box fun i => c2.1 i]
      exact (le_abs_self _).trans hPd.le
  have hdiff' : (∫ y in Spec.box u up, F y) / m - (∫ y in Spec.box u lo, F y) / m ≤ τ / 2 := by
    rw [← sub_div, div_le_iff₀ hm]
    refine hdiff.trans ?_
    have e : |B| * (τ * m / (2 * (|B| + 1))) = τ / 2 * m * (|B| / (|B| + 1)) := by
      field_simp
    rw [e]
    exact mul_le_of_le_one_right (by positivity) ((div_le_one (by positivity)).mpr (by linarith))
  rw [abs_le]
  constructor <;> linarith [e1.1, e1.2, e2.1, e2.2]

/-! ## The pdf of every `KDE` -/

/-- The function is continuous except on a closed set without volume. -/
def MostCont (F : (Fin d → ℝ) → ℝ) : Prop :=
  ∃ D : Set (Fin d → ℝ), IsClosed D ∧ volume D = 0 ∧ ∀ x ∉ D, ContinuousAt F x

lemma Continuous.mostCont {F : (Fin d → ℝ) → ℝ} (h : Continuous F) : MostCont F :=
  ⟨∅, isClosed_empty, measure_empty, fun _ _ => h.continuousAt⟩

lemma MostCont.add {F G : (Fin d → ℝ) → ℝ} (hF : MostCont F) (hG : MostCont G) : MostCont fun x => F x + G x := by
  obtain ⟨D, h1, h2, h3⟩ := hF
  obtain ⟨D', h1', h2', h3'⟩ := hG
  exact ⟨D ∪ D', h1.union h1', measure_union_null h2 h2', fun x hx =>
    (h3 x fun h => hx (.inl h)).add (h3' x fun h => hx (.inr h))⟩

lemma MostCont.mul_const {F : (Fin d → ℝ) → ℝ} (hF : MostCont F) (c : ℝ) : MostCont fun x => c * F x := by
  obtain ⟨D, h1, h2, h3⟩ := hF
  exact ⟨D, h1, h2, fun x hx => continuousAt_const.mul (h3 x hx)⟩

lemma MostCont.div_const {F : (Fin d → ℝ) → ℝ} (hF : MostCont F) (c : ℝ) : MostCont fun x => F x / c := by
  obtain ⟨D, h1, h2, h3⟩ := hF
  exact ⟨D, h1, h2, fun x hx => (h3 x hx).div_const c⟩

lemma MostCont.sum {α : Type*} {f : α → (Fin d → ℝ) → ℝ} (l : List α) (h : ∀ a ∈ l, MostCont (f a)) :
    MostCont fun x => (l.map fun a => f a x).sum := by
  induction l with
  | nil => simpa using Continuous.mostCont continuous_const
  | cons a l ih =>
    simp only [List.map_cons, List.sum_cons]
    exact (h a (by simp)).add (ih fun b hb => h b (by simp [hb]))

open Classical in
lemma MostCont.ite {F : (Fin d → ℝ) → ℝ} (hF : MostCont F) {P : (Fin d → ℝ) → Prop} (hP : Convex ℝ {x | P x}) :
    MostCont fun x => if P x then F x else 0 := by
  obtain ⟨D, h1, h2, h3⟩ := hF
  refine ⟨D ∪ frontier {x | P x}, h1.union isClosed_frontier, measure_union_null h2 (Convex.addHaar_frontier _ hP),
    fun x hx => ?_⟩
  have hx1 : x ∉ D := fun h => hx (.inl h)
  have hx2 : x ∉ frontier {x | P x} := fun h => hx (.inr h)
  by_cases hcl : x ∈ closure {x | P x}
  · have hint : x ∈ interior {x | P x} := by
      by_contra hcon
      exact hx2 ⟨hcl, hcon⟩
    refine (h3 x hx1).congr ?_
    filter_upwards [isOpen_interior.mem_nhds hint] with y hy
    exact (if_pos (interior_subset hy)).symm
  · refine (continuousAt_const (y := (0:ℝ))).congr ?_
    filter_upwards [isClosed_closure.isOpen_compl.mem_nhds hcl] with y hy
    exact (if_neg fun h => hy (subset_closure h)).symm

lemma convex_dist2 {M : Matrix (Fin d) (Fin d) ℝ} (hM : M.PosDef) (m : Fin d → ℝ) :
    Convex ℝ {x | Spec.dist2 M (x - m) ≤ 1} := by
  have hpos : ∀ x, 0 ≤ Spec.dist2 M x := fun x => by
    have := hM.inv.posSemidef.dotProduct_mulVec_nonneg x
    simpa [Spec.dist2] using this
  intro x hx y hy a b ha hb hab
  simp only [Set.mem_ofPred_eq] at hx hy ⊢
  have e : a • x + b • y - m = a • (x - m) + b • (y - m) := by
    have : m = (a + b) • m := by rw [hab, one_smul]
    conv_lhs => rw [this]
    module
  have hid : a * Spec.dist2 M (x - m) + b * Spec.dist2 M (y - m) - Spec.dist2 M (a • (x - m) + b • (y - m))
      = a * b * Spec.dist2 M ((x - m) - (y - m)) := by
    obtain rfl : b = 1 - a := by linarith
    generalize x - m = p
    generalize y - m = q
    simp only [Spec.dist2, Matrix.mulVec_add, Matrix.mulVec_sub, Matrix.mulVec_smul, add_dotProduct, sub_dotProduct,
      dotProduct_add, dotProduct_sub, smul_dotProduct, dotProduct_smul, smul_eq_mul]
    ring
  have := mul_nonneg (mul_nonneg ha hb) (hpos ((x - m) - (y - m)))
  rw [e]
  nlinarith

lemma kernelAt_mostCont (D : Dist) {M : Matrix (Fin d) (Fin d) ℝ} (hM : M.PosDef) (m : Fin d → ℝ) :
    MostCont fun x => Spec.kernelAt D M (x - m) := by
  classical
  unfold Spec.kernelAt
  refine MostCont.div_const ?_ _
  by_cases hD : D = .box
  · subst hD
    have := (Continuous.mostCont (d := d) (continuous_const (y := (1:ℝ)))).ite (convex_dist2 hM m)
    refine (congrArg MostCont ?_).mp this
    funext x
    simp only [Spec.shape]
  · exact Continuous.mostCont ((continuous_shape hD).comp ((continuous_dist2 _).comp (by fun_prop)))

lemma imageAverage_mostCont (D : Dist) {M : Matrix (Fin d) (Fin d) ℝ} (hM : M.PosDef) (l : List ((Fin d → ℝ) × ℝ))
    (m : (Fin d → ℝ) → Fin d → ℝ) : MostCont (imageAverage D M l m) :=
  (MostCont.sum l fun p _ => (kernelAt_mostCont D hM (m p.1)).mul_const p.2).div_const _

lemma convex_allowed (rows : List ReflRow) (P : Fin d → Prop) :
    Convex ℝ {x : Fin d → ℝ | ∀ i, P i → ¬ Spec.Violates (rows.getD i none) (x i)} := by
  have h1 : ∀ r : ReflRow, Convex ℝ {t : ℝ | ¬ Spec.Violates r t} := by
    intro r
    refine Set.OrdConnected.convex ⟨fun s hs t ht z hz => ?_⟩
    rintro ⟨lo, hi, hrow, hcase⟩
    rcases hcase with ⟨b, hb, hlt⟩ | ⟨b, hb, hlt⟩
    · exact hs ⟨lo, hi, hrow, .inl ⟨b, hb, hz.1.trans_lt hlt⟩⟩
    · exact ht ⟨lo, hi, hrow, .inr ⟨b, hb, hlt.trans_le hz.2⟩⟩
  intro x hx y hy a b ha hb hab i hi
  exact h1 (rows.getD i none) (hx i hi) (hy i hi) ha hb hab

/-- Every `KDE` has no boundaries, or has a list of boundaries. -/
lemma init_reflect_cases {E : Ext} {a : KDEArgs d} {k : KDE d} (h : KDE.init E a = .ok k) :
    KDE.init E { a with reflect := .none } = .ok k ∨ ∃ R, k.reflect = some R := by
  cases hR : k.reflect with
  | some R => exact .inr ⟨R, rfl⟩
  | none =>
    left
    obtain ⟨reflect, w, cov, bw0, D, out, eff, ext, h1, h2, h3, h4, h5, h6, h7, h8, h9, h10, rfl⟩ := init_inv h
    simp only at hR
    subst hR
    unfold KDE.init
    simp only [checkReflect, h3, h4, h5, h6, h7, h8, h9, h10]
    rw [if_neg h2, if_neg (by simp)]

/-- The pdf of every `KDE` (with any kernel, with or without boundaries) is nonnegative, and on every box it is bounded and
continuous except on a closed set without volume. -/
theorem C132_mostly {E : Ext} {a : KDEArgs d} {k : KDE d} (h : KDE.init E a = .ok k) (hd : 0 < d) (srt : List ℝ → List ℕ)
    (hM : (Spec.kernelMatrix k.covariance k.bandwidth).PosDef) {F : (Fin d → ℝ) → ℝ} (hF : Spec.Reports E srt k F)
    (u v : Fin d → ℝ) : (∀ x, 0 ≤ F x) ∧ Spec.MostlyContinuous F u v := by
  classical
  have key : ∀ {B : ℝ}, (∀ x, 0 ≤ F x ∧ F x ≤ B) → MostCont F → (∀ x, 0 ≤ F x) ∧ Spec.MostlyContinuous F u v := by
    rintro B hB ⟨D, h1, h2, h3⟩
    exact ⟨fun x => (hB x).1, ⟨B, fun x _ => by rw [abs_of_nonneg (hB x).1]; exact (hB x).2⟩, D, h1, h2,
      fun x hx => (h3 x hx.2).continuousWithinAt⟩
  rcases init_reflect_cases h with h' | ⟨R, hR⟩
  · obtain ⟨F', hF', hb, _, _⟩ := C132_regular h' srt hd rfl hM
    rw [← reports_unique hF hF'] at hb
    refine key hb ?_
    rw [reports_unique hF (reports_average h' srt hd rfl hM)]
    exact imageAverage_mostCont k.kernel.dist hM _ id
  · obtain ⟨F', hF', hb, _, _⟩ := C132_reflect h srt hd hM hR
    rw [← reports_unique hF hF'] at hb
    refine key hb ?_
    rw [reports_unique hF (reports_planes h srt hd hM hR)]
    refine MostCont.add (MostCont.ite (imageAverage_mostCont k.kernel.dist hM _ id) ?_) (MostCont.sum _ fun j _ =>
      MostCont.ite (MostCont.sum _ fun b _ => imageAverage_mostCont k.kernel.dist hM _ _) ?_)
    · simpa [Spec.Allowed] using convex_allowed (d := d) R fun _ => True
    · exact convex_allowed R fun i => j ≤ i

/-- **C176**, integral of the pdf on a grid, for every `KDE`: any kernel, with or without boundaries, and any box, which may reach
beyond the boundaries.  On every grid that covers the box in sufficiently small steps, `trapz_nd` of the pdf returned for the grid
is within `τ` of the integral of the pdf over the box. -/
theorem C176_all_integral {E : Ext} {a : KDEArgs d} {k : KDE d} (h : KDE.init E a = .ok k) (hd : 0 < d)
    (srt : List ℝ → List ℕ) (hM : (Spec.kernelMatrix k.covariance k.bandwidth).PosDef)
    {F : (Fin d → ℝ) → ℝ} (hF : Spec.Reports E srt k F) (u v : Fin d → ℝ) {τ : ℝ} (hτ : 0 < τ) :
    ∃ δ > 0, ∀ rows : List (List ℝ), Spec.IsGrid d rows → Spec.lowNode rows = u → Spec.topNode rows = v →
      (∀ (i : Fin d) (j : ℕ), j + 1 < (rows.getD i []).length →
        (rows.getD i []).getD (j + 1) 0 - (rows.getD i []).getD j 0 ≤ δ) →
      ∃ p arr T, (k.pdf E srt (some (.rows rows)) .none .none true).1 = .ok (p, arr) ∧
        trapzNd (arr.toND rows : NDArr d ℝ) rows = .ok T ∧ |T - ∫ y in Spec.box u v, F y| ≤ τ := by
  obtain ⟨_, hc⟩ := C132_mostly h hd srt hM hF u v
  obtain ⟨δ, hδ, hfine⟩ := varies_total_fine hc hτ
  refine ⟨δ, hδ, fun rows hg hu hv hmesh => ?_⟩
  obtain ⟨p, arr, h1, h2⟩ := C176_values hF hd hg.1
  obtain ⟨T, h3, h4⟩ := C176_trapz_total hg rfl h2 (hfine rows hg hu hv hmesh) (by rw [hu, hv]; exact mostly_integrable hc)
  rw [hu, hv] at h4
  exact ⟨p, arr, T, h1, h3, h4⟩

/-- **C176**, samples of the pdf on a grid, for every `KDE`: as `C176_reflect_samples`, for any kernel, with or without
boundaries, and for any box in which the integral of the pdf is positive. -/
theorem C176_all_samples {E : Ext} {a : KDEArgs d} {k : KDE d} (h : KDE.init E a = .ok k) (hd : 0 < d)
    {srt : List ℝ → List ℕ} (hsrt : ∀ l, IsArgsort (srt l) l)
    (hM : (Spec.kernelMatrix k.covariance k.bandwidth).PosDef)
    {F : (Fin d → ℝ) → ℝ} (hF : Spec.Reports E srt k F) {u v : Fin d → ℝ}
    (hm : 0 < ∫ y in Spec.box u v, F y) {A : Set (Fin d → ℝ)} (hA : MeasurableSet A) (hfr : volume (frontier A) = 0)
    {τ : ℝ} (hτ : 0 < τ) :
    ∃ δ > 0, ∀ rows : List (List ℝ), Spec.IsGrid d rows → Spec.lowNode rows = u → Spec.topNode rows = v →
      (∀ (i : Fin d) (j : ℕ), j + 1 < (rows.getD i []).length →
        (rows.getD i []).getD (j + 1) 0 - (rows.getD i []).getD j 0 ≤ δ) →
      ∃ p arr, (k.pdf E srt (some (.rows rows)) .none .none true).1 = .ok (p, arr) ∧
        ∃ g : SampleGrid d, SampleGrid.init srt rows (arr.toND rows) = .ok g ∧
          ∀ {Ω : Type} [MeasurableSpace Ω] (μ : Measure Ω) (r : Ω → Rand d), Spec.GridNumbers μ r →
            ∀ (interp : Bool) (n : ℕ), ∀ ε > 0,
              μ.real {ω | ¬ ∃ out, g.sample (r ω) (some n) interp = .ok out ∧
                |Spec.fraction (out.map Prod.fst) A - (∫ y in A ∩ Spec.box u v, F y) / ∫ y in Spec.box u v, F y| < ε + τ}
                ≤ 4 * Real.exp (-2 * n * ε ^ 2) := by
  obtain ⟨hF0, hc⟩ := C132_mostly h hd srt hM hF u v
  obtain ⟨δ, hδ, hs⟩ := C176_mostly hF0 hc hm hA hfr hτ
  refine ⟨δ, hδ, fun rows hg hu hv hmesh => ?_⟩
  obtain ⟨p, arr, h1, h2⟩ := C176_values hF hd hg.1
  obtain ⟨g, h3, h4⟩ := hs srt hsrt rows hg hu hv hmesh (arr.toND rows) rfl h2
  exact ⟨p, arr, h1, g, h3, h4⟩

/-- **C176**, samples without interpolation, for every `KDE`: as `C176_limit` (in every measurable set, and with a width `δ` that does
not depend on the set), for any kernel, with or without boundaries. -/
theorem C176_all_limit {E : Ext} {a : KDEArgs d} {k : KDE d} (h : KDE.init E a = .ok k) (hd : 0 < d)
    {srt : List ℝ → List ℕ} (hsrt : ∀ l, IsArgsort (srt l) l)
    (hM : (Spec.kernelMatrix k.covariance k.bandwidth).PosDef)
    {F : (Fin d → ℝ) → ℝ} (hF : Spec.Reports E srt k F) {u v : Fin d → ℝ} (hm : 0 < ∫ y in Spec.box u v, F y)
    {τ : ℝ} (hτ : 0 < τ) :
    ∃ δ > 0, ∀ rows : List (List ℝ), Spec.IsGrid d rows → Spec.lowNode rows = u → Spec.topNode rows = v →
      (∀ (i : Fin d) (j : ℕ), j + 1 < (rows.getD i []).length →
        (rows.getD i []).getD (j + 1) 0 - (rows.getD i []).getD j 0 ≤ δ) →
      ∃ p arr, (k.pdf E srt (some (.rows rows)) .none .none true).1 = .ok (p, arr) ∧
        ∃ g : SampleGrid d, SampleGrid.init srt rows (arr.toND rows) = .ok g ∧
          ∀ {Ω : Type} [MeasurableSpace Ω] (μ : Measure Ω) (r : Ω → Rand d), Spec.GridNumbers μ r →
            ∀ (n : ℕ) (A : Set (Fin d → ℝ)), MeasurableSet A → ∀ ε > 0,
              μ.real {ω | ¬ ∃ out, g.sample (r ω) (some n) false = .ok out ∧
                |Spec.fraction (out.map Prod.fst) A - (∫ y in A ∩ Spec.box u v, F y) / ∫ y in Spec.box u v, F y| < ε + τ}
                ≤ 2 * Real.exp (-2 * n * ε ^ 2) := by
  obtain ⟨hF0, hc⟩ := C132_mostly h hd srt hM hF u v
  set m := ∫ y in Spec.box u v, F y with hmdef
  obtain ⟨δ1, hδ1, hfine⟩ := varies_total_fine hc (W := τ * m / 2) (by positivity)
  obtain ⟨δ2, hδ2, hnear⟩ := pos_fine_on hc (hmdef ▸ hm)
  refine ⟨min δ1 δ2, by positivity, fun rows hg hu hv hmesh => ?_⟩
  obtain ⟨p, arr, h1, h2⟩ := C176_values hF hd hg.1
  obtain ⟨idx, hidx, hpos⟩ := hnear rows hg hu hv fun i j hj => (hmesh i j hj).trans (min_le_right _ _)
  obtain ⟨g, h3, h4⟩ := C176_frequencies_total hsrt hg hF0 (dens := arr.toND rows) rfl h2
    (hfine rows hg hu hv fun i j hj => (hmesh i j hj).trans (min_le_left _ _))
    (by rw [hu, hv]; exact mostly_integrable hc) (by rw [hu, hv]; exact hm) hidx hpos
  refine ⟨p, arr, h1, g, h3, fun {Ω} _ μ r hr' n A hA ε hε => ?_⟩
  have h5 := h4 μ r hr' n A hA ε hε
  rw [hu, hv, ← hmdef] at h5
  have hprob : IsProbabilityMeasure μ := (hr'.law 0).isProbabilityMeasure_iff.mpr inferInstance
  have herr : 2 * (τ * m / 2) / m = τ := by
    have := hm.ne'
    field_simp
  rw [herr] at h5
  exact h5

/-- **C174**, limit for grids given by the user, for every `KDE`: as `C174_reflect`, for any kernel, with or without
boundaries, and for any box in which the integral of the pdf is positive. -/
theorem C174_all {E : Ext} {a : KDEArgs d} {k : KDE d} (h : KDE.init E a = .ok k) (hd : 0 < d) (srt : List ℝ → List ℕ)
    (hM : (Spec.kernelMatrix k.covariance k.bandwidth).PosDef)
    (hsq : a.squeeze = true → d = 1) {F : (Fin d → ℝ) → ℝ} (hF : Spec.Reports E srt k F) {u v : Fin d → ℝ}
    (hm : 0 < ∫ y in Spec.box u v, F y) {τ : ℝ} (hτ : 0 < τ) :
    ∃ δ > 0, ∀ rows : List (List ℝ), rows.length = d → (∀ row ∈ rows, 2 ≤ row.length ∧ row.Pairwise (· < ·)) →
      Spec.lowNode rows = u → Spec.topNode rows = v →
      (∀ (i : Fin d) (j : ℕ), j + 1 < (rows.getD i []).length →
        (rows.getD i []).getD (j + 1) 0 - (rows.getD i []).getD j 0 ≤ δ) →
      ∃ (k' : KDE d) (G : (Fin d → ℝ) → ℝ), KDE.init E { a with points := .list (rows.map .arr) } = .ok k' ∧
        Spec.Reports E srt k' F ∧ Spec.ReportsCdf E srt k' G ∧
        ∀ x ∈ Set.Icc u v, |G x - (∫ y in Spec.box u x, F y) / ∫ y in Spec.box u v, F y| ≤ τ := by
  obtain ⟨_, hc⟩ := C132_mostly h hd srt hM hF u v
  obtain ⟨δ1, hδ1, hlim⟩ := C174_mostly hd hc hm hτ
  obtain ⟨δ2, hδ2, hnear⟩ := pos_fine_on hc hm
  refine ⟨min δ1 δ2, by positivity, fun rows hl hrows hu hv hmesh => ?_⟩
  have hk' := init_points h (.list (rows.map .arr))
  have hF' : Spec.Reports E srt { k with pointsSpec := .list (rows.map .arr) } F := by
    rcases init_reflect_cases h with h' | ⟨R, hR⟩
    · have h1 := reports_average (init_points h' (.list (rows.map .arr))) srt hd rfl hM
      have h2 := reports_average h' srt hd rfl hM
      rwa [reports_unique hF h2]
    · have h1 := reports_planes hk' srt hd hM hR
      have h2 := reports_planes h srt hd hM hR
      rwa [reports_unique hF h2]
  obtain ⟨pts, hp, hpr⟩ := points_rows hk' hd srt hl rfl hsq
  obtain ⟨idx, hidx, hpos⟩ := hnear rows ⟨hl, hrows⟩ hu hv fun i j hj => (hmesh i j hj).trans (min_le_right _ _)
  obtain ⟨G0, hG0⟩ := C174_succeeds hk' hd srt hF' hp (by rw [hpr]; exact hl) (by rw [hpr]; exact hrows)
    (idx := idx) (by rw [hpr]; exact hidx) (by rw [hpr]; exact hpos)
  obtain ⟨G, hG, hval⟩ := hlim E _ _ srt pts _ _ hk' hF' hp (hG0 [] []) (by rw [hpr]; exact hu) (by rw [hpr]; exact hv)
    (by rw [hpr]; exact fun i j hj => (hmesh i j hj).trans (min_le_left _ _))
  exact ⟨_, G, hk', hF', hG, hval⟩

/-! ## The whole distribution -/

open Classical in
lemma integrable_ite {F : (Fin d → ℝ) → ℝ} (hF : Integrable F) {P : (Fin d → ℝ) → Prop} (hP : Convex ℝ {x | P x}) :
    Integrable fun x => if P x then F x else 0 := by
  have : (fun x => if P x then F x else 0) = Set.indicator {x | P x} F := by
    funext x
    simp only [Set.indicator, Set.mem_ofPred_eq]
  rw [this]
  exact hF.indicator₀ (hP.nullMeasurableSet volume)

lemma integrable_sums {α : Type*} {f : α → (Fin d → ℝ) → ℝ} (l : List α) (h : ∀ a ∈ l, Integrable (f a)) :
    Integrable fun x => (l.map fun a => f a x).sum := by
  induction l with
  | nil => simp
  | cons a l ih =>
    simp only [List.map_cons, List.sum_cons]
    exact (h a (by simp)).add (ih fun b hb => h b (by simp [hb]))

lemma imageAverage_integrable (hd : 0 < d) (D : Dist) {M : Matrix (Fin d) (Fin d) ℝ} (hM : M.PosDef)
    (l : List ((Fin d → ℝ) × ℝ)) (m : (Fin d → ℝ) → Fin d → ℝ) : Integrable (imageAverage D M l m) :=
  (integrable_sums l fun p _ => ((integrable_shape_dist2 hd D hM (m p.1)).div_const _).const_mul p.2).div_const _

/-- The pdf of every `KDE` is integrable. -/
lemma pdf_integrable {E : Ext} {a : KDEArgs d} {k : KDE d} (h : KDE.init E a = .ok k) (hd : 0 < d) (srt : List ℝ → List ℕ)
    (hM : (Spec.kernelMatrix k.covariance k.bandwidth).PosDef) {F : (Fin d → ℝ) → ℝ} (hF : Spec.Reports E srt k F) :
    Integrable F := by
  classical
  rcases init_reflect_cases h with h' | ⟨R, hR⟩
  · exact (pdf_facts h' srt hd rfl hM hF).1
  · rw [reports_unique hF (reports_planes h srt hd hM hR)]
    refine Integrable.add (integrable_ite (imageAverage_integrable hd k.kernel.dist hM _ id) ?_) (integrable_sums _ fun j _ =>
      integrable_ite (integrable_sums _ fun b _ => imageAverage_integrable hd k.kernel.dist hM _ _) ?_)
    · simpa [Spec.Allowed] using convex_allowed (d := d) R fun _ => True
    · exact convex_allowed R fun i => j ≤ i

/-- **C174**, limit: `cdf` is the cumulative distribution function, for every `KDE` (any kernel, with or without boundaries) whose
pdf is not zero almost everywhere.  For any tolerance `τ`: on every sufficiently large box, if the same `KDE` is constructed
with arrays of evaluation points that cover the box in sufficiently small steps, its `cdf` succeeds and at every point `x` of the
box it is within `τ` of the integral of the pdf over all `y ≤ x` divided by the integral of the pdf. -/
theorem C174_cdf_all {E : Ext} {a : KDEArgs d} {k : KDE d} (h : KDE.init E a = .ok k) (hd : 0 < d) (srt : List ℝ → List ℕ)
    (hM : (Spec.kernelMatrix k.covariance k.bandwidth).PosDef)
    (hsq : a.squeeze = true → d = 1) {F : (Fin d → ℝ) → ℝ} (hF : Spec.Reports E srt k F) (hT : 0 < ∫ y, F y)
    {τ : ℝ} (hτ : 0 < τ) :
    ∃ R : ℝ, ∀ u v : Fin d → ℝ, (∀ i, u i ≤ -R) → (∀ i, R ≤ v i) →
    ∃ δ > 0, ∀ rows : List (List ℝ), rows.length = d → (∀ row ∈ rows, 2 ≤ row.length ∧ row.Pairwise (· < ·)) →
      Spec.lowNode rows = u → Spec.topNode rows = v →
      (∀ (i : Fin d) (j : ℕ), j + 1 < (rows.getD i []).length →
        (rows.getD i []).getD (j + 1) 0 - (rows.getD i []).getD j 0 ≤ δ) →
      ∃ (k' : KDE d) (G : (Fin d → ℝ) → ℝ), KDE.init E { a with points := .list (rows.map .arr) } = .ok k' ∧
        Spec.Reports E srt k' F ∧ Spec.ReportsCdf E srt k' G ∧
        ∀ x ∈ Set.Icc u v, |G x - (∫ y in {y | ∀ i, y i ≤ x i}, F y) / ∫ y, F y| ≤ τ := by
  set T := ∫ y, F y with hTdef
  have hI : Integrable fun x => F x / T := (pdf_integrable h hd srt hM hF).div_const T
  have hFn : ∀ x, 0 ≤ F x / T := fun x => div_nonneg ((C132_mostly h hd srt hM hF 0 0).1 x) hT.le
  have hone : ∫ y, F y / T = 1 := by rw [integral_div, ← hTdef, div_self hT.ne']
  obtain ⟨R, hR⟩ := box_mass hI hFn hone (ε := min (τ / 2) (1 / 2)) (by positivity)
  refine ⟨R, fun u v hu hv => ?_⟩
  have hmass := hR u v hu hv
  have hm' : 0 < ∫ y in Spec.box u v, F y / T := by linarith [min_le_right (τ / 2) (1 / 2)]
  have hm : 0 < ∫ y in Spec.box u v, F y := by
    rw [integral_div] at hm'
    exact (div_pos_iff_of_pos_right hT).mp hm'
  obtain ⟨δ, hδ, hgrid⟩ := C174_all h hd srt hM hsq hF hm (half_pos hτ)
  refine ⟨δ, hδ, fun rows hl hrows hlo hto hmesh => ?_⟩
  obtain ⟨k', G, hk', hF', hG, hval⟩ := hgrid rows hl hrows hlo hto hmesh
  refine ⟨k', G, hk', hF', hG, fun x hx =>
    (abs_sub_le _ ((∫ y in Spec.box u x, F y) / ∫ y in Spec.box u v, F y) _).trans ?_⟩
  have hce := cond_error hI hFn hone hm' hx.2
  rw [integral_div] at hmass
  simp only [integral_div] at hce
  rw [div_div_div_cancel_right₀ hT.ne'] at hce
  linarith [hval x hx, min_le_left (τ / 2) (1 / 2)]

/-- **C174**, limit: as `C174_cdf`, for every kernel, including the box. -/
theorem C174_cdf_kernels {E : Ext} {a : KDEArgs d} {k : KDE d} (h : KDE.init E a = .ok k) (hd : 0 < d) (srt : List ℝ → List ℕ)
    (hr : a.reflect = .none) (hM : (Spec.kernelMatrix k.covariance k.bandwidth).PosDef)
    (hsq : a.squeeze = true → d = 1) {F : (Fin d → ℝ) → ℝ} (hF : Spec.Reports E srt k F) {τ : ℝ} (hτ : 0 < τ) :
    ∃ R : ℝ, ∀ u v : Fin d → ℝ, (∀ i, u i ≤ -R) → (∀ i, R ≤ v i) →
    ∃ δ > 0, ∀ rows : List (List ℝ), rows.length = d → (∀ row ∈ rows, 2 ≤ row.length ∧ row.Pairwise (· < ·)) →
      Spec.lowNode rows = u → Spec.topNode rows = v →
      (∀ (i : Fin d) (j : ℕ), j + 1 < (rows.getD i []).length →
        (rows.getD i []).getD (j + 1) 0 - (rows.getD i []).getD j 0 ≤ δ) →
      ∃ (k' : KDE d) (G : (Fin d → ℝ) → ℝ), KDE.init E { a with points := .list (rows.map .arr) } = .ok k' ∧
        Spec.Reports E srt k' F ∧ Spec.ReportsCdf E srt k' G ∧
        ∀ x ∈ Set.Icc u v, |G x - ∫ y in {y | ∀ i, y i ≤ x i}, F y| ≤ τ := by
  have hone : ∫ y, F y = 1 := by
    obtain ⟨F', hF', _, h1⟩ := C07_normalised h srt hd hr hM
    rwa [reports_unique (fun pts => hF' [] pts) hF] at h1
  have := C174_cdf_all h hd srt hM hsq hF (by rw [hone]; exact one_pos) hτ
  simpa only [hone, div_one] using this

/-- **C176**, integral of the pdf over everything: for any `KDE` without boundaries (any kernel) and any tolerance `τ`, on every
sufficiently large box and every grid that covers it in sufficiently small steps, `trapz_nd` of the pdf returned for the grid is
within `τ` of 1. -/
theorem C176_unit {E : Ext} {a : KDEArgs d} {k : KDE d} (h : KDE.init E a = .ok k) (hd : 0 < d) (srt : List ℝ → List ℕ)
    (hr : a.reflect = .none) (hM : (Spec.kernelMatrix k.covariance k.bandwidth).PosDef) {τ : ℝ} (hτ : 0 < τ) :
    ∃ R : ℝ, ∀ u v : Fin d → ℝ, (∀ i, u i ≤ -R) → (∀ i, R ≤ v i) →
    ∃ δ > 0, ∀ rows : List (List ℝ), Spec.IsGrid d rows → Spec.lowNode rows = u → Spec.topNode rows = v →
      (∀ (i : Fin d) (j : ℕ), j + 1 < (rows.getD i []).length →
        (rows.getD i []).getD (j + 1) 0 - (rows.getD i []).getD j 0 ≤ δ) →
      ∃ p arr T, (k.pdf E srt (some (.rows rows)) .none .none true).1 = .ok (p, arr) ∧
        trapzNd (arr.toND rows : NDArr d ℝ) rows = .ok T ∧ |T - 1| ≤ τ := by
  obtain ⟨F, hF', hI, hone⟩ := C07_normalised h srt hd hr hM
  have hF : Spec.Reports E srt k F := fun pts => hF' [] pts
  have hFn := (C132_mostly h hd srt hM hF 0 0).1
  obtain ⟨R, hR⟩ := box_mass hI hFn hone (half_pos hτ)
  refine ⟨R, fun u v hu hv => ?_⟩
  have h1 := hR u v hu hv
  have h2 : ∫ y in Spec.box u v, F y ≤ 1 := hone ▸ setIntegral_le_integral hI (Filter.Eventually.of_forall hFn)
  obtain ⟨δ, hδ, hgrid⟩ := C176_all_integral h hd srt hM hF u v (half_pos hτ)
  refine ⟨δ, hδ, fun rows hg hlo hto hmesh => ?_⟩
  obtain ⟨p, arr, T, h3, h4, h5⟩ := hgrid rows hg hlo hto hmesh
  refine ⟨p, arr, T, h3, h4, ?_⟩
  rw [abs_le] at h5 ⊢
  constructor <;> linarith [h5.1, h5.2]

/-! ## Concrete cases -/

/-- Concrete case of the hypotheses of `C132_mostly`, `C176_all_integral`, `C176_all_samples`, `C176_all_limit`, `C174_all`, `C174_cdf_all` and
(with `C132_mostly`) of `C176_mostly` and `C174_mostly`: one value 1, the boundaries 0 and 2, and the box kernel; the box reaches
from -1 to 3, beyond both boundaries. -/
example (E : Ext) (srt : List ℝ → List ℕ) : ∃ (a : KDEArgs 1) (k : KDE 1) (F : (Fin 1 → ℝ) → ℝ),
    KDE.init E a = .ok k ∧ (Spec.kernelMatrix k.covariance k.bandwidth).PosDef ∧ k.kernel.dist = .box ∧
      Spec.Reports E srt k F ∧ k.reflect = some (Spec.onlyDim (0 : Fin 1) (some 0, some 2)) ∧ (a.squeeze = true → 1 = 1) ∧
      0 < ∫ y in Spec.box (fun _ => -1) (fun _ => 3), F y ∧ 0 < ∫ y, F y := by
  have hrow : ∀ t : ℝ, ¬ Spec.Violates (some (some 0, some 2)) t ↔ 0 ≤ t ∧ t ≤ 2 := by
    intro t
    rw [not_violates]
    simp [Spec.inside]
  obtain ⟨k, hk, hw, hD, hM, hr, _, _⟩ := unit_init_reflect E ([fun _ => 1] : List (Fin 1 → ℝ)) (by simp) .box rfl
    (Spec.onlyDim (0 : Fin 1) (some 0, some 2)) (by simp [Spec.onlyDim]) (by
      intro lo hi h
      simp [Spec.onlyDim] at h
      obtain ⟨rfl, rfl⟩ := h
      norm_num) ⟨(some 0, some 2), by simp [Spec.onlyDim]⟩
  have hpd : (Spec.kernelMatrix k.covariance k.bandwidth).PosDef := by rw [hM]; exact Matrix.PosDef.one
  obtain ⟨F, hF, hone⟩ := C12_reflect_partial hk srt one_pos hpd 0 (some 0) (some 2) hr (by
    rintro l u ⟨⟩ ⟨⟩
    refine ⟨by rw [hD]; rfl, fun x hx => ?_⟩
    obtain rfl : x = fun _ => 1 := by simpa using hx
    rw [hM]
    norm_num)
  have hFr : Spec.Reports E srt k F := fun pts => hF [] pts
  obtain ⟨hF0, hc⟩ := C132_mostly hk one_pos srt hpd hFr (fun _ => -1) (fun _ => 3)
  suffices hpos : 0 < ∫ y in Spec.box (fun _ => -1) (fun _ => 3), F y from
    ⟨_, k, F, hk, hpd, hD, hFr, hr, fun _ => rfl, hpos, hpos.trans_le (setIntegral_le_integral
      (pdf_integrable hk one_pos srt hpd hFr) (Filter.Eventually.of_forall hF0))⟩
  refine lt_of_lt_of_le one_pos (hone.symm.le.trans ?_)
  refine setIntegral_mono_set (mostly_integrable hc) (Filter.Eventually.of_forall hF0) (LE.le.eventuallyLE fun x hx i => ?_)
  have := (hrow (x 0)).mp (by simpa [Spec.onlyDim] using hx 0)
  obtain rfl : i = 0 := Subsingleton.elim _ _
  constructor <;> linarith [this.1, this.2]

/-- Concrete case of the hypotheses of `C174_cdf_kernels` and `C176_unit`: one data point 0 and the box kernel. -/
example (E : Ext) (srt : List ℝ → List ℕ) : ∃ (a : KDEArgs 1) (k : KDE 1) (F : (Fin 1 → ℝ) → ℝ),
    KDE.init E a = .ok k ∧ a.reflect = .none ∧ (Spec.kernelMatrix k.covariance k.bandwidth).PosDef ∧ k.kernel.dist = .box ∧
      (a.squeeze = true → 1 = 1) ∧ Spec.Reports E srt k F := by
  obtain ⟨k, hk, _, hD, hM⟩ := unit_init E ([fun _ => 0] : List (Fin 1 → ℝ)) (by simp) [1]
    ⟨rfl, by simp, 1, by simp, one_pos⟩ .box rfl
  have hpd : (Spec.kernelMatrix k.covariance k.bandwidth).PosDef := by rw [hM]; exact Matrix.PosDef.one
  exact ⟨_, k, _, hk, rfl, hpd, hD, fun _ => rfl, reports_average hk srt one_pos rfl hpd⟩

/-- Concrete case of the hypothesis of `C176_trapz_total`, `C176_samples_total`, `C176_frequencies_total`, `C176_bins_total` and
`C174_integral_total`: a step from 0 to 1 at 1/2 on the grid 0, 1, 2 varies by 1 in the first cell and not at all in the second. -/
example : Spec.VariesTotal (d := 1) [[0, 1, 2]] (fun x => if x 0 ≤ 1 / 2 then 0 else 1) 1 := by
  refine ⟨fun j => if j 0 = 0 then 1 else 0, fun j hj y z hy hz => ?_, ?_⟩
  · have h0 : j 0 + 1 < 3 := by simpa using hj 0
    have hy := (hy 0).1
    have hz := (hz 0).1
    show |(if y 0 ≤ 1 / 2 then (0 : ℝ) else 1) - if z 0 ≤ 1 / 2 then (0 : ℝ) else 1| ≤ if j 0 = 0 then 1 else 0
    rcases (by omega : j 0 = 0 ∨ j 0 = 1) with h | h
    · rw [if_pos h]
      split_ifs <;> norm_num
    · simp only [Spec.node, h] at hy hz
      norm_num at hy hz
      rw [if_neg (by linarith : ¬ y 0 ≤ 1 / 2), if_neg (by linarith : ¬ z 0 ≤ 1 / 2), if_neg (by omega)]
      norm_num
  · have hset : Fintype.piFinset (fun i : Fin 1 => Finset.range (Spec.lastIdx (d := 1) [[0, 1, 2]] i))
        = {fun _ => 0, fun _ => 1} := by
      ext j
      simp only [Fintype.mem_piFinset, Finset.mem_range, Finset.mem_insert, Finset.mem_singleton, Spec.lastIdx]
      constructor
      · intro h
        have h0 : j 0 < 2 := by simpa using h 0
        rcases (by omega : j 0 = 0 ∨ j 0 = 1) with h1 | h1
        · exact .inl (funext fun i => by rw [Subsingleton.elim i 0, h1])
        · exact .inr (funext fun i => by rw [Subsingleton.elim i 0, h1])
      · rintro (rfl | rfl) i <;> rw [Subsingleton.elim i 0] <;> simp
    rw [hset, Finset.sum_pair (fun h => by simpa using congrFun h 0),
      volume_box fun i => by rw [Subsingleton.elim i 0]; simp [Spec.node]]
    simp [Spec.node]

end Kalepy
