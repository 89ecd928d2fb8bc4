import Verif.Props.GridPdf
import Verif.Props.RegularityReflect
import Mathlib.MeasureTheory.Constructions.BorelSpace.Metric
import Mathlib.Analysis.Convex.Measure

/-!
# C174 and C176 with the default interpolation, and with boundaries
-/

namespace Kalepy

open MeasureTheory ProbabilityTheory Filter Topology

variable {d : ℕ}

/-- Specification: on the box between `u` and `v` the function is bounded, and it is continuous there except on a closed set
without volume. -/
def Spec.MostlyContinuous (F : (Fin d → ℝ) → ℝ) (u v : Fin d → ℝ) : Prop :=
  (∃ B, ∀ x ∈ Set.Icc u v, |F x| ≤ B) ∧
    ∃ D : Set (Fin d → ℝ), IsClosed D ∧ volume D = 0 ∧ ContinuousOn F (Set.Icc u v \ D)

lemma mostly_of_continuousOn {F : (Fin d → ℝ) → ℝ} {u v : Fin d → ℝ} (hc : ContinuousOn F (Set.Icc u v)) :
    Spec.MostlyContinuous F u v :=
  ⟨isCompact_Icc.exists_bound_of_continuousOn hc, ∅, isClosed_empty, measure_empty, by simpa using hc⟩

lemma box_subset_Icc (u v : Fin d → ℝ) : Spec.box u v ⊆ Set.Icc u v :=
  fun _ hy => ⟨fun i => (hy i).1.le, fun i => (hy i).2⟩

lemma mostly_integrable {F : (Fin d → ℝ) → ℝ} {u v : Fin d → ℝ} (hc : Spec.MostlyContinuous F u v) :
    IntegrableOn F (Spec.box u v) := by
  obtain ⟨⟨B, hB⟩, D, hDc, hD0, hcont⟩ := hc
  have hm : MeasurableSet (Set.Icc u v \ D) := measurableSet_Icc.diff hDc.measurableSet
  have h1 : AEStronglyMeasurable F (volume.restrict (Set.Icc u v)) := by
    rw [← Measure.restrict_congr_set (sdiff_null_ae_eq_self hD0)]
    exact hcont.aestronglyMeasurable hm
  have h2 : IntegrableOn F (Set.Icc u v) := IntegrableOn.of_bound isCompact_Icc.measure_lt_top h1 B
    ((ae_restrict_iff' measurableSet_Icc).mpr (Filter.Eventually.of_forall hB))
  exact h2.mono_set (box_subset_Icc u v)

/-- The volume near a closed set without volume is small. -/
lemma thin {D : Set (Fin d → ℝ)} (hDc : IsClosed D) (hD0 : volume D = 0) (u v : Fin d → ℝ) {ε : ℝ} (hε : 0 < ε) :
    ∃ ρ > 0, volume (Metric.cthickening ρ D ∩ Set.Icc u v) ≤ ENNReal.ofReal ε := by
  have hfin : IsFiniteMeasure (volume.restrict (Set.Icc u v)) :=
    ⟨by rw [Measure.restrict_apply_univ]; exact isCompact_Icc.measure_lt_top⟩
  have ht := tendsto_measure_cthickening_of_isClosed (μ := volume.restrict (Set.Icc u v)) (s := D)
    ⟨1, one_pos, measure_ne_top _ _⟩ hDc
  have h0 : volume.restrict (Set.Icc u v) D = 0 :=
    le_antisymm ((Measure.restrict_apply_le _ _).trans hD0.le) zero_le
  rw [h0] at ht
  obtain ⟨δ, hδ, hball⟩ := Metric.eventually_nhds_iff.mp (ht.eventually (gt_mem_nhds (ENNReal.ofReal_pos.mpr hε)))
  refine ⟨δ / 2, by positivity, ?_⟩
  rw [← Measure.restrict_apply Metric.isClosed_cthickening.measurableSet]
  refine (hball ?_).le
  rw [Real.dist_eq, sub_zero, abs_of_pos (by positivity)]
  linarith

lemma cell_subset_Icc {rows : List (List ℝ)} (hg : Spec.IsGrid d rows) {j : Fin d → ℕ}
    (hj : ∀ i : Fin d, j i + 1 < (rows.getD i []).length) {y : Fin d → ℝ}
    (hy : ∀ i, Spec.node rows j i ≤ y i ∧ y i ≤ Spec.node rows (fun i => j i + 1) i) :
    y ∈ Set.Icc (Spec.lowNode rows) (Spec.topNode rows) :=
  ⟨fun i => (getD_mono (isGrid_row hg i).2 (Nat.zero_le _) (by have := hj i; omega)).trans (hy i).1,
    fun i => (hy i).2.trans (getD_mono (isGrid_row hg i).2 (Nat.le_sub_one_of_lt (hj i))
      (by have := hj i; unfold Spec.lastIdx; omega))⟩

/-- On fine grids the variations within the cells, each times the volume of the cell, have a small sum. -/
lemma varies_total_fine {F : (Fin d → ℝ) → ℝ} {u v : Fin d → ℝ} (hc : Spec.MostlyContinuous F u v) {W : ℝ} (hW : 0 < W) :
    ∃ δ > 0, ∀ rows : List (List ℝ), Spec.IsGrid d rows → Spec.lowNode rows = u → Spec.topNode rows = v →
      (∀ (i : Fin d) (j : ℕ), j + 1 < (rows.getD i []).length →
        (rows.getD i []).getD (j + 1) 0 - (rows.getD i []).getD j 0 ≤ δ) → Spec.VariesTotal rows F W := by
  classical
  obtain ⟨⟨B, hB⟩, D, hDc, hD0, hcont⟩ := hc
  set V := ∏ i, (v i - u i) with hV
  obtain ⟨ρ, hρ, hthin⟩ := thin hDc hD0 u v (ε := W / (2 * (2 * |B| + 1))) (by positivity)
  have hK : IsCompact (Set.Icc u v \ Metric.thickening (ρ / 2) D) :=
    isCompact_Icc.diff Metric.isOpen_thickening
  have hcK : ContinuousOn F (Set.Icc u v \ Metric.thickening (ρ / 2) D) :=
    hcont.mono (Set.sdiff_subset_sdiff_right (Metric.self_subset_thickening (by positivity) D))
  obtain ⟨δ, hδ, h1⟩ := Metric.uniformContinuousOn_iff.mp (hK.uniformContinuousOn_of_continuous hcK)
    (W / (2 * (|V| + 1))) (by positivity)
  refine ⟨min (δ / 2) (ρ / 4), by positivity, fun rows hg hu hv hmesh => ?_⟩
  set cell : (Fin d → ℕ) → Set (Fin d → ℝ) := fun j => Spec.box (Spec.node rows j) (Spec.node rows fun i => j i + 1)
    with hcell
  set T := Fintype.piFinset fun i => Finset.range (Spec.lastIdx (d := d) rows i) with hT
  have hs' := fun i => (isGrid_row hg i).2
  have hlast := lastIdx_lt hg
  have hdist : ∀ j : Fin d → ℕ, (∀ i : Fin d, j i + 1 < (rows.getD i []).length) → ∀ y z : Fin d → ℝ,
      (∀ i, Spec.node rows j i ≤ y i ∧ y i ≤ Spec.node rows (fun i => j i + 1) i) →
      (∀ i, Spec.node rows j i ≤ z i ∧ z i ≤ Spec.node rows (fun i => j i + 1) i) →
      dist y z ≤ min (δ / 2) (ρ / 4) := by
    intro j hj y z hy hz
    refine (dist_pi_le_iff (by positivity)).mpr fun i => ?_
    have hs : Spec.node rows (fun i => j i + 1) i - Spec.node rows j i ≤ min (δ / 2) (ρ / 4) := hmesh i (j i) (hj i)
    rw [Real.dist_eq, abs_le]
    constructor <;> linarith [(hy i).1, (hy i).2, (hz i).1, (hz i).2]
  refine ⟨fun j => if cell j ⊆ Metric.cthickening ρ D then 2 * |B| else W / (2 * (|V| + 1)), fun j hj y z hy hz => ?_, ?_⟩
  · have hyI := hu ▸ hv ▸ cell_subset_Icc hg hj hy
    have hzI := hu ▸ hv ▸ cell_subset_Icc hg hj hz
    dsimp only
    split_ifs with hcase
    · refine (abs_sub _ _).trans ?_
      linarith [hB y hyI, hB z hzI, le_abs_self B]
    · obtain ⟨p, hp, hpD⟩ := Set.not_subset.mp hcase
      have hp' : ∀ i, Spec.node rows j i ≤ p i ∧ p i ≤ Spec.node rows (fun i => j i + 1) i := fun i =>
        ⟨(hp i).1.le, (hp i).2⟩
      have hfar : ∀ q, (∀ i, Spec.node rows j i ≤ q i ∧ q i ≤ Spec.node rows (fun i => j i + 1) i) →
          q ∉ Metric.thickening (ρ / 2) D := by
        intro q hq hqD
        obtain ⟨z, hzD, hqz⟩ := Metric.mem_thickening_iff.mp hqD
        refine hpD (Metric.mem_cthickening_of_dist_le p z ρ D hzD ?_)
        have := (hdist j hj p q hp' hq).trans (min_le_right _ _)
        linarith [dist_triangle p q z]
      refine (h1 y ⟨hyI, hfar y hy⟩ z ⟨hzI, hfar z hz⟩ ?_).le
      have := (hdist j hj y z hy hz).trans (min_le_left _ _)
      linarith
  · have hsub : ∀ j ∈ T, cell j ⊆ Spec.box u v := fun j hj => by
      rw [← hu, ← hv, Spec.topNode, box_cells hs' hlast]
      exact Set.subset_biUnion_of_mem (u := cell) hj
    have hdisj := cells_disjoint hs' hlast
    have hvol : ∑ j ∈ T, volume.real (cell j) = V := by
      rw [hV, ← hu, ← hv, cells_volume hg]
    have hthick : ∑ j ∈ T.filter (fun j => cell j ⊆ Metric.cthickening ρ D), volume.real (cell j)
        ≤ W / (2 * (2 * |B| + 1)) := by
      rw [← measureReal_biUnion_finset (fun j hj j' hj' hne => hdisj (Finset.mem_filter.mp hj).1 (Finset.mem_filter.mp hj').1 hne)
        (fun j _ => measurableSet_box _ _) fun j _ => (volume_box_lt _ _).ne, measureReal_def]
      refine ENNReal.toReal_le_of_le_ofReal (by positivity) (le_trans (measure_mono ?_) hthin)
      refine Set.iUnion₂_subset fun j hj => Set.subset_inter (Finset.mem_filter.mp hj).2 ?_
      exact (hsub j (Finset.mem_filter.mp hj).1).trans (box_subset_Icc u v)
    have hV0 : 0 ≤ V := hvol ▸ Finset.sum_nonneg fun j _ => measureReal_nonneg
    have hle : ∑ j ∈ T, (if cell j ⊆ Metric.cthickening ρ D then 2 * |B| else W / (2 * (|V| + 1))) * volume.real (cell j)
        ≤ 2 * |B| * ∑ j ∈ T.filter (fun j => cell j ⊆ Metric.cthickening ρ D), volume.real (cell j)
          + W / (2 * (|V| + 1)) * ∑ j ∈ T, volume.real (cell j) := by
      rw [Finset.sum_filter, Finset.mul_sum, Finset.mul_sum, ← Finset.sum_add_distrib]
      refine Finset.sum_le_sum fun j _ => ?_
      have h0 : 0 ≤ W / (2 * (|V| + 1)) * volume.real (cell j) := mul_nonneg (by positivity) measureReal_nonneg
      split_ifs
      · linarith
      · linarith
    refine hle.trans ?_
    rw [hvol]
    have e1 : 2 * |B| * ∑ j ∈ T.filter (fun j => cell j ⊆ Metric.cthickening ρ D), volume.real (cell j) ≤ W / 2 := by
      refine (mul_le_mul_of_nonneg_left hthick (by positivity)).trans ?_
      rw [mul_div_assoc', div_le_div_iff₀ (by positivity) (by norm_num)]
      nlinarith
    have e2 : W / (2 * (|V| + 1)) * V ≤ W / 2 := by
      rw [div_mul_eq_mul_div, div_le_div_iff₀ (by positivity) (by norm_num)]
      nlinarith [abs_of_nonneg hV0]
    linarith

/-- If the integral is positive, the function is positive at some point of every fine grid. -/
lemma pos_fine_on {F : (Fin d → ℝ) → ℝ} {u v : Fin d → ℝ} (hc : Spec.MostlyContinuous F u v)
    (hm : 0 < ∫ y in Spec.box u v, F y) :
    ∃ δ > 0, ∀ rows : List (List ℝ), Spec.IsGrid d rows → Spec.lowNode rows = u → Spec.topNode rows = v →
      (∀ (i : Fin d) (j : ℕ), j + 1 < (rows.getD i []).length →
        (rows.getD i []).getD (j + 1) 0 - (rows.getD i []).getD j 0 ≤ δ) →
      ∃ idx : Fin d → ℕ, (∀ i : Fin d, idx i < (rows.getD i []).length) ∧ 0 < F (Spec.node rows idx) := by
  obtain ⟨_, D, hDc, hD0, hcont⟩ := hc
  obtain ⟨y, hy, hyD, hyp⟩ : ∃ y ∈ Spec.box u v, y ∉ D ∧ 0 < F y := by
    by_contra hcon
    push Not at hcon
    refine absurd ?_ (not_le.mpr hm)
    refine integral_nonpos_of_ae ?_
    have h1 : ∀ᵐ y ∂volume, y ∉ D := measure_eq_zero_iff_ae_notMem.mp hD0
    filter_upwards [ae_restrict_mem (measurableSet_box u v), ae_restrict_of_ae h1] with y h2 h3
    exact hcon y h2 h3
  have hcy : ContinuousWithinAt F (Set.Icc u v) y := by
    have h1 := hcont y ⟨box_subset_Icc u v hy, hyD⟩
    rw [Set.sdiff_eq] at h1
    exact (continuousWithinAt_inter (hDc.isOpen_compl.mem_nhds hyD)).mp h1
  obtain ⟨δ, hδ, hnear⟩ := Metric.continuousWithinAt_iff.mp hcy (F y) hyp
  refine ⟨δ / 2, by positivity, fun rows hg hu hv hmesh => ?_⟩
  have hex : ∀ i : Fin d, ∃ j, j + 1 < (rows.getD i []).length ∧ (rows.getD i []).getD j 0 < y i ∧
      y i ≤ (rows.getD i []).getD (j + 1) 0 := by
    intro i
    have h1 := (hy i).1
    have h2 := (hy i).2
    rw [← hu] at h1
    rw [← hv] at h2
    obtain ⟨j, hj, hj1⟩ := exists_cell (f := fun n => (rows.getD i []).getD n 0) (n := Spec.lastIdx rows i) h1 h2
    exact ⟨j, by unfold Spec.lastIdx at hj; omega, hj1⟩
  choose j hj hj1 hj2 using hex
  refine ⟨fun i => j i + 1, hj, ?_⟩
  have hle : ∀ i : Fin d, Spec.node rows j i ≤ Spec.node rows (fun i => j i + 1) i := fun i =>
    getD_mono (isGrid_row hg i).2 (Nat.le_succ _) (hj i)
  have hdist : dist (Spec.node rows fun i => j i + 1) y < δ := by
    refine lt_of_le_of_lt ((dist_pi_le_iff (by positivity)).mpr fun i => ?_) (half_lt_self hδ)
    have h1 : Spec.node rows (fun i => j i + 1) i - Spec.node rows j i ≤ δ / 2 := hmesh i (j i) (hj i)
    have h2 : Spec.node rows j i < y i := hj1 i
    have h3 : y i ≤ Spec.node rows (fun i => j i + 1) i := hj2 i
    rw [Real.dist_eq, abs_le]
    constructor <;> linarith
  have := hnear (hu ▸ hv ▸ cell_subset_Icc hg hj (fun i => ⟨hle i, le_rfl⟩)) hdist
  rw [Real.dist_eq, abs_lt] at this
  linarith [this.1]

/-- A convex set that meets a set and its complement meets the boundary of the set. -/
lemma meets_frontier {C A : Set (Fin d → ℝ)} (hC : Convex ℝ C) {x y : Fin d → ℝ} (hx : x ∈ C) (hxA : x ∈ A) (hy : y ∈ C)
    (hyA : y ∉ A) : ∃ z ∈ C, z ∈ frontier A := by
  by_contra hcon
  push Not at hcon
  have hsub : C ⊆ interior A ∪ (closure A)ᶜ := by
    intro z hz
    by_cases h1 : z ∈ closure A
    · exact .inl (by_contra fun h2 => hcon z hz ⟨h1, h2⟩)
    · exact .inr h1
  have h1 : x ∈ interior A := (hsub hx).resolve_right fun h => h (subset_closure hxA)
  have h2 : y ∈ (closure A)ᶜ := (hsub hy).resolve_left fun h => hyA (interior_subset h)
  obtain ⟨z, _, hz1, hz2⟩ := hC.isPreconnected _ _ isOpen_interior isClosed_closure.isOpen_compl hsub ⟨x, hx, h1⟩ ⟨y, hy, h2⟩
  exact hz2 (interior_subset_closure hz1)

lemma convex_box (u v : Fin d → ℝ) : Convex ℝ (Spec.box u v) := by
  rw [box_eq]
  exact convex_pi fun i _ => convex_Ioc _ _

lemma mem_cells {rows : List (List ℝ)} {j : Fin d → ℕ}
    (hj : j ∈ Fintype.piFinset fun i => Finset.range (Spec.lastIdx (d := d) rows i)) (i : Fin d) :
    j i + 1 < (rows.getD i []).length := by
  have := Finset.mem_range.mp (Fintype.mem_piFinset.mp hj i)
  unfold Spec.lastIdx at this
  omega

/-- On fine grids, the cells that lie neither inside nor outside a set with negligible boundary have little mass. -/
lemma boundary_cells {F : (Fin d → ℝ) → ℝ} {u v : Fin d → ℝ} (hc : Spec.MostlyContinuous F u v)
    {A : Set (Fin d → ℝ)} (hfr : volume (frontier A) = 0) {τ : ℝ} (hτ : 0 < τ) :
    ∃ δ > 0, ∀ rows : List (List ℝ), Spec.IsGrid d rows → Spec.lowNode rows = u → Spec.topNode rows = v →
      (∀ (i : Fin d) (j : ℕ), j + 1 < (rows.getD i []).length →
        (rows.getD i []).getD (j + 1) 0 - (rows.getD i []).getD j 0 ≤ δ) →
      ∀ S ⊆ Fintype.piFinset fun i => Finset.range (Spec.lastIdx (d := d) rows i),
        (∀ j ∈ S, ¬ Spec.box (Spec.node rows j) (Spec.node rows fun i => j i + 1) ⊆ A ∧
          ¬ Spec.box (Spec.node rows j) (Spec.node rows fun i => j i + 1) ⊆ Aᶜ) →
        ∑ j ∈ S, ∫ y in Spec.box (Spec.node rows j) (Spec.node rows fun i => j i + 1), F y ≤ τ := by
  have hi : IntegrableOn F (Spec.box u v) := mostly_integrable hc
  obtain ⟨⟨B, hB⟩, _⟩ := hc
  obtain ⟨δ, hδ, hthin⟩ := thin isClosed_frontier hfr u v (ε := τ / (|B| + 1)) (by positivity)
  refine ⟨δ, hδ, fun rows hg hu hv hmesh S hS hbd => ?_⟩
  have hs' := fun i => (isGrid_row hg i).2
  have hlast := lastIdx_lt hg
  have hdisj := cells_disjoint hs' hlast
  have hsub : ∀ j ∈ S, Spec.box (Spec.node rows j) (Spec.node rows fun i => j i + 1) ⊆ Spec.box u v := by
    intro j hj
    rw [← hu, ← hv, Spec.topNode, box_cells hs' hlast]
    exact Set.subset_biUnion_of_mem (u := fun j => Spec.box (Spec.node rows j) (Spec.node rows fun i => j i + 1)) (hS hj)
  have hIcc : Spec.box u v ⊆ Set.Icc u v := fun y hy => ⟨fun i => (hy i).1.le, fun i => (hy i).2⟩
  have hthick : ∀ j ∈ S, Spec.box (Spec.node rows j) (Spec.node rows fun i => j i + 1)
      ⊆ Metric.cthickening δ (frontier A) := by
    intro j hj y hy
    obtain ⟨h1, h2⟩ := hbd j hj
    obtain ⟨p, hp, hpA⟩ := Set.not_subset.mp h1
    obtain ⟨q, hq, hqA⟩ := Set.not_subset.mp h2
    obtain ⟨z, hz, hzA⟩ := meets_frontier (convex_box _ _) hq (not_not.mp hqA) hp hpA
    refine Metric.mem_cthickening_of_dist_le y z _ _ hzA ((dist_pi_le_iff (by positivity)).mpr fun i => ?_)
    have hs : Spec.node rows (fun i => j i + 1) i - Spec.node rows j i ≤ δ := hmesh i (j i) (mem_cells (hS hj) i)
    rw [Real.dist_eq, abs_le]
    constructor <;> linarith [(hy i).1, (hy i).2, (hz i).1, (hz i).2]
  set U := ⋃ j ∈ S, Spec.box (Spec.node rows j) (Spec.node rows fun i => j i + 1) with hU
  have hUm : MeasurableSet U := S.measurableSet_biUnion fun j _ => measurableSet_box _ _
  have hUsub : U ⊆ Spec.box u v := Set.iUnion₂_subset hsub
  have hUvol : volume.real U ≤ τ / (|B| + 1) := by
    rw [measureReal_def]
    refine ENNReal.toReal_le_of_le_ofReal (by positivity) ?_
    exact (measure_mono (Set.subset_inter (Set.iUnion₂_subset hthick) (hUsub.trans hIcc))).trans hthin
  have hsum : ∑ j ∈ S, ∫ y in Spec.box (Spec.node rows j) (Spec.node rows fun i => j i + 1), F y = ∫ y in U, F y :=
    (integral_biUnion_finset _ (fun j _ => measurableSet_box _ _) (fun j hj j' hj' hne => hdisj (hS hj) (hS hj') hne)
      fun j hj => hi.mono_set (hsub j hj)).symm
  have hUlt : volume U < ⊤ := lt_of_le_of_lt (measure_mono hUsub) (volume_box_lt u v)
  rw [hsum]
  refine (le_abs_self _).trans ((norm_setIntegral_le_of_norm_le_const (f := F) hUlt
    fun y hy => (hB y (hIcc (hUsub hy))).trans (le_abs_self B)).trans ?_)
  have h2 := mul_le_mul_of_nonneg_left hUvol (abs_nonneg B)
  refine h2.trans ?_
  rw [mul_div_assoc', div_le_iff₀ (by positivity)]
  nlinarith [abs_nonneg B]

lemma fraction_mono {V : Type*} (l : List V) {A B : Set V} (h : A ⊆ B) : Spec.fraction l A ≤ Spec.fraction l B := by
  classical
  unfold Spec.fraction
  refine div_le_div_of_nonneg_right ?_ (Nat.cast_nonneg _)
  exact_mod_cast List.countP_mono_left fun x _ hx => by simpa using h (by simpa using hx)

lemma fraction_add {V : Type*} (l : List V) {A B : Set V} (h : Disjoint A B) :
    Spec.fraction l A + Spec.fraction l B ≤ 1 := by
  classical
  unfold Spec.fraction
  rw [← add_div]
  refine div_le_one_of_le₀ ?_ (Nat.cast_nonneg _)
  have : l.countP (fun x => decide (x ∈ A)) + l.countP (fun x => decide (x ∈ B)) ≤ l.length := by
    induction l with
    | nil => simp
    | cons x l ih =>
      have hx := fun h1 : x ∈ A => Set.disjoint_left.mp h h1
      simp only [List.countP_cons, List.length_cons, decide_eq_true_eq]
      split_ifs with h1 h2
      · exact absurd h2 (hx h1)
      all_goals omega
  have h3 := Nat.cast_le (α := ℝ) |>.mpr this
  rw [Nat.cast_add] at h3
  convert h3

/-- **C176**, samples of a function on a fine grid, with or without interpolation (interpolation is the default).  Let `F` be
nonnegative, bounded on the box between `u` and `v`, continuous there except on a closed set without volume, and not zero there, and `A` a set whose boundary has no volume.  For
every tolerance `τ` there is a width `δ` such that, if an array contains the values of `F` on a grid that covers the box in
steps of at most `δ`, it can be sampled, and the fraction of `n` samples in `A` is within `τ + ε` of the fraction of the integral
of `F` over the box that is in `A`, except with a probability of at most `4 exp(-2 n ε²)`. -/
theorem C176_mostly {F : (Fin d → ℝ) → ℝ} (hF0 : ∀ x, 0 ≤ F x) {u v : Fin d → ℝ} (hc : Spec.MostlyContinuous F u v)
    (hm : 0 < ∫ y in Spec.box u v, F y) {A : Set (Fin d → ℝ)} (hA : MeasurableSet A) (hfr : volume (frontier A) = 0)
    {τ : ℝ} (hτ : 0 < τ) :
    ∃ δ > 0, ∀ (srt : List ℝ → List ℕ), (∀ l, IsArgsort (srt l) l) → ∀ rows : List (List ℝ), Spec.IsGrid d rows →
      Spec.lowNode rows = u → Spec.topNode rows = v →
      (∀ (i : Fin d) (j : ℕ), j + 1 < (rows.getD i []).length →
        (rows.getD i []).getD (j + 1) 0 - (rows.getD i []).getD j 0 ≤ δ) →
      ∀ dens : NDArr d ℝ, dens.shape = (fun i : Fin d => (rows.getD i []).length) → Spec.ValuesOn rows F dens →
        ∃ g : SampleGrid d, SampleGrid.init srt rows dens = .ok g ∧
          ∀ {Ω : Type} [MeasurableSpace Ω] (μ : Measure Ω) (r : Ω → Rand d), Spec.GridNumbers μ r →
            ∀ (interp : Bool) (n : ℕ), ∀ ε > 0,
              μ.real {ω | ¬ ∃ out, g.sample (r ω) (some n) interp = .ok out ∧
                |Spec.fraction (out.map Prod.fst) A - (∫ y in A ∩ Spec.box u v, F y) / ∫ y in Spec.box u v, F y| < ε + τ}
                ≤ 4 * Real.exp (-2 * n * ε ^ 2) := by
  classical
  set m := ∫ y in Spec.box u v, F y with hmdef
  obtain ⟨δ1, hδ1, hfine⟩ := varies_total_fine hc (W := τ * m / 4) (by positivity)
  obtain ⟨δ2, hδ2, hnear⟩ := pos_fine_on hc (hmdef ▸ hm)
  obtain ⟨δ3, hδ3, hbdry⟩ := boundary_cells hc hfr (τ := τ * m / 2) (by positivity)
  refine ⟨min δ1 (min δ2 δ3), by positivity, fun srt hsrt rows hg hu hv hmesh dens hs hval => ?_⟩
  have hIcc : Spec.box u v ⊆ Set.Icc u v := fun y hy => ⟨fun i => (hy i).1.le, fun i => (hy i).2⟩
  have hi : IntegrableOn F (Spec.box u v) := mostly_integrable hc
  obtain ⟨idx, hidx, hpos⟩ := hnear rows hg hu hv fun i j hj =>
    (hmesh i j hj).trans ((min_le_right _ _).trans (min_le_left _ _))
  obtain ⟨g, h3, h4⟩ := C176_bins_total hsrt hg hF0 hs hval
    (hfine rows hg hu hv fun i j hj => (hmesh i j hj).trans (min_le_left _ _)) (by rw [hu, hv]; exact hi)
    (by rw [hu, hv]; exact hm) hidx hpos
  refine ⟨g, h3, fun {Ω} _ μ r hr' interp n ε hε => ?_⟩
  have hprob : IsProbabilityMeasure μ := (hr'.law 0).isProbabilityMeasure_iff.mpr inferInstance
  set T := Fintype.piFinset fun i => Finset.range (Spec.lastIdx (d := d) rows i) with hTdef
  set cell : (Fin d → ℕ) → Set (Fin d → ℝ) := fun j => Spec.box (Spec.node rows j) (Spec.node rows fun i => j i + 1)
    with hcell
  have hs' := fun i => (isGrid_row hg i).2
  have hlast := lastIdx_lt hg
  have hbox : Spec.box u v = ⋃ j ∈ T, cell j := by rw [← hu, ← hv, Spec.topNode, box_cells hs' hlast]
  have hsub : ∀ j ∈ T, cell j ⊆ Spec.box u v := fun j hj => by
    rw [hbox]; exact Set.subset_biUnion_of_mem (u := cell) hj
  have hdisj := cells_disjoint hs' hlast
  -- the integral over a set, cell by cell
  have hsplit : ∀ C : Set (Fin d → ℝ), MeasurableSet C →
      ∫ y in C ∩ Spec.box u v, F y ≤ ∑ j ∈ T.filter (fun j => cell j ⊆ C), (∫ y in cell j, F y)
        + ∑ j ∈ T.filter (fun j => ¬ cell j ⊆ C ∧ ¬ cell j ⊆ Cᶜ), ∫ y in cell j, F y := by
    intro C hC
    have e1 : ∫ y in C ∩ Spec.box u v, F y = ∑ j ∈ T, ∫ y in C ∩ cell j, F y := by
      rw [hbox, Set.inter_iUnion₂]
      exact integral_biUnion_finset _ (fun j _ => hC.inter (measurableSet_box _ _))
        (fun j hj j' hj' hne => (hdisj hj hj' hne).mono Set.inter_subset_right Set.inter_subset_right)
        fun j hj => hi.mono_set (Set.inter_subset_right.trans (hsub j hj))
    rw [e1, Finset.sum_filter, Finset.sum_filter, ← Finset.sum_add_distrib]
    refine Finset.sum_le_sum fun j hj => ?_
    have hnn : 0 ≤ ∫ y in cell j, F y := integral_nonneg fun y => hF0 y
    have hle : ∫ y in C ∩ cell j, F y ≤ ∫ y in cell j, F y :=
      setIntegral_mono_set (hi.mono_set (hsub j hj)) (Filter.Eventually.of_forall fun y => hF0 y)
        (LE.le.eventuallyLE Set.inter_subset_right)
    by_cases h1 : cell j ⊆ C
    · rw [if_pos h1, if_neg (fun h => h.1 h1), add_zero]
      exact hle
    · rw [if_neg h1, zero_add]
      by_cases h2 : cell j ⊆ Cᶜ
      · rw [if_neg (fun h => h.2 h2), show C ∩ cell j = ∅ from
          Set.disjoint_iff_inter_eq_empty.mp (Set.disjoint_left.mpr fun y hy hy' => h2 hy' hy)]
        simp
      · rw [if_pos ⟨h1, h2⟩]
        exact hle
  have hb : ∑ j ∈ T.filter (fun j => ¬ cell j ⊆ A ∧ ¬ cell j ⊆ Aᶜ), (∫ y in cell j, F y) ≤ τ * m / 2 :=
    hbdry rows hg hu hv (fun i j hj => (hmesh i j hj).trans ((min_le_right _ _).trans (min_le_right _ _))) _
      (Finset.filter_subset _ _) fun j hj => (Finset.mem_filter.mp hj).2
  have hb' : ∑ j ∈ T.filter (fun j => ¬ cell j ⊆ Aᶜ ∧ ¬ cell j ⊆ Aᶜᶜ), (∫ y in cell j, F y) ≤ τ * m / 2 := by
    simp only [compl_compl]
    simpa only [and_comm] using hb
  have hI1 := hsplit A hA
  have hI2 := hsplit Aᶜ hA.compl
  have htot : (∫ y in A ∩ Spec.box u v, F y) + ∫ y in Aᶜ ∩ Spec.box u v, F y = m := by
    rw [hmdef, Set.inter_comm, Set.inter_comm Aᶜ, ← Set.sdiff_eq]
    exact integral_inter_add_sdiff hA hi
  have herr : 2 * (τ * m / 4) / m ≤ τ / 2 := by
    have := hm.ne'
    refine le_of_eq ?_
    field_simp
    norm_num
  have k1 := h4 μ r hr' interp n (T.filter fun j => cell j ⊆ A) (fun j hj => mem_cells (Finset.mem_filter.mp hj).1) ε hε
  have k2 := h4 μ r hr' interp n (T.filter fun j => cell j ⊆ Aᶜ) (fun j hj => mem_cells (Finset.mem_filter.mp hj).1) ε hε
  rw [hu, hv, ← hmdef] at k1 k2
  refine le_trans (measureReal_mono (fun ω hω => ?_) (measure_ne_top _ _))
    ((measureReal_union_le _ _).trans ((add_le_add k1 k2).trans (by linarith)))
  by_contra hcon
  rw [Set.mem_union, not_or] at hcon
  obtain ⟨g1, g2⟩ := hcon
  simp only [Set.mem_ofPred_eq, not_not] at g1 g2
  obtain ⟨out, a1, a2⟩ := g1
  obtain ⟨out', b1, b2⟩ := g2
  obtain rfl : out = out' := by rw [a1] at b1; exact Except.ok.inj b1
  refine hω ⟨out, a1, ?_⟩
  have s1 : (⋃ j ∈ T.filter (fun j => cell j ⊆ A), cell j) ⊆ A :=
    Set.iUnion₂_subset fun j hj => (Finset.mem_filter.mp hj).2
  have s2 : (⋃ j ∈ T.filter (fun j => cell j ⊆ Aᶜ), cell j) ⊆ Aᶜ :=
    Set.iUnion₂_subset fun j hj => (Finset.mem_filter.mp hj).2
  have f1 := fraction_mono (out.map Prod.fst) s1
  have f2 := fraction_mono (out.map Prod.fst) s2
  have f3 := fraction_add (out.map Prod.fst) (A := A) (B := Aᶜ) disjoint_compl_right
  rw [abs_lt] at a2 b2 ⊢
  have a3 := a2.1
  have b3 := b2.1
  have q1 : (∫ y in A ∩ Spec.box u v, F y) / m - τ / 2 ≤ (∑ j ∈ T.filter (fun j => cell j ⊆ A), ∫ y in cell j, F y) / m := by
    rw [le_div_iff₀ hm, sub_mul, div_mul_cancel₀ _ hm.ne']
    linarith
  have q2 : (∫ y in Aᶜ ∩ Spec.box u v, F y) / m - τ / 2
      ≤ (∑ j ∈ T.filter (fun j => cell j ⊆ Aᶜ), ∫ y in cell j, F y) / m := by
    rw [le_div_iff₀ hm, sub_mul, div_mul_cancel₀ _ hm.ne']
    linarith
  have q3 : (∫ y in A ∩ Spec.box u v, F y) / m + (∫ y in Aᶜ ∩ Spec.box u v, F y) / m = 1 := by
    rw [← add_div, htot, div_self hm.ne']
  constructor <;> linarith

/-- **C176**, samples of a continuous function on a fine grid, with or without interpolation (interpolation is the default).  Let `F` be
nonnegative, continuous on the box between `u` and `v` and not zero there, and `A` a set whose boundary has no volume.  For
every tolerance `τ` there is a width `δ` such that, if an array contains the values of `F` on a grid that covers the box in
steps of at most `δ`, it can be sampled, and the fraction of `n` samples in `A` is within `τ + ε` of the fraction of the integral
of `F` over the box that is in `A`, except with a probability of at most `4 exp(-2 n ε²)`. -/
theorem C176_interpolated {F : (Fin d → ℝ) → ℝ} (hF0 : ∀ x, 0 ≤ F x) {u v : Fin d → ℝ} (hc : ContinuousOn F (Set.Icc u v))
    (hm : 0 < ∫ y in Spec.box u v, F y) {A : Set (Fin d → ℝ)} (hA : MeasurableSet A) (hfr : volume (frontier A) = 0)
    {τ : ℝ} (hτ : 0 < τ) :
    ∃ δ > 0, ∀ (srt : List ℝ → List ℕ), (∀ l, IsArgsort (srt l) l) → ∀ rows : List (List ℝ), Spec.IsGrid d rows →
      Spec.lowNode rows = u → Spec.topNode rows = v →
      (∀ (i : Fin d) (j : ℕ), j + 1 < (rows.getD i []).length →
        (rows.getD i []).getD (j + 1) 0 - (rows.getD i []).getD j 0 ≤ δ) →
      ∀ dens : NDArr d ℝ, dens.shape = (fun i : Fin d => (rows.getD i []).length) → Spec.ValuesOn rows F dens →
        ∃ g : SampleGrid d, SampleGrid.init srt rows dens = .ok g ∧
          ∀ {Ω : Type} [MeasurableSpace Ω] (μ : Measure Ω) (r : Ω → Rand d), Spec.GridNumbers μ r →
            ∀ (interp : Bool) (n : ℕ), ∀ ε > 0,
              μ.real {ω | ¬ ∃ out, g.sample (r ω) (some n) interp = .ok out ∧
                |Spec.fraction (out.map Prod.fst) A - (∫ y in A ∩ Spec.box u v, F y) / ∫ y in Spec.box u v, F y| < ε + τ}
                ≤ 4 * Real.exp (-2 * n * ε ^ 2) :=
  C176_mostly hF0 (mostly_of_continuousOn hc) hm hA hfr hτ

/-! ## The pdf of a `KDE`, with or without boundaries -/

/-- Specification: the `KDE` has no boundaries, or the box between `u` and `v` is inside all of them. -/
def Spec.BoxInside (a : KDEArgs d) (k : KDE d) (u v : Fin d → ℝ) : Prop :=
  a.reflect = .none ∨ ∃ R, k.reflect = some R ∧ u ∈ Spec.Allowed R ∧ v ∈ Spec.Allowed R

lemma pdf_on_box {E : Ext} {a : KDEArgs d} {k : KDE d} (h : KDE.init E a = .ok k) (hd : 0 < d) (srt : List ℝ → List ℕ)
    (hM : (Spec.kernelMatrix k.covariance k.bandwidth).PosDef) (hD : k.kernel.dist ≠ .box)
    {F : (Fin d → ℝ) → ℝ} (hF : Spec.Reports E srt k F) {u v : Fin d → ℝ} (hb : Spec.BoxInside a k u v) :
    (∀ x, 0 ≤ F x) ∧ ContinuousOn F (Set.Icc u v) := by
  rcases hb with hr | ⟨R, hR, huR, hvR⟩
  · obtain ⟨F', hF', h1, _, hc⟩ := C132_regular h srt hd hr hM
    rw [reports_unique hF hF']
    exact ⟨fun x => (h1 x).1, (hc hD).continuousOn⟩
  · obtain ⟨F', hF', h1, _, hc⟩ := C132_reflect h srt hd hM hR
    rw [reports_unique hF hF']
    refine ⟨fun x => (h1 x).1, (hc hD).mono fun x hx i hvi => ?_⟩
    have hu := huR i
    have hv := hvR i
    have h2 := hx.1 i
    have h3 := hx.2 i
    obtain ⟨lo, hi, hrow, hcase⟩ := hvi
    rcases hcase with ⟨b, hb, hlt⟩ | ⟨b, hb, hlt⟩
    · exact hu ⟨lo, hi, hrow, .inl ⟨b, hb, h2.trans_lt hlt⟩⟩
    · exact hv ⟨lo, hi, hrow, .inr ⟨b, hb, hlt.trans_le h3⟩⟩

/-- **C176**, integral of the pdf on a grid, with boundaries: as `C176_integral`, for every `KDE` and every box inside its
boundaries (if it has any). -/
theorem C176_reflect_integral {E : Ext} {a : KDEArgs d} {k : KDE d} (h : KDE.init E a = .ok k) (hd : 0 < d)
    (srt : List ℝ → List ℕ) (hM : (Spec.kernelMatrix k.covariance k.bandwidth).PosDef) (hD : k.kernel.dist ≠ .box)
    {F : (Fin d → ℝ) → ℝ} (hF : Spec.Reports E srt k F) {u v : Fin d → ℝ} (hb : Spec.BoxInside a k u v) {τ : ℝ} (hτ : 0 < τ) :
    ∃ δ > 0, ∀ rows : List (List ℝ), Spec.IsGrid d rows → Spec.lowNode rows = u → Spec.topNode rows = v →
      (∀ (i : Fin d) (j : ℕ), j + 1 < (rows.getD i []).length →
        (rows.getD i []).getD (j + 1) 0 - (rows.getD i []).getD j 0 ≤ δ) →
      ∃ p arr T, (k.pdf E srt (some (.rows rows)) .none .none true).1 = .ok (p, arr) ∧
        trapzNd (arr.toND rows : NDArr d ℝ) rows = .ok T ∧ |T - ∫ y in Spec.box u v, F y| ≤ τ := by
  obtain ⟨_, hc⟩ := pdf_on_box h hd srt hM hD hF hb
  have hi : IntegrableOn F (Spec.box u v) :=
    (hc.integrableOn_compact isCompact_Icc).mono_set fun y hy => ⟨fun i => (hy i).1.le, fun i => (hy i).2⟩
  set V := ∏ i, (v i - u i) with hV
  obtain ⟨δ, hδ, hfine⟩ := varies_fine hc (η := τ / (|V| + 1)) (by positivity)
  refine ⟨δ, hδ, fun rows hg hu hv hmesh => ?_⟩
  obtain ⟨p, arr, h1, h2⟩ := C176_values hF hd hg.1
  obtain ⟨T, h3, h4⟩ := C176_trapz hg rfl h2 (hfine rows hg hu hv hmesh) (by rw [hu, hv]; exact hi)
  rw [hu, hv, ← hV] at h4
  refine ⟨p, arr, T, h1, h3, h4.trans ?_⟩
  rw [div_mul_eq_mul_div, div_le_iff₀ (by positivity)]
  exact mul_le_mul_of_nonneg_left (by linarith [le_abs_self V]) hτ.le

/-- **C176**, samples of the pdf on a grid with the default interpolation (or without), with boundaries (or without).  Take any
`KDE` whose kernel is not the box, a box inside its boundaries (if any) of positive probability, a set `A` whose boundary has no
volume and a tolerance `τ`.  On every grid that covers the box in sufficiently small steps, the pdf returned for the grid can
be sampled, and the fraction of `n` samples in `A` is within `τ + ε` of the probability of `A` among values in the box, except
with a probability of at most `4 exp(-2 n ε²)`. -/
theorem C176_reflect_samples {E : Ext} {a : KDEArgs d} {k : KDE d} (h : KDE.init E a = .ok k) (hd : 0 < d)
    {srt : List ℝ → List ℕ} (hsrt : ∀ l, IsArgsort (srt l) l)
    (hM : (Spec.kernelMatrix k.covariance k.bandwidth).PosDef) (hD : k.kernel.dist ≠ .box)
    {F : (Fin d → ℝ) → ℝ} (hF : Spec.Reports E srt k F) {u v : Fin d → ℝ} (hb : Spec.BoxInside a k u v)
    (hm : 0 < ∫ y in Spec.box u v, F y) {A : Set (Fin d → ℝ)} (hA : MeasurableSet A) (hfr : volume (frontier A) = 0)
    {τ : ℝ} (hτ : 0 < τ) :
    ∃ δ > 0, ∀ rows : List (List ℝ), Spec.IsGrid d rows → Spec.lowNode rows = u → Spec.topNode rows = v →
      (∀ (i : Fin d) (j : ℕ), j + 1 < (rows.getD i []).length →
        (rows.getD i []).getD (j + 1) 0 - (rows.getD i []).getD j 0 ≤ δ) →
      ∃ p arr, (k.pdf E srt (some (.rows rows)) .none .none true).1 = .ok (p, arr) ∧
        ∃ g : SampleGrid d, SampleGrid.init srt rows (arr.toND rows) = .ok g ∧
          ∀ {Ω : Type} [MeasurableSpace Ω] (μ : Measure Ω) (r : Ω → Rand d), Spec.GridNumbers μ r →
            ∀ (interp : Bool) (n : ℕ), ∀ ε > 0,
              μ.real {ω | ¬ ∃ out, g.sample (r ω) (some n) interp = .ok out ∧
                |Spec.fraction (out.map Prod.fst) A - (∫ y in A ∩ Spec.box u v, F y) / ∫ y in Spec.box u v, F y| < ε + τ}
                ≤ 4 * Real.exp (-2 * n * ε ^ 2) := by
  obtain ⟨hF0, hc⟩ := pdf_on_box h hd srt hM hD hF hb
  obtain ⟨δ, hδ, hs⟩ := C176_interpolated hF0 hc hm hA hfr hτ
  refine ⟨δ, hδ, fun rows hg hu hv hmesh => ?_⟩
  obtain ⟨p, arr, h1, h2⟩ := C176_values hF hd hg.1
  obtain ⟨g, h3, h4⟩ := hs srt hsrt rows hg hu hv hmesh (arr.toND rows) rfl h2
  exact ⟨p, arr, h1, g, h3, h4⟩

/-- **C174**, limit for grids given by the user, with boundaries: as `C174_grid`, for every `KDE` and every box inside its
boundaries (if it has any). -/
theorem C174_reflect {E : Ext} {a : KDEArgs d} {k : KDE d} (h : KDE.init E a = .ok k) (hd : 0 < d) (srt : List ℝ → List ℕ)
    (hM : (Spec.kernelMatrix k.covariance k.bandwidth).PosDef) (hD : k.kernel.dist ≠ .box)
    (hsq : a.squeeze = true → d = 1) {F : (Fin d → ℝ) → ℝ} (hF : Spec.Reports E srt k F) {u v : Fin d → ℝ}
    (hb : Spec.BoxInside a k u v) (hm : 0 < ∫ y in Spec.box u v, F y) {τ : ℝ} (hτ : 0 < τ) :
    ∃ δ > 0, ∀ rows : List (List ℝ), rows.length = d → (∀ row ∈ rows, 2 ≤ row.length ∧ row.Pairwise (· < ·)) →
      Spec.lowNode rows = u → Spec.topNode rows = v →
      (∀ (i : Fin d) (j : ℕ), j + 1 < (rows.getD i []).length →
        (rows.getD i []).getD (j + 1) 0 - (rows.getD i []).getD j 0 ≤ δ) →
      ∃ (k' : KDE d) (G : (Fin d → ℝ) → ℝ), KDE.init E { a with points := .list (rows.map .arr) } = .ok k' ∧
        Spec.Reports E srt k' F ∧ Spec.ReportsCdf E srt k' G ∧
        ∀ x ∈ Set.Icc u v, |G x - (∫ y in Spec.box u x, F y) / ∫ y in Spec.box u v, F y| ≤ τ := by
  obtain ⟨_, hc⟩ := pdf_on_box h hd srt hM hD hF hb
  obtain ⟨δ1, hδ1, hlim⟩ := C174_limit hd hc hm hτ
  obtain ⟨δ2, hδ2, hnear⟩ := pos_fine_on (mostly_of_continuousOn hc) hm
  refine ⟨min δ1 δ2, by positivity, fun rows hl hrows hu hv hmesh => ?_⟩
  have hk' := init_points h (.list (rows.map .arr))
  have hF' : Spec.Reports E srt { k with pointsSpec := .list (rows.map .arr) } F := by
    rcases hb with hr | ⟨R, hR, _, _⟩
    · have h1 := reports_average hk' srt hd hr hM
      have h2 := reports_average h srt hd hr hM
      rwa [reports_unique hF h2]
    · have h1 := reports_planes hk' srt hd hM hR
      have h2 := reports_planes h srt hd hM hR
      rwa [reports_unique hF h2]
  obtain ⟨pts, hp, hpr⟩ := points_rows hk' hd srt hl rfl hsq
  obtain ⟨idx, hidx, hpos⟩ := hnear rows ⟨hl, hrows⟩ hu hv fun i j hj => (hmesh i j hj).trans (min_le_right _ _)
  obtain ⟨G0, hG0⟩ := C174_succeeds hk' hd srt hF' hp (by rw [hpr]; exact hl) (by rw [hpr]; exact hrows)
    (idx := idx) (by rw [hpr]; exact hidx) (by rw [hpr]; exact hpos)
  obtain ⟨G, hG, hval⟩ := hlim E _ _ srt pts _ _ hk' hF' hp (hG0 [] []) (by rw [hpr]; exact hu) (by rw [hpr]; exact hv)
    (by rw [hpr]; exact fun i j hj => (hmesh i j hj).trans (min_le_left _ _))
  exact ⟨_, G, hk', hF', hG, hval⟩

/-! ## Concrete cases -/

/-- Concrete case of the hypotheses of `C176_interpolated`: the function `|x|` between 0 and 3, and the values up to 1. -/
example : ∃ (F : (Fin 1 → ℝ) → ℝ) (u v : Fin 1 → ℝ) (A : Set (Fin 1 → ℝ)), (∀ x, 0 ≤ F x) ∧
    ContinuousOn F (Set.Icc u v) ∧ 0 < ∫ y in Spec.box u v, F y ∧ MeasurableSet A ∧ volume (frontier A) = 0 := by
  have hc : Continuous fun x : Fin 1 → ℝ => |x 0| := (continuous_apply 0).abs
  have hi : IntegrableOn (fun x : Fin 1 → ℝ => |x 0|) (Spec.box (fun _ => 0) fun _ => 3) :=
    (hc.continuousOn.integrableOn_compact (isCompact_Icc (a := fun _ => (0:ℝ)) (b := fun _ => 3))).mono_set
      fun y hy => ⟨fun i => (hy i).1.le, fun i => (hy i).2⟩
  refine ⟨fun x => |x 0|, fun _ => 0, fun _ => 3, Set.Iic fun _ => 1, fun x => abs_nonneg _, hc.continuousOn, ?_,
    measurableSet_Iic, Convex.addHaar_frontier _ (convex_Iic _)⟩
  rw [setIntegral_pos_iff_support_of_nonneg_ae (Filter.Eventually.of_forall fun x => abs_nonneg _) hi,
    Set.inter_eq_self_of_subset_right]
  · have := volume_box (u := fun _ : Fin 1 => (0:ℝ)) (v := fun _ => 3) fun _ => by norm_num
    rw [pos_iff_ne_zero]
    intro h0
    rw [measureReal_def, h0] at this
    norm_num at this
  · intro y hy
    have := (hy 0).1
    simp only [Function.mem_support, ne_eq, abs_eq_zero]
    exact this.ne'

/-- Concrete case of the hypotheses of `C176_reflect_integral`, `C176_reflect_samples` and `C174_reflect`: one value 1, the
boundaries 0 and 2, and the parabola kernel; the box is the whole region between the boundaries, with probability 1. -/
example (E : Ext) (srt : List ℝ → List ℕ) : ∃ (a : KDEArgs 1) (k : KDE 1) (F : (Fin 1 → ℝ) → ℝ) (u v : Fin 1 → ℝ),
    KDE.init E a = .ok k ∧ (Spec.kernelMatrix k.covariance k.bandwidth).PosDef ∧ k.kernel.dist ≠ .box ∧
      Spec.Reports E srt k F ∧ Spec.BoxInside a k u v ∧ k.reflect ≠ none ∧ ∫ y in Spec.box u v, F y = 1 := by
  have hrow : ∀ t : ℝ, ¬ Spec.Violates (some (some 0, some 2)) t ↔ 0 ≤ t ∧ t ≤ 2 := by
    intro t
    rw [not_violates]
    simp [Spec.inside]
  obtain ⟨k, hk, hw, hD, hM, hr, _, _⟩ := unit_init_reflect E ([fun _ => 1] : List (Fin 1 → ℝ)) (by simp) .parabola rfl
    (Spec.onlyDim (0 : Fin 1) (some 0, some 2)) (by simp [Spec.onlyDim]) (by
      intro lo hi h
      simp [Spec.onlyDim] at h
      obtain ⟨rfl, rfl⟩ := h
      norm_num) ⟨(some 0, some 2), by simp [Spec.onlyDim]⟩
  have hpd : (Spec.kernelMatrix k.covariance k.bandwidth).PosDef := by rw [hM]; exact Matrix.PosDef.one
  obtain ⟨F, hF, hone⟩ := C12_reflect_partial hk srt one_pos hpd 0 (some 0) (some 2) hr (by
    rintro l u ⟨⟩ ⟨⟩
    refine ⟨by rw [hD]; rfl, fun x hx => ?_⟩
    obtain rfl : x = fun _ => 1 := by simpa using hx
    rw [hM]
    norm_num)
  have hall : Spec.Allowed (d := 1) (Spec.onlyDim (0 : Fin 1) (some 0, some 2)) = Set.Icc (fun _ => 0) fun _ => 2 := by
    ext x
    simp only [Spec.Allowed, Set.mem_ofPred_eq, Set.mem_Icc, Pi.le_def, ← forall_and]
    refine forall_congr' fun i => ?_
    fin_cases i
    simpa [Spec.onlyDim] using hrow (x 0)
  refine ⟨_, k, F, fun _ => 0, fun _ => 2, hk, hpd, by rw [hD]; simp, fun pts => hF [] pts,
    .inr ⟨_, hr, ?_, ?_⟩, by rw [hr]; simp, ?_⟩
  · rw [hall]; exact ⟨fun _ => le_rfl, fun _ => by norm_num⟩
  · rw [hall]; exact ⟨fun _ => by norm_num, fun _ => le_rfl⟩
  · rw [← hone, hall, box_eq]
    exact setIntegral_congr_set Measure.univ_pi_Ioc_ae_eq_Icc

end Kalepy
