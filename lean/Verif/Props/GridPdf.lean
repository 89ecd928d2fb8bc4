import Verif.Props.CdfDefault
import Verif.Props.GridLaw

/-!
# C176: integrals over, and samples from, values of a density on a grid
-/

namespace Kalepy

open MeasureTheory ProbabilityTheory

variable {d : ℕ}

/-- Specification: `dens` contains the values of `F` at the points of the grid. -/
def Spec.ValuesOn (rows : List (List ℝ)) (F : (Fin d → ℝ) → ℝ) (dens : NDArr d ℝ) : Prop :=
  ∀ idx : Fin d → ℕ, (∀ i : Fin d, idx i < (rows.getD i []).length) → dens.get idx = F (Spec.node rows idx)

/-- Specification: a grid of dimension `d` with at least two increasing points in each dimension. -/
def Spec.IsGrid (d : ℕ) (rows : List (List ℝ)) : Prop :=
  rows.length = d ∧ ∀ row ∈ rows, 2 ≤ row.length ∧ row.Pairwise (· < ·)

/-- Specification: within each (closed) cell of the grid the values of `F` differ by at most some number, and these numbers
times the volumes of the cells add up to at most `W`. -/
def Spec.VariesTotal (rows : List (List ℝ)) (F : (Fin d → ℝ) → ℝ) (W : ℝ) : Prop :=
  ∃ e : (Fin d → ℕ) → ℝ, (∀ j : Fin d → ℕ, (∀ i : Fin d, j i + 1 < (rows.getD i []).length) → ∀ y z,
      (∀ i, Spec.node rows j i ≤ y i ∧ y i ≤ Spec.node rows (fun i => j i + 1) i) →
      (∀ i, Spec.node rows j i ≤ z i ∧ z i ≤ Spec.node rows (fun i => j i + 1) i) → |F y - F z| ≤ e j) ∧
    ∑ j ∈ Fintype.piFinset (fun i : Fin d => Finset.range (Spec.lastIdx (d := d) rows i)),
      e j * volume.real (Spec.box (Spec.node rows j) (Spec.node rows fun i => j i + 1)) ≤ W

lemma isGrid_row {rows : List (List ℝ)} (h : Spec.IsGrid d rows) (i : Fin d) :
    2 ≤ (rows.getD i []).length ∧ (rows.getD i []).Pairwise (· < ·) := by
  have hi : (i : ℕ) < rows.length := h.1 ▸ i.2
  rw [List.getD_eq_getElem _ _ hi]
  exact h.2 _ (List.getElem_mem hi)

lemma lastIdx_lt {rows : List (List ℝ)} (h : Spec.IsGrid d rows) (i : Fin d) :
    Spec.lastIdx (d := d) rows i < (rows.getD i []).length := by
  have := (isGrid_row h i).1
  unfold Spec.lastIdx
  omega

/-! ## Masses of the cells -/

lemma grid_masses {rows : List (List ℝ)} (hg : Spec.IsGrid d rows) {F : (Fin d → ℝ) → ℝ} {dens : NDArr d ℝ}
    (hs : dens.shape = fun i : Fin d => (rows.getD i []).length) (hv : Spec.ValuesOn rows F dens) :
    ∃ M, trapzDensToMass dens rows Finset.univ = .ok M ∧ M.shape = Spec.lastIdx rows ∧
      (∀ b, (∀ i, b i < Spec.lastIdx (d := d) rows i) → M.get b = Spec.cellMass rows (fun j => F (Spec.node rows j)) b) ∧
      M.sum = Spec.massBelow rows (fun j => F (Spec.node rows j)) (Spec.lastIdx rows) := by
  obtain ⟨M, hM⟩ := ((C38_mismatch dens rows Finset.univ).2 ⟨hg.1, fun i => by rw [hs]⟩ fun i => by
    have := (isGrid_row hg i).1
    rw [hs]
    show 0 < (rows.getD i []).length
    omega).1
  obtain ⟨h1, h2⟩ := C38_mass_eq hM
  have hshape : M.shape = Spec.lastIdx rows := by
    funext i
    rw [h1, hs]
    rfl
  have hget : ∀ b, (∀ i, b i < Spec.lastIdx (d := d) rows i) →
      M.get b = Spec.cellMass rows (fun j => F (Spec.node rows j)) b := by
    intro b hb
    rw [h2]
    unfold Spec.cellMass
    rw [← sum_fin2 fun c => F (Spec.node rows fun i => b i + c i), mul_comm]
    congr 2
    refine Finset.sum_congr rfl fun c _ => hv _ fun i => ?_
    have h3 := hb i
    have h4 := (c i).2
    unfold Spec.lastIdx at h3
    show b i + (c i : ℕ) < _
    omega
  refine ⟨M, hM, hshape, hget, ?_⟩
  rw [NDArr.sum, Spec.massBelow, hshape]
  refine Finset.sum_congr ?_ fun b hb => hget b fun i => ?_
  · ext b
    rw [mem_validIdx, Fintype.mem_piFinset]
    simp only [Finset.mem_range]
    rfl
  · rw [Fintype.mem_piFinset] at hb
    exact Finset.mem_range.mp (hb i)

/-- Mean of the values at the corners of a cell. -/
noncomputable def cellMean (rows : List (List ℝ)) (F : (Fin d → ℝ) → ℝ) (j : Fin d → ℕ) : ℝ :=
  (∑ c ∈ Fintype.piFinset fun _ : Fin d => ({0, 1} : Finset ℕ), F (Spec.node rows fun i => j i + c i)) / 2 ^ d

lemma cellMean_part {rows : List (List ℝ)} (hg : Spec.IsGrid d rows) {F : (Fin d → ℝ) → ℝ} {η : ℝ}
    {j : Fin d → ℕ} (hη : ∀ y z, (∀ i, Spec.node rows j i ≤ y i ∧ y i ≤ Spec.node rows (fun i => j i + 1) i) →
      (∀ i, Spec.node rows j i ≤ z i ∧ z i ≤ Spec.node rows (fun i => j i + 1) i) → |F y - F z| ≤ η)
    (hj : ∀ i, j i < Spec.lastIdx (d := d) rows i) {A : Set (Fin d → ℝ)}
    (hi : IntegrableOn F (Spec.box (Spec.node rows j) (Spec.node rows fun i => j i + 1))) :
    |cellMean rows F j * volume.real (A ∩ Spec.box (Spec.node rows j) (Spec.node rows fun i => j i + 1))
      - ∫ y in A ∩ Spec.box (Spec.node rows j) (Spec.node rows fun i => j i + 1), F y|
      ≤ η * volume.real (Spec.box (Spec.node rows j) (Spec.node rows fun i => j i + 1)) := by
  have hj' : ∀ i : Fin d, j i + 1 < (rows.getD i []).length := fun i => by
    have := hj i
    unfold Spec.lastIdx at this
    omega
  have hs := fun i => (isGrid_row hg i).2
  set B := Spec.box (Spec.node rows j) (Spec.node rows fun i => j i + 1) with hB
  have hfin : volume (A ∩ B) < ⊤ := (measure_mono Set.inter_subset_right).trans_lt (volume_box_lt _ _)
  have hη0 : 0 ≤ η := by
    have := hη (Spec.node rows j) (Spec.node rows j)
      (fun i => ⟨le_rfl, getD_mono (hs i) (Nat.le_succ _) (hj' i)⟩)
      (fun i => ⟨le_rfl, getD_mono (hs i) (Nat.le_succ _) (hj' i)⟩)
    exact (abs_nonneg _).trans this
  have e1 : cellMean rows F j * volume.real (A ∩ B) = ∫ _y in A ∩ B, cellMean rows F j := by
    rw [setIntegral_const, smul_eq_mul, mul_comm]
  have hbound : ∀ y ∈ B, ‖cellMean rows F j - F y‖ ≤ η := by
    intro y hy
    have hcard : (Fintype.piFinset fun _ : Fin d => ({0, 1} : Finset ℕ)).card = 2 ^ d := by
      simp [Fintype.card_piFinset]
    have e2 : cellMean rows F j - F y = (∑ c ∈ Fintype.piFinset fun _ : Fin d => ({0, 1} : Finset ℕ),
        (F (Spec.node rows fun i => j i + c i) - F y)) / 2 ^ d := by
      rw [cellMean, Finset.sum_sub_distrib, Finset.sum_const, hcard, sub_div, nsmul_eq_mul, Nat.cast_pow, Nat.cast_ofNat,
        mul_div_cancel_left₀ _ (by positivity)]
    rw [e2, Real.norm_eq_abs, abs_div, abs_of_pos (by positivity : (0 : ℝ) < 2 ^ d), div_le_iff₀ (by positivity)]
    refine (Finset.abs_sum_le_sum_abs _ _).trans ?_
    have e3 : η * 2 ^ d = ∑ _c ∈ Fintype.piFinset fun _ : Fin d => ({0, 1} : Finset ℕ), η := by
      rw [Finset.sum_const, hcard, nsmul_eq_mul, Nat.cast_pow, Nat.cast_ofNat, mul_comm]
    rw [e3]
    refine Finset.sum_le_sum fun c hc => hη _ _ (fun i => ?_) fun i => ⟨(hy i).1.le, (hy i).2⟩
    have h3 := Fintype.mem_piFinset.mp hc i
    have h2 := hj' i
    simp only [Finset.mem_insert, Finset.mem_singleton] at h3
    exact ⟨getD_mono (hs i) (by show _ ≤ j i + c i; omega) (by show j i + c i < _; omega),
      getD_mono (hs i) (by show j i + c i ≤ j i + 1; omega) (by show j i + 1 < _; omega)⟩
  have hc : IntegrableOn (fun _ : Fin d → ℝ => cellMean rows F j) (A ∩ B) := integrableOn_const hfin.ne
  rw [e1, ← integral_sub hc (hi.mono_set Set.inter_subset_right), ← Real.norm_eq_abs]
  refine (norm_setIntegral_le_of_norm_le_const hfin fun y hy => hbound y hy.2).trans ?_
  exact mul_le_mul_of_nonneg_left (measureReal_mono Set.inter_subset_right (volume_box_lt _ _).ne) hη0

lemma cells_volume {rows : List (List ℝ)} (hg : Spec.IsGrid d rows) :
    ∏ i : Fin d, (Spec.topNode rows i - Spec.lowNode rows i)
      = ∑ j ∈ Fintype.piFinset fun i => Finset.range (Spec.lastIdx (d := d) rows i),
        volume.real (Spec.box (Spec.node rows j) (Spec.node rows fun i => j i + 1)) := by
  have hs' := fun i => (isGrid_row hg i).2
  have hlast := lastIdx_lt hg
  have hlow : ∀ i, Spec.lowNode rows i ≤ Spec.topNode (d := d) rows i := fun i =>
    getD_mono (hs' i) (Nat.zero_le _) (hlast i)
  rw [← volume_box hlow, Spec.topNode, box_cells hs' hlast]
  exact measureReal_biUnion_finset (cells_disjoint hs' hlast) (fun j _ => measurableSet_box _ _)
    fun j _ => (volume_box_lt _ _).ne

lemma variesTotal_of_variesBy {rows : List (List ℝ)} (hg : Spec.IsGrid d rows) {F : (Fin d → ℝ) → ℝ} {η : ℝ}
    (hη : Spec.VariesBy rows F η) :
    Spec.VariesTotal rows F (η * ∏ i : Fin d, (Spec.topNode rows i - Spec.lowNode rows i)) :=
  ⟨fun _ => η, hη, by rw [cells_volume hg, Finset.mul_sum]⟩

/-- The trapezoid rule for the part of the grid below a point of the grid. -/
lemma mass_error_total {rows : List (List ℝ)} (hg : Spec.IsGrid d rows) {F : (Fin d → ℝ) → ℝ} {W : ℝ}
    (hW : Spec.VariesTotal rows F W) {idx : Fin d → ℕ} (hidx : ∀ i : Fin d, idx i < (rows.getD i []).length)
    (hi : IntegrableOn F (Spec.box (Spec.lowNode rows) (Spec.node rows idx))) :
    |Spec.massBelow rows (fun j => F (Spec.node rows j)) idx
        - ∫ y in Spec.box (Spec.lowNode rows) (Spec.node rows idx), F y| ≤ W := by
  obtain ⟨e, he, hsum⟩ := hW
  have hs := fun i => (isGrid_row hg i).2
  set S := Fintype.piFinset fun i => Finset.range (idx i) with hS
  have hsub : S ⊆ Fintype.piFinset fun i => Finset.range (Spec.lastIdx (d := d) rows i) := by
    refine Fintype.piFinset_subset _ _ fun i => Finset.range_subset_range.mpr ?_
    have := hidx i
    unfold Spec.lastIdx
    omega
  have hj' : ∀ j ∈ Fintype.piFinset fun i => Finset.range (Spec.lastIdx (d := d) rows i),
      ∀ i : Fin d, j i + 1 < (rows.getD i []).length := fun j hj i => by
    have := Finset.mem_range.mp (Fintype.mem_piFinset.mp hj i)
    unfold Spec.lastIdx at this
    omega
  have hle : ∀ j ∈ Fintype.piFinset fun i => Finset.range (Spec.lastIdx (d := d) rows i),
      ∀ i, Spec.node rows j i ≤ Spec.node rows (fun i => j i + 1) i := fun j hj i =>
    getD_mono (hs i) (Nat.le_succ _) (hj' j hj i)
  have he0 : ∀ j ∈ Fintype.piFinset fun i => Finset.range (Spec.lastIdx (d := d) rows i), 0 ≤ e j := fun j hj =>
    (abs_nonneg _).trans (he j (hj' j hj) _ _ (fun i => ⟨le_rfl, hle j hj i⟩) fun i => ⟨le_rfl, hle j hj i⟩)
  have hsubset : ∀ j ∈ S, Spec.box (Spec.node rows j) (Spec.node rows fun i => j i + 1) ⊆
      Spec.box (Spec.lowNode rows) (Spec.node rows idx) := by
    intro j hj
    rw [box_cells hs hidx]
    exact Set.subset_biUnion_of_mem (u := fun j => Spec.box (Spec.node rows j) (Spec.node rows fun i => j i + 1)) hj
  have hint : ∫ y in Spec.box (Spec.lowNode rows) (Spec.node rows idx), F y
      = ∑ j ∈ S, ∫ y in Spec.box (Spec.node rows j) (Spec.node rows fun i => j i + 1), F y := by
    conv_lhs => rw [box_cells hs hidx]
    exact integral_biUnion_finset _ (fun j _ => measurableSet_box _ _) (cells_disjoint hs hidx)
      fun j hj => hi.mono_set (hsubset j hj)
  rw [hint, Spec.massBelow, ← Finset.sum_sub_distrib]
  refine (Finset.abs_sum_le_sum_abs _ _).trans (le_trans (Finset.sum_le_sum fun j hj => ?_)
    ((Finset.sum_le_sum_of_subset_of_nonneg hsub fun j hj _ => mul_nonneg (he0 j hj) measureReal_nonneg).trans hsum))
  have h1 := cellMean_part hg (he j (hj' j (hsub hj))) (A := Set.univ)
    (fun i => Finset.mem_range.mp (Fintype.mem_piFinset.mp (hsub hj) i)) (hi.mono_set (hsubset j hj))
  rw [Set.univ_inter] at h1
  rw [show Spec.cellMass rows (fun j => F (Spec.node rows j)) j = cellMean rows F j
    * volume.real (Spec.box (Spec.node rows j) (Spec.node rows fun i => j i + 1)) by rw [volume_box (hle j (hsub hj))]; rfl]
  exact h1

/-- **C176**, integrals, with different bounds of the variation in different cells: the error of `trapz_nd` is at most the sum of
the variations within the cells, each times the volume of the cell. -/
theorem C176_trapz_total {rows : List (List ℝ)} (hg : Spec.IsGrid d rows) {F : (Fin d → ℝ) → ℝ} {dens : NDArr d ℝ}
    (hs : dens.shape = fun i : Fin d => (rows.getD i []).length) (hv : Spec.ValuesOn rows F dens)
    {W : ℝ} (hW : Spec.VariesTotal rows F W)
    (hi : IntegrableOn F (Spec.box (Spec.lowNode rows) (Spec.topNode rows))) :
    ∃ T, trapzNd dens rows = .ok T ∧ |T - ∫ y in Spec.box (Spec.lowNode rows) (Spec.topNode rows), F y| ≤ W := by
  obtain ⟨M, hM, _, _, hsum⟩ := grid_masses hg hs hv
  refine ⟨M.sum, C38_mass_sum hM, ?_⟩
  rw [hsum]
  exact mass_error_total hg hW (lastIdx_lt hg) hi

/-- **C176**, integrals: if `dens` contains the values of a function at the points of a grid, `trapz_nd(dens, edges)` differs
from the integral of the function over the grid by at most `η V`, where `η` bounds the variation of the function within each
cell and `V` is the volume of the grid. -/
theorem C176_trapz {rows : List (List ℝ)} (hg : Spec.IsGrid d rows) {F : (Fin d → ℝ) → ℝ} {dens : NDArr d ℝ}
    (hs : dens.shape = fun i : Fin d => (rows.getD i []).length) (hv : Spec.ValuesOn rows F dens)
    {η : ℝ} (hη : Spec.VariesBy rows F η)
    (hi : IntegrableOn F (Spec.box (Spec.lowNode rows) (Spec.topNode rows))) :
    ∃ T, trapzNd dens rows = .ok T ∧ |T - ∫ y in Spec.box (Spec.lowNode rows) (Spec.topNode rows), F y|
      ≤ η * ∏ i : Fin d, (Spec.topNode rows i - Spec.lowNode rows i) :=
  C176_trapz_total hg hs hv (variesTotal_of_variesBy hg hη) hi

/-! ## The law of the samples -/

lemma box_ae_Ico (u v : Fin d → ℝ) :
    (Set.pi Set.univ fun i => Set.Ico (u i) (v i) : Set (Fin d → ℝ)) =ᵐ[volume] Spec.box u v := by
  rw [box_eq]
  exact (Measure.univ_pi_Ico_ae_eq_Icc (μ := fun _ : Fin d => (volume : Measure ℝ)) (f := u) (g := v)).trans
    (Measure.univ_pi_Ioc_ae_eq_Icc (μ := fun _ : Fin d => (volume : Measure ℝ)) (f := u) (g := v)).symm

/-- Independent uniform coordinates are uniform in the box. -/
lemma pi_uniform {u v : Fin d → ℝ} (huv : ∀ i, u i < v i) {A : Set (Fin d → ℝ)} (hA : MeasurableSet A) :
    (Measure.pi fun i : Fin d => Spec.uniformLaw (u i) (v i)) A
      = ENNReal.ofReal (volume.real (A ∩ Spec.box u v) / ∏ i, (v i - u i)) := by
  have hfin : ∀ i, IsFiniteMeasure (Spec.uniformLaw (u i) (v i)) := fun i => by
    refine ⟨?_⟩
    rw [Spec.uniformLaw, Measure.smul_apply, Measure.restrict_apply_univ, Real.volume_Ico, smul_eq_mul]
    exact ENNReal.mul_lt_top (ENNReal.inv_lt_top.mpr (ENNReal.ofReal_pos.mpr (sub_pos.mpr (huv i)))) ENNReal.ofReal_lt_top
  have hpos : 0 < ∏ i, (v i - u i) := Finset.prod_pos fun i _ => sub_pos.mpr (huv i)
  have e : (Measure.pi fun i : Fin d => Spec.uniformLaw (u i) (v i))
      = (ENNReal.ofReal (∏ i, (v i - u i)))⁻¹ • volume.restrict (Set.pi Set.univ fun i => Set.Ico (u i) (v i)) := by
    refine Measure.pi_eq fun s hs => ?_
    rw [Measure.smul_apply, Measure.restrict_apply (MeasurableSet.univ_pi hs), ← Set.pi_inter_distrib, volume_pi_pi,
      ENNReal.ofReal_prod_of_nonneg fun i _ => (sub_pos.mpr (huv i)).le, smul_eq_mul,
      ENNReal.prod_inv_distrib (by
        intro i _ j _ _
        exact Or.inr ENNReal.ofReal_ne_top), ← Finset.prod_mul_distrib]
    refine Finset.prod_congr rfl fun i _ => ?_
    rw [Spec.uniformLaw, Measure.smul_apply, Measure.restrict_apply (hs i), smul_eq_mul]
  rw [e, Measure.smul_apply, Measure.restrict_apply hA, smul_eq_mul,
    measure_congr ((Filter.EventuallyEq.refl _ A).inter (box_ae_Ico u v)), ENNReal.ofReal_div_of_pos hpos, ENNReal.div_eq_inv_mul,
    measureReal_def, ENNReal.ofReal_toReal]
  exact ((measure_mono Set.inter_subset_right).trans_lt (volume_box_lt u v)).ne

/-- The grid sampler can be constructed; its masses are the volumes of the cells times the means of the values at their corners,
and fractions of the total mass (spread uniformly over each cell) are close to fractions of the integral. -/
lemma grid_sampler {srt : List ℝ → List ℕ} (hsrt : ∀ l, IsArgsort (srt l) l) {rows : List (List ℝ)} (hg : Spec.IsGrid d rows)
    {F : (Fin d → ℝ) → ℝ} (hF0 : ∀ x, 0 ≤ F x) {dens : NDArr d ℝ}
    (hs : dens.shape = fun i : Fin d => (rows.getD i []).length) (hv : Spec.ValuesOn rows F dens)
    {W : ℝ} (hW : Spec.VariesTotal rows F W)
    (hi : IntegrableOn F (Spec.box (Spec.lowNode rows) (Spec.topNode rows)))
    (hm : 0 < ∫ y in Spec.box (Spec.lowNode rows) (Spec.topNode rows), F y)
    {idx : Fin d → ℕ} (hidx : ∀ i : Fin d, idx i < (rows.getD i []).length) (hpos : 0 < F (Spec.node rows idx)) :
    ∃ g : SampleGrid d, SampleGrid.init srt rows dens = .ok g ∧ (∀ b, ValidIdx g.mass.shape b → 0 ≤ g.mass.get b) ∧
      0 < g.mass.sum ∧ g.mass.shape = Spec.lastIdx rows ∧
      (∀ j ∈ Fintype.piFinset fun i => Finset.range (Spec.lastIdx (d := d) rows i),
        (∀ i : Fin d, Spec.node rows j i < Spec.node rows (fun i => j i + 1) i) ∧ g.mass.get j = cellMean rows F j
          * volume.real (Spec.box (Spec.node rows j) (Spec.node rows fun i => j i + 1))) ∧
      ∀ A : Set (Fin d → ℝ), MeasurableSet A →
        |(∑ j ∈ Fintype.piFinset fun i => Finset.range (Spec.lastIdx (d := d) rows i), cellMean rows F j
            * volume.real (A ∩ Spec.box (Spec.node rows j) (Spec.node rows fun i => j i + 1))) / g.mass.sum
          - (∫ y in A ∩ Spec.box (Spec.lowNode rows) (Spec.topNode rows), F y)
            / ∫ y in Spec.box (Spec.lowNode rows) (Spec.topNode rows), F y|
          ≤ 2 * W
            / ∫ y in Spec.box (Spec.lowNode rows) (Spec.topNode rows), F y := by
  obtain ⟨M, hM, hMs, hMg, hsum⟩ := grid_masses hg hs hv
  have hs' := fun i => (isGrid_row hg i).2
  have hlast := lastIdx_lt hg
  have hMnn : ∀ b, ValidIdx M.shape b → 0 ≤ M.get b := by
    refine C38_mass_nonneg hM (fun idx hx => ?_) fun e he => (hg.2 e he).2.imp le_of_lt
    rw [hv idx fun i => by have := hx i; rwa [hs] at this]
    exact hF0 _
  have hT : 0 < M.sum := by
    have hexists : ∃ b c : Fin d → ℕ, (∀ i, b i < Spec.lastIdx (d := d) rows i) ∧
        (∀ i, c i = 0 ∨ c i = 1) ∧ ∀ i, idx i = b i + c i := by
      refine ⟨fun i => idx i - 1, fun i => if idx i = 0 then 0 else 1, fun i => ?_, fun i => ?_, fun i => ?_⟩
      · have h1 := hidx i
        have h2 := (isGrid_row hg i).1
        unfold Spec.lastIdx
        show idx i - 1 < _
        omega
      · show (if idx i = 0 then 0 else 1) = 0 ∨ (if idx i = 0 then 0 else 1) = 1
        split_ifs <;> simp
      · show idx i = idx i - 1 + if idx i = 0 then 0 else 1
        split_ifs <;> omega
    obtain ⟨b, c, hb, hc, hbc⟩ := hexists
    have hmb : 0 < M.get b := by
      rw [hMg b hb]
      refine mul_pos (div_pos ?_ (by positivity)) (Finset.prod_pos fun i _ => sub_pos.mpr ?_)
      · refine Finset.sum_pos' (fun c _ => hF0 _) ⟨c, ?_, ?_⟩
        · rw [Fintype.mem_piFinset]
          intro i
          rcases hc i with h | h <;> simp [h]
        · rwa [show (fun i => b i + c i) = idx from funext fun i => (hbc i).symm]
      · have h1 := hb i
        unfold Spec.lastIdx at h1
        rw [List.getD_eq_getElem _ _ (by omega : b i + 1 < (rows.getD i []).length),
          List.getD_eq_getElem _ _ (by omega : b i < (rows.getD i []).length)]
        exact List.pairwise_iff_getElem.mp (hs' i) _ _ _ _ (Nat.lt_succ_self _)
    refine lt_of_lt_of_le hmb ?_
    rw [NDArr.sum]
    exact Finset.single_le_sum (f := M.get) (fun x hx => hMnn x (mem_validIdx.mp hx))
      (mem_validIdx.mpr (by rw [hMs]; exact hb))
  obtain ⟨g, hinit, hgm, -⟩ := init_exists hsrt hM hT
  set S := Fintype.piFinset fun i => Finset.range (Spec.lastIdx (d := d) rows i) with hS
  have hmem : ∀ j ∈ S, ∀ i, j i < Spec.lastIdx rows i := fun j hj i => Finset.mem_range.mp (Fintype.mem_piFinset.mp hj i)
  have hcell : ∀ j ∈ S, ∀ i : Fin d, Spec.node rows j i < Spec.node rows (fun i => j i + 1) i := by
    intro j hj i
    have h1 := hmem j hj i
    unfold Spec.lastIdx at h1
    show (rows.getD i []).getD (j i) 0 < (rows.getD i []).getD (j i + 1) 0
    rw [List.getD_eq_getElem _ _ (by omega : j i + 1 < (rows.getD i []).length),
      List.getD_eq_getElem _ _ (by omega : j i < (rows.getD i []).length)]
    exact List.pairwise_iff_getElem.mp (hs' i) _ _ _ _ (Nat.lt_succ_self _)
  have hmean : ∀ j, 0 ≤ cellMean rows F j := fun j => div_nonneg (Finset.sum_nonneg fun c _ => hF0 _) (by positivity)
  have hcm : ∀ j ∈ S, M.get j
      = cellMean rows F j * volume.real (Spec.box (Spec.node rows j) (Spec.node rows fun i => j i + 1)) := by
    intro j hj
    rw [hMg j (hmem j hj), volume_box fun i => (hcell j hj i).le]
    rfl
  refine ⟨g, hinit, by rw [hgm]; exact hMnn, by rw [hgm]; exact hT, by rw [hgm]; exact hMs,
    fun j hj => ⟨hcell j hj, by rw [hgm]; exact hcm j hj⟩, fun A hA => ?_⟩
  rw [hgm]
  set T := M.sum with hTdef
  set t := ∑ j ∈ S, cellMean rows F j * volume.real (A ∩ Spec.box (Spec.node rows j) (Spec.node rows fun i => j i + 1)) with htdef
  have hTsum : T = ∑ j ∈ S, cellMean rows F j * volume.real (Spec.box (Spec.node rows j) (Spec.node rows fun i => j i + 1)) := by
    rw [hTdef, NDArr.sum]
    refine Finset.sum_congr ?_ hcm
    ext b
    rw [mem_validIdx, Fintype.mem_piFinset, hMs]
    simp only [Finset.mem_range]
    rfl
  have hsub : ∀ j ∈ S, Spec.box (Spec.node rows j) (Spec.node rows fun i => j i + 1) ⊆
      Spec.box (Spec.lowNode rows) (Spec.topNode rows) := by
    intro j hj
    rw [Spec.topNode, box_cells hs' hlast]
    exact Set.subset_biUnion_of_mem (u := fun j => Spec.box (Spec.node rows j) (Spec.node rows fun i => j i + 1)) hj
  have hint : ∫ y in A ∩ Spec.box (Spec.lowNode rows) (Spec.topNode rows), F y
      = ∑ j ∈ S, ∫ y in A ∩ Spec.box (Spec.node rows j) (Spec.node rows fun i => j i + 1), F y := by
    conv_lhs => rw [Spec.topNode, box_cells hs' hlast, Set.inter_iUnion₂]
    refine integral_biUnion_finset _ (fun j _ => hA.inter (measurableSet_box _ _)) ?_
      fun j hj => hi.mono_set (Set.inter_subset_right.trans (hsub j hj))
    intro j hj j' hj' hne
    exact (cells_disjoint hs' hlast hj hj' hne).mono Set.inter_subset_right Set.inter_subset_right
  refine quotient_error (e := W) ?_ ?_ ?_ ?_ hT hm
  · obtain ⟨e, he, hle⟩ := hW
    rw [hint, htdef, ← Finset.sum_sub_distrib]
    exact (Finset.abs_sum_le_sum_abs _ _).trans ((Finset.sum_le_sum fun j hj => cellMean_part hg (he j fun i => by
      have := hmem j hj i; unfold Spec.lastIdx at this; omega) (hmem j hj) (hi.mono_set (hsub j hj))).trans hle)
  · rw [hsum]
    exact mass_error_total hg hW hlast hi
  · exact Finset.sum_nonneg fun j _ => mul_nonneg (hmean j) measureReal_nonneg
  · rw [hTsum]
    exact Finset.sum_le_sum fun j _ => mul_le_mul_of_nonneg_left
      (measureReal_mono Set.inter_subset_right (volume_box_lt _ _).ne) (hmean j)

/-- **C176**, samples, with different bounds of the variation in different cells (`W` is the sum of the variations within the
cells, each times the volume of the cell). -/
theorem C176_samples_total {srt : List ℝ → List ℕ} (hsrt : ∀ l, IsArgsort (srt l) l) {rows : List (List ℝ)} (hg : Spec.IsGrid d rows)
    {F : (Fin d → ℝ) → ℝ} (hF0 : ∀ x, 0 ≤ F x) {dens : NDArr d ℝ}
    (hs : dens.shape = fun i : Fin d => (rows.getD i []).length) (hv : Spec.ValuesOn rows F dens)
    {W : ℝ} (hW : Spec.VariesTotal rows F W)
    (hi : IntegrableOn F (Spec.box (Spec.lowNode rows) (Spec.topNode rows)))
    (hm : 0 < ∫ y in Spec.box (Spec.lowNode rows) (Spec.topNode rows), F y)
    {idx : Fin d → ℕ} (hidx : ∀ i : Fin d, idx i < (rows.getD i []).length) (hpos : 0 < F (Spec.node rows idx)) :
    ∃ (g : SampleGrid d) (P : Measure (Fin d → ℝ)), SampleGrid.init srt rows dens = .ok g ∧ IsProbabilityMeasure P ∧
      (∀ A : Set (Fin d → ℝ), MeasurableSet A →
        |P.real A - (∫ y in A ∩ Spec.box (Spec.lowNode rows) (Spec.topNode rows), F y)
            / ∫ y in Spec.box (Spec.lowNode rows) (Spec.topNode rows), F y|
          ≤ 2 * W
            / ∫ y in Spec.box (Spec.lowNode rows) (Spec.topNode rows), F y) ∧
      ∀ {Ω : Type} [MeasurableSpace Ω] (μ : Measure Ω) (r : Ω → Rand d), Spec.GridNumbers μ r → ∀ n : ℕ,
        ∃ X : Fin n → Ω → Fin d → ℝ, (∀ j, HasLaw (X j) P μ) ∧ iIndepFun X μ ∧
          ∀ᵐ ω ∂μ, ∃ out, g.sample (r ω) (some n) false = .ok out ∧
            (out.map Prod.fst).Perm (List.ofFn fun j => X j ω) := by
  obtain ⟨g, hinit, hMnn, hT, hMs, hcells, hfrac⟩ := grid_sampler hsrt hg hF0 hs hv hW hi hm hidx hpos
  have hedges : ∀ e ∈ rows, e.Pairwise (· < ·) := fun e he => (hg.2 e he).2
  obtain ⟨P, hP, -, -, hunif, hX⟩ := C113_partial hsrt hinit hedges hMnn hT false (by simp)
  have hsnd : MeasurePreserving (Prod.snd : (Fin d → ℕ) × (Fin d → ℝ) → _) P (P.map Prod.snd) := ⟨measurable_snd, rfl⟩
  refine ⟨g, P.map Prod.snd, hinit, Measure.isProbabilityMeasure_map measurable_snd.aemeasurable, fun A hA => ?_,
    fun μ r hr n => ?_⟩
  swap
  · obtain ⟨X, h1, h2, h3⟩ := hX μ r hr n
    exact ⟨fun j ω => (X j ω).2, fun j => hsnd.hasLaw.comp (h1 j),
      h2.comp (fun _ => Prod.snd) fun _ => measurable_snd, h3⟩
  set S := Fintype.piFinset fun i => Finset.range (Spec.lastIdx (d := d) rows i) with hS
  have hbins : Spec.bins dens.shape = S := by
    rw [Spec.bins, hs]
    rfl
  refine le_trans (le_of_eq ?_) (hfrac A hA)
  congr 2
  rw [measureReal_def, Measure.map_apply measurable_snd hA]
  show (P {p | p.2 ∈ A}).toReal = _
  rw [hunif rfl A hA, hbins, ENNReal.toReal_sum fun j hj => ?_]
  · rw [Finset.sum_div]
    refine Finset.sum_congr rfl fun j hj => ?_
    have hvol := volume_box fun i => ((hcells j hj).1 i).le
    have hp : 0 < ∏ i : Fin d, (Spec.node rows (fun i => j i + 1) i - Spec.node rows j i) :=
      Finset.prod_pos fun i _ => sub_pos.mpr ((hcells j hj).1 i)
    show (ENNReal.ofReal (g.mass.get j / g.mass.sum) * (Measure.pi fun i : Fin d => Spec.uniformLaw (Spec.node rows j i)
      (Spec.node rows (fun i => j i + 1) i)) A).toReal = _
    rw [pi_uniform ((hcells j hj).1) hA, ENNReal.toReal_mul, ENNReal.toReal_ofReal (div_nonneg (hMnn j
      (by rw [hMs]; exact fun i => Finset.mem_range.mp (Fintype.mem_piFinset.mp hj i))) hT.le), ENNReal.toReal_ofReal (div_nonneg measureReal_nonneg hp.le), (hcells j hj).2, hvol]
    field_simp
  · show ENNReal.ofReal (g.mass.get j / g.mass.sum) * (Measure.pi fun i : Fin d => Spec.uniformLaw (Spec.node rows j i)
      (Spec.node rows (fun i => j i + 1) i)) A ≠ ⊤
    rw [pi_uniform ((hcells j hj).1) hA]
    exact ENNReal.mul_ne_top ENNReal.ofReal_ne_top ENNReal.ofReal_ne_top

/-- **C176**, samples: if `dens` contains the values of a nonnegative function `F` at the points of a grid, samples drawn from
the grid without interpolation are, up to their order, independent draws from a distribution that differs, on every set, from
the distribution with density `F` in the grid by at most `2 η V / ∫ F`. -/
theorem C176_samples {srt : List ℝ → List ℕ} (hsrt : ∀ l, IsArgsort (srt l) l) {rows : List (List ℝ)} (hg : Spec.IsGrid d rows)
    {F : (Fin d → ℝ) → ℝ} (hF0 : ∀ x, 0 ≤ F x) {dens : NDArr d ℝ}
    (hs : dens.shape = fun i : Fin d => (rows.getD i []).length) (hv : Spec.ValuesOn rows F dens)
    {η : ℝ} (hη : Spec.VariesBy rows F η)
    (hi : IntegrableOn F (Spec.box (Spec.lowNode rows) (Spec.topNode rows)))
    (hm : 0 < ∫ y in Spec.box (Spec.lowNode rows) (Spec.topNode rows), F y)
    {idx : Fin d → ℕ} (hidx : ∀ i : Fin d, idx i < (rows.getD i []).length) (hpos : 0 < F (Spec.node rows idx)) :
    ∃ (g : SampleGrid d) (P : Measure (Fin d → ℝ)), SampleGrid.init srt rows dens = .ok g ∧ IsProbabilityMeasure P ∧
      (∀ A : Set (Fin d → ℝ), MeasurableSet A →
        |P.real A - (∫ y in A ∩ Spec.box (Spec.lowNode rows) (Spec.topNode rows), F y)
            / ∫ y in Spec.box (Spec.lowNode rows) (Spec.topNode rows), F y|
          ≤ 2 * (η * ∏ i : Fin d, (Spec.topNode rows i - Spec.lowNode rows i))
            / ∫ y in Spec.box (Spec.lowNode rows) (Spec.topNode rows), F y) ∧
      ∀ {Ω : Type} [MeasurableSpace Ω] (μ : Measure Ω) (r : Ω → Rand d), Spec.GridNumbers μ r → ∀ n : ℕ,
        ∃ X : Fin n → Ω → Fin d → ℝ, (∀ j, HasLaw (X j) P μ) ∧ iIndepFun X μ ∧
          ∀ᵐ ω ∂μ, ∃ out, g.sample (r ω) (some n) false = .ok out ∧
            (out.map Prod.fst).Perm (List.ofFn fun j => X j ω) :=
  C176_samples_total hsrt hg hF0 hs hv (variesTotal_of_variesBy hg hη) hi hm hidx hpos

/-- **C176**, frequencies, with different bounds of the variation in different cells. -/
theorem C176_frequencies_total {srt : List ℝ → List ℕ} (hsrt : ∀ l, IsArgsort (srt l) l) {rows : List (List ℝ)}
    (hg : Spec.IsGrid d rows) {F : (Fin d → ℝ) → ℝ} (hF0 : ∀ x, 0 ≤ F x) {dens : NDArr d ℝ}
    (hs : dens.shape = fun i : Fin d => (rows.getD i []).length) (hv : Spec.ValuesOn rows F dens)
    {W : ℝ} (hW : Spec.VariesTotal rows F W)
    (hi : IntegrableOn F (Spec.box (Spec.lowNode rows) (Spec.topNode rows)))
    (hm : 0 < ∫ y in Spec.box (Spec.lowNode rows) (Spec.topNode rows), F y)
    {idx : Fin d → ℕ} (hidx : ∀ i : Fin d, idx i < (rows.getD i []).length) (hpos : 0 < F (Spec.node rows idx)) :
    ∃ g : SampleGrid d, SampleGrid.init srt rows dens = .ok g ∧
      ∀ {Ω : Type} [MeasurableSpace Ω] (μ : Measure Ω) (r : Ω → Rand d), Spec.GridNumbers μ r →
        ∀ (n : ℕ) (A : Set (Fin d → ℝ)), MeasurableSet A → ∀ ε > 0,
          μ.real {ω | ¬ ∃ out, g.sample (r ω) (some n) false = .ok out ∧
            |Spec.fraction (out.map Prod.fst) A - (∫ y in A ∩ Spec.box (Spec.lowNode rows) (Spec.topNode rows), F y)
                / ∫ y in Spec.box (Spec.lowNode rows) (Spec.topNode rows), F y|
              < ε + 2 * W
                / ∫ y in Spec.box (Spec.lowNode rows) (Spec.topNode rows), F y} ≤ 2 * Real.exp (-2 * n * ε ^ 2) := by
  obtain ⟨g, P, hinit, hP, hclose, hX⟩ := C176_samples_total hsrt hg hF0 hs hv hW hi hm hidx hpos
  refine ⟨g, hinit, fun μ r hr n A hA ε hε => ?_⟩
  obtain ⟨X, h1, h2, h3⟩ := hX μ r hr n
  have hprob : IsProbabilityMeasure μ := (hr.law 0).isProbabilityMeasure_iff.mpr inferInstance
  have h4 := fraction_bound_list h1 h2 hA
    (good := fun ω l => ∃ out, g.sample (r ω) (some n) false = .ok out ∧ out.map Prod.fst = l)
    (h3.mono fun ω ⟨out, a, b⟩ => ⟨_, ⟨out, a, rfl⟩, b⟩) hε
  refine le_trans (measureReal_mono fun ω hω => ?_) h4
  rintro ⟨l, ⟨out, a, rfl⟩, b⟩
  exact hω ⟨out, a, lt_of_le_of_lt (abs_sub_le _ (P.real A) _) (add_lt_add_of_lt_of_le b (hclose A hA))⟩

/-- **C176**, frequencies: the fraction of the samples in any set differs from the fraction of the integral of `F` in it by less
than `ε + 2 η V / ∫ F`, except with a probability of at most `2 exp(-2 n ε²)`. -/
theorem C176_frequencies {srt : List ℝ → List ℕ} (hsrt : ∀ l, IsArgsort (srt l) l) {rows : List (List ℝ)}
    (hg : Spec.IsGrid d rows) {F : (Fin d → ℝ) → ℝ} (hF0 : ∀ x, 0 ≤ F x) {dens : NDArr d ℝ}
    (hs : dens.shape = fun i : Fin d => (rows.getD i []).length) (hv : Spec.ValuesOn rows F dens)
    {η : ℝ} (hη : Spec.VariesBy rows F η)
    (hi : IntegrableOn F (Spec.box (Spec.lowNode rows) (Spec.topNode rows)))
    (hm : 0 < ∫ y in Spec.box (Spec.lowNode rows) (Spec.topNode rows), F y)
    {idx : Fin d → ℕ} (hidx : ∀ i : Fin d, idx i < (rows.getD i []).length) (hpos : 0 < F (Spec.node rows idx)) :
    ∃ g : SampleGrid d, SampleGrid.init srt rows dens = .ok g ∧
      ∀ {Ω : Type} [MeasurableSpace Ω] (μ : Measure Ω) (r : Ω → Rand d), Spec.GridNumbers μ r →
        ∀ (n : ℕ) (A : Set (Fin d → ℝ)), MeasurableSet A → ∀ ε > 0,
          μ.real {ω | ¬ ∃ out, g.sample (r ω) (some n) false = .ok out ∧
            |Spec.fraction (out.map Prod.fst) A - (∫ y in A ∩ Spec.box (Spec.lowNode rows) (Spec.topNode rows), F y)
                / ∫ y in Spec.box (Spec.lowNode rows) (Spec.topNode rows), F y|
              < ε + 2 * (η * ∏ i : Fin d, (Spec.topNode rows i - Spec.lowNode rows i))
                / ∫ y in Spec.box (Spec.lowNode rows) (Spec.topNode rows), F y} ≤ 2 * Real.exp (-2 * n * ε ^ 2) :=
  C176_frequencies_total hsrt hg hF0 hs hv (variesTotal_of_variesBy hg hη) hi hm hidx hpos

/-- **C176**, bins, with different bounds of the variation in different cells. -/
theorem C176_bins_total {srt : List ℝ → List ℕ} (hsrt : ∀ l, IsArgsort (srt l) l) {rows : List (List ℝ)}
    (hg : Spec.IsGrid d rows) {F : (Fin d → ℝ) → ℝ} (hF0 : ∀ x, 0 ≤ F x) {dens : NDArr d ℝ}
    (hs : dens.shape = fun i : Fin d => (rows.getD i []).length) (hv : Spec.ValuesOn rows F dens)
    {W : ℝ} (hW : Spec.VariesTotal rows F W)
    (hi : IntegrableOn F (Spec.box (Spec.lowNode rows) (Spec.topNode rows)))
    (hm : 0 < ∫ y in Spec.box (Spec.lowNode rows) (Spec.topNode rows), F y)
    {idx : Fin d → ℕ} (hidx : ∀ i : Fin d, idx i < (rows.getD i []).length) (hpos : 0 < F (Spec.node rows idx)) :
    ∃ g : SampleGrid d, SampleGrid.init srt rows dens = .ok g ∧
      ∀ {Ω : Type} [MeasurableSpace Ω] (μ : Measure Ω) (r : Ω → Rand d), Spec.GridNumbers μ r →
        ∀ (interp : Bool) (n : ℕ) (S : Finset (Fin d → ℕ)),
          (∀ j ∈ S, ∀ i : Fin d, j i + 1 < (rows.getD i []).length) → ∀ ε > 0,
          μ.real {ω | ¬ ∃ out, g.sample (r ω) (some n) interp = .ok out ∧
            |Spec.fraction (out.map Prod.fst) (⋃ j ∈ S, Spec.box (Spec.node rows j) (Spec.node rows fun i => j i + 1))
                - (∑ j ∈ S, ∫ y in Spec.box (Spec.node rows j) (Spec.node rows fun i => j i + 1), F y)
                / ∫ y in Spec.box (Spec.lowNode rows) (Spec.topNode rows), F y|
              < ε + 2 * W
                / ∫ y in Spec.box (Spec.lowNode rows) (Spec.topNode rows), F y} ≤ 2 * Real.exp (-2 * n * ε ^ 2) := by
  obtain ⟨g, hinit, hMnn, hT, hMs, hcells, hfrac⟩ := grid_sampler hsrt hg hF0 hs hv hW hi hm hidx hpos
  refine ⟨g, hinit, fun μ r hr interp n S hS ε hε => ?_⟩
  have hedges : ∀ e ∈ rows, e.Pairwise (· < ·) := fun e he => (hg.2 e he).2
  have hs' := fun i => (isGrid_row hg i).2
  have hlast := lastIdx_lt hg
  have hsum : dens.sum ≠ 0 := by
    have hval : ∀ x ∈ validIdx dens.shape, dens.get x = F (Spec.node rows x) := fun x hx => hv x fun i => by
      have := mem_validIdx.mp hx i
      rwa [hs] at this
    refine (lt_of_lt_of_le hpos ?_).ne'
    rw [NDArr.sum, Finset.sum_congr rfl hval]
    exact Finset.single_le_sum (f := fun x => F (Spec.node rows x)) (fun x _ => hF0 _)
      (mem_validIdx.mpr fun i => by rw [hs]; exact hidx i)
  obtain ⟨P, hP, hbin, hin, -, hX⟩ := C113_partial hsrt hinit hedges hMnn hT interp fun _ => hsum
  obtain ⟨X, h1, h2, h3⟩ := hX μ r hr n
  have hprob : IsProbabilityMeasure μ := (hr.law 0).isProbabilityMeasure_iff.mpr inferInstance
  have hsnd : MeasurePreserving (Prod.snd : (Fin d → ℕ) × (Fin d → ℝ) → _) P (P.map Prod.snd) := ⟨measurable_snd, rfl⟩
  set T := Fintype.piFinset fun i => Finset.range (Spec.lastIdx (d := d) rows i) with hTdef
  have hlt : ∀ j : Fin d → ℕ, (∀ i : Fin d, j i + 1 < (rows.getD i []).length) → j ∈ T := fun j hj => by
    rw [hTdef, Fintype.mem_piFinset]
    intro i
    have := hj i
    rw [Finset.mem_range]
    unfold Spec.lastIdx
    omega
  have hST : S ⊆ T := fun j hj => hlt j (hS j hj)
  set A := ⋃ j ∈ S, Spec.box (Spec.node rows j) (Spec.node rows fun i => j i + 1) with hAdef
  have hA : MeasurableSet A := S.measurableSet_biUnion fun j _ => measurableSet_box _ _
  have hsub : ∀ j ∈ T, Spec.box (Spec.node rows j) (Spec.node rows fun i => j i + 1) ⊆
      Spec.box (Spec.lowNode rows) (Spec.topNode rows) := by
    intro j hj
    rw [Spec.topNode, box_cells hs' hlast]
    exact Set.subset_biUnion_of_mem (u := fun j => Spec.box (Spec.node rows j) (Spec.node rows fun i => j i + 1)) hj
  have hdisj := cells_disjoint hs' hlast
  have hin1 : ∀ j ∈ S, A ∩ Spec.box (Spec.node rows j) (Spec.node rows fun i => j i + 1)
      = Spec.box (Spec.node rows j) (Spec.node rows fun i => j i + 1) := fun j hj =>
    Set.inter_eq_right.mpr
      (Set.subset_biUnion_of_mem (u := fun j => Spec.box (Spec.node rows j) (Spec.node rows fun i => j i + 1)) hj)
  have hin2 : ∀ j ∈ T, j ∉ S → A ∩ Spec.box (Spec.node rows j) (Spec.node rows fun i => j i + 1) = ∅ := by
    intro j hj hjS
    rw [← Set.disjoint_iff_inter_eq_empty, hAdef, Set.disjoint_iUnion₂_left]
    intro j' hj'
    exact hdisj (hST hj') hj fun h => hjS (h ▸ hj')
  have hAint : ∫ y in A ∩ Spec.box (Spec.lowNode rows) (Spec.topNode rows), F y
      = ∑ j ∈ S, ∫ y in Spec.box (Spec.node rows j) (Spec.node rows fun i => j i + 1), F y := by
    rw [Set.inter_eq_left.mpr (Set.iUnion₂_subset fun j hj => hsub j (hST hj))]
    exact integral_biUnion_finset _ (fun j _ => measurableSet_box _ _) (fun j hj j' hj' hne => hdisj (hST hj) (hST hj') hne)
      fun j hj => hi.mono_set (hsub j (hST hj))
  have hPA : (P.map Prod.snd).real A = (∑ j ∈ T, cellMean rows F j
      * volume.real (A ∩ Spec.box (Spec.node rows j) (Spec.node rows fun i => j i + 1))) / g.mass.sum := by
    have e1 : (∑ j ∈ T, cellMean rows F j * volume.real (A ∩ Spec.box (Spec.node rows j) (Spec.node rows fun i => j i + 1)))
        = ∑ j ∈ S, g.mass.get j := by
      rw [← Finset.sum_subset hST fun j hj hjS => by rw [hin2 j hj hjS]; simp]
      exact Finset.sum_congr rfl fun j hj => by rw [hin1 j hj, (hcells j (hST hj)).2]
    have e2 : P (Prod.snd ⁻¹' A) = P (⋃ j ∈ S, {p | p.1 = j}) := by
      refine measure_congr ?_
      filter_upwards [hin] with p ⟨hp1, _, hp2⟩
      have hpT : p.1 ∈ T := hlt p.1 fun i => by have := hp1 i; rwa [hs] at this
      have hpc : p.2 ∈ Spec.box (Spec.node rows p.1) (Spec.node rows fun i => p.1 i + 1) :=
        fun i => ⟨(hp2 i).1, (hp2 i).2.le⟩
      refine propext ⟨fun hp => ?_, fun hp => ?_⟩
      · by_cases hpS : p.1 ∈ S
        · exact Set.mem_biUnion hpS rfl
        · have : p.2 ∈ A ∩ Spec.box (Spec.node rows p.1) (Spec.node rows fun i => p.1 i + 1) := ⟨hp, hpc⟩
          rw [hin2 p.1 hpT hpS] at this
          exact this.elim
      · obtain ⟨j, hj, hpj⟩ := Set.mem_iUnion₂.mp hp
        exact Set.mem_biUnion (show p.1 ∈ S from (show p.1 = j from hpj) ▸ hj) hpc
    have hsing : ∀ j ∈ S, MeasurableSet {p : (Fin d → ℕ) × (Fin d → ℝ) | p.1 = j} :=
      fun j _ => measurable_fst (measurableSet_singleton j)
    rw [measureReal_def, Measure.map_apply measurable_snd hA, e2, measure_biUnion_finset ?_ hsing, ENNReal.toReal_sum fun j _ => measure_ne_top _ _, e1, Finset.sum_div]
    · refine Finset.sum_congr rfl fun j hj => ?_
      rw [hbin j fun i => by rw [hs]; exact hS j hj i, ENNReal.toReal_ofReal]
      refine div_nonneg (hMnn j ?_) hT.le
      rw [hMs]
      exact fun i => Finset.mem_range.mp (Fintype.mem_piFinset.mp (hST hj) i)
    · intro j _ j' _ hne
      exact Set.disjoint_left.mpr fun p hp hp' => hne ((show p.1 = j from hp).symm.trans hp')
  have h4 := fraction_bound_list (X := fun j ω => (X j ω).2) (fun j => hsnd.hasLaw.comp (h1 j))
    (h2.comp (fun _ => Prod.snd) fun _ => measurable_snd) hA
    (good := fun ω l => ∃ out, g.sample (r ω) (some n) interp = .ok out ∧ out.map Prod.fst = l)
    (h3.mono fun ω ⟨out, a, b⟩ => ⟨_, ⟨out, a, rfl⟩, b⟩) hε
  have hclose := hfrac A hA
  rw [← hPA, hAint] at hclose
  refine le_trans (measureReal_mono fun ω hω => ?_) h4
  rintro ⟨l, ⟨out, a, rfl⟩, b⟩
  exact hω ⟨out, a, lt_of_le_of_lt (abs_sub_le _ ((P.map Prod.snd).real A) _) (add_lt_add_of_lt_of_le b hclose)⟩

/-- **C176**, bins: with or without interpolation, for every set `S` of cells of the grid the fraction of the samples in these
cells differs from the fraction of the integral of `F` in them by less than `ε + 2 η V / ∫ F`, except with a probability of
at most `2 exp(-2 n ε²)`. -/
theorem C176_bins {srt : List ℝ → List ℕ} (hsrt : ∀ l, IsArgsort (srt l) l) {rows : List (List ℝ)}
    (hg : Spec.IsGrid d rows) {F : (Fin d → ℝ) → ℝ} (hF0 : ∀ x, 0 ≤ F x) {dens : NDArr d ℝ}
    (hs : dens.shape = fun i : Fin d => (rows.getD i []).length) (hv : Spec.ValuesOn rows F dens)
    {η : ℝ} (hη : Spec.VariesBy rows F η)
    (hi : IntegrableOn F (Spec.box (Spec.lowNode rows) (Spec.topNode rows)))
    (hm : 0 < ∫ y in Spec.box (Spec.lowNode rows) (Spec.topNode rows), F y)
    {idx : Fin d → ℕ} (hidx : ∀ i : Fin d, idx i < (rows.getD i []).length) (hpos : 0 < F (Spec.node rows idx)) :
    ∃ g : SampleGrid d, SampleGrid.init srt rows dens = .ok g ∧
      ∀ {Ω : Type} [MeasurableSpace Ω] (μ : Measure Ω) (r : Ω → Rand d), Spec.GridNumbers μ r →
        ∀ (interp : Bool) (n : ℕ) (S : Finset (Fin d → ℕ)),
          (∀ j ∈ S, ∀ i : Fin d, j i + 1 < (rows.getD i []).length) → ∀ ε > 0,
          μ.real {ω | ¬ ∃ out, g.sample (r ω) (some n) interp = .ok out ∧
            |Spec.fraction (out.map Prod.fst) (⋃ j ∈ S, Spec.box (Spec.node rows j) (Spec.node rows fun i => j i + 1))
                - (∑ j ∈ S, ∫ y in Spec.box (Spec.node rows j) (Spec.node rows fun i => j i + 1), F y)
                / ∫ y in Spec.box (Spec.lowNode rows) (Spec.topNode rows), F y|
              < ε + 2 * (η * ∏ i : Fin d, (Spec.topNode rows i - Spec.lowNode rows i))
                / ∫ y in Spec.box (Spec.lowNode rows) (Spec.topNode rows), F y} ≤ 2 * Real.exp (-2 * n * ε ^ 2) :=
  C176_bins_total hsrt hg hF0 hs hv (variesTotal_of_variesBy hg hη) hi hm hidx hpos

/-! ## The pdf of a `KDE` -/

/-- `KDE.pdf` with `grid=True` returns the values of the pdf at the points of the grid. -/
theorem C176_values {E : Ext} {srt : List ℝ → List ℕ} {k : KDE d} {F : (Fin d → ℝ) → ℝ} (hF : Spec.Reports E srt k F)
    (hd : 0 < d) {rows : List (List ℝ)} (hl : rows.length = d) :
    ∃ p arr, (k.pdf E srt (some (.rows rows)) .none .none true).1 = .ok (p, arr) ∧ Spec.ValuesOn rows F (arr.toND rows) := by
  obtain ⟨p, arr, h⟩ := density_grid_ok hF hd hl
  exact ⟨p, arr, h, fun idx hidx => node_value hF (fun _ => rfl) h hl hidx⟩

/-- On fine grids a continuous function varies little within each cell. -/
lemma varies_fine {F : (Fin d → ℝ) → ℝ} {u v : Fin d → ℝ} (hc : ContinuousOn F (Set.Icc u v)) {η : ℝ} (hη : 0 < η) :
    ∃ δ > 0, ∀ rows : List (List ℝ), Spec.IsGrid d rows → Spec.lowNode rows = u → Spec.topNode rows = v →
      (∀ (i : Fin d) (j : ℕ), j + 1 < (rows.getD i []).length →
        (rows.getD i []).getD (j + 1) 0 - (rows.getD i []).getD j 0 ≤ δ) → Spec.VariesBy rows F η := by
  obtain ⟨δ, hδ, h1⟩ :=
    Metric.uniformContinuousOn_iff.mp (isCompact_Icc.uniformContinuousOn_of_continuous hc) η hη
  refine ⟨δ / 2, by positivity, fun rows hg hu hv hmesh j hj y z hy hz => ?_⟩
  have hnode : ∀ idx : Fin d → ℕ, (∀ i : Fin d, idx i < (rows.getD i []).length) →
      Spec.node rows idx ∈ Set.Icc u v := by
    intro idx hidx
    rw [← hu, ← hv]
    exact ⟨fun i => getD_mono (isGrid_row hg i).2 (Nat.zero_le _) (hidx i),
      fun i => getD_mono (isGrid_row hg i).2 (Nat.le_sub_one_of_lt (hidx i)) (by have := hidx i; unfold Spec.lastIdx; omega)⟩
  have hn1 := hnode j fun i => by have := hj i; omega
  have hn2 := hnode (fun i => j i + 1) hj
  refine (h1 y ⟨fun i => (hn1.1 i).trans (hy i).1, fun i => (hy i).2.trans (hn2.2 i)⟩ z
    ⟨fun i => (hn1.1 i).trans (hz i).1, fun i => (hz i).2.trans (hn2.2 i)⟩ ?_).le
  refine lt_of_le_of_lt ((dist_pi_le_iff (by positivity)).mpr fun i => ?_) (half_lt_self hδ)
  have hs : Spec.node rows (fun i => j i + 1) i - Spec.node rows j i ≤ δ / 2 := hmesh i (j i) (hj i)
  rw [Real.dist_eq, abs_le]
  constructor <;> linarith [(hy i).1, (hy i).2, (hz i).1, (hz i).2]

/-- If the integral is positive, a continuous function is positive at some point of every fine grid. -/
lemma pos_fine {F : (Fin d → ℝ) → ℝ} (hc : Continuous F) {u v : Fin d → ℝ} (hm : 0 < ∫ y in Spec.box u v, F y) :
    ∃ δ > 0, ∀ rows : List (List ℝ), Spec.lowNode rows = u → Spec.topNode rows = v →
      (∀ (i : Fin d) (j : ℕ), j + 1 < (rows.getD i []).length →
        (rows.getD i []).getD (j + 1) 0 - (rows.getD i []).getD j 0 ≤ δ) →
      ∃ idx : Fin d → ℕ, (∀ i : Fin d, idx i < (rows.getD i []).length) ∧ 0 < F (Spec.node rows idx) := by
  obtain ⟨y, hy, hyp⟩ : ∃ y ∈ Spec.box u v, 0 < F y := by
    by_contra hcon
    push Not at hcon
    exact absurd (setIntegral_nonpos (measurableSet_box u v) hcon) (not_le.mpr hm)
  obtain ⟨δ, hδ, hnear⟩ := Metric.continuous_iff.mp hc y (F y) hyp
  refine ⟨δ / 2, by positivity, fun rows hu hv hmesh => ?_⟩
  have hex : ∀ i : Fin d, ∃ j, j + 1 < (rows.getD i []).length ∧ (rows.getD i []).getD j 0 < y i ∧
      y i ≤ (rows.getD i []).getD (j + 1) 0 := by
    intro i
    have h1 := (hy i).1
    have h2 := (hy i).2
    rw [← hu] at h1
    rw [← hv] at h2
    obtain ⟨j, hj, hj1⟩ := exists_cell (f := fun n => (rows.getD i []).getD n 0) (n := Spec.lastIdx rows i) h1 h2
    exact ⟨j, by unfold Spec.lastIdx at hj; omega, hj1⟩
  choose j hj hj1 hj2 using hex
  refine ⟨fun i => j i + 1, hj, ?_⟩
  have hdist : dist (Spec.node rows fun i => j i + 1) y < δ := by
    refine lt_of_le_of_lt ((dist_pi_le_iff (by positivity)).mpr fun i => ?_) (half_lt_self hδ)
    have h1 := hmesh i (j i) (hj i)
    have h2 := hj1 i
    have h3 := hj2 i
    rw [Real.dist_eq, abs_le]
    constructor
    · show -(δ / 2) ≤ (rows.getD i []).getD (j i + 1) 0 - y i
      linarith
    · show (rows.getD i []).getD (j i + 1) 0 - y i ≤ δ / 2
      linarith
  have := hnear _ hdist
  rw [Real.dist_eq, abs_lt] at this
  linarith [this.1]

/-- **C176**, integral of the pdf on a grid.  Take any `KDE` without boundaries whose kernel is not the box, a box between `u`
and `v`, and a tolerance `τ`.  On every grid that covers the box in sufficiently small steps, `trapz_nd` of the pdf returned
for the grid is within `τ` of the probability of the box. -/
theorem C176_integral {E : Ext} {a : KDEArgs d} {k : KDE d} (h : KDE.init E a = .ok k) (hd : 0 < d) (srt : List ℝ → List ℕ)
    (hr : a.reflect = .none) (hM : (Spec.kernelMatrix k.covariance k.bandwidth).PosDef) (hD : k.kernel.dist ≠ .box)
    {F : (Fin d → ℝ) → ℝ} (hF : Spec.Reports E srt k F) (u v : Fin d → ℝ) {τ : ℝ} (hτ : 0 < τ) :
    ∃ δ > 0, ∀ rows : List (List ℝ), Spec.IsGrid d rows → Spec.lowNode rows = u → Spec.topNode rows = v →
      (∀ (i : Fin d) (j : ℕ), j + 1 < (rows.getD i []).length →
        (rows.getD i []).getD (j + 1) 0 - (rows.getD i []).getD j 0 ≤ δ) →
      ∃ p arr T, (k.pdf E srt (some (.rows rows)) .none .none true).1 = .ok (p, arr) ∧
        trapzNd (arr.toND rows : NDArr d ℝ) rows = .ok T ∧ |T - ∫ y in Spec.box u v, F y| ≤ τ := by
  have hc : Continuous F := by
    obtain ⟨F', hF', _, _, hc⟩ := C132_regular h srt hd hr hM
    rw [reports_unique hF hF']
    exact hc hD
  set V := ∏ i, (v i - u i) with hV
  obtain ⟨δ, hδ, hfine⟩ := varies_fine (hc.continuousOn (s := Set.Icc u v)) (η := τ / (|V| + 1)) (by positivity)
  refine ⟨δ, hδ, fun rows hg hu hv hmesh => ?_⟩
  obtain ⟨p, arr, h1, h2⟩ := C176_values hF hd hg.1
  obtain ⟨T, h3, h4⟩ := C176_trapz hg rfl h2 (hfine rows hg hu hv hmesh) (pdf_facts h srt hd hr hM hF).1.integrableOn
  rw [hu, hv, ← hV] at h4
  refine ⟨p, arr, T, h1, h3, h4.trans ?_⟩
  rw [div_mul_eq_mul_div, div_le_iff₀ (by positivity)]
  exact mul_le_mul_of_nonneg_left (by linarith [le_abs_self V]) hτ.le

/-- **C176**, samples of the pdf on a grid.  Take any `KDE` without boundaries whose kernel is not the box, a box between `u` and
`v` of positive probability, and a tolerance `τ`.  On every grid that covers the box in sufficiently small steps, the pdf
returned for the grid can be sampled, and in every set the fraction of `n` samples is within `τ + ε` of the probability of
the set among values in the box, except with a probability of at most `2 exp(-2 n ε²)`. -/
theorem C176_limit {E : Ext} {a : KDEArgs d} {k : KDE d} (h : KDE.init E a = .ok k) (hd : 0 < d) {srt : List ℝ → List ℕ}
    (hsrt : ∀ l, IsArgsort (srt l) l) (hr : a.reflect = .none)
    (hM : (Spec.kernelMatrix k.covariance k.bandwidth).PosDef) (hD : k.kernel.dist ≠ .box)
    {F : (Fin d → ℝ) → ℝ} (hF : Spec.Reports E srt k F) {u v : Fin d → ℝ} (hm : 0 < ∫ y in Spec.box u v, F y)
    {τ : ℝ} (hτ : 0 < τ) :
    ∃ δ > 0, ∀ rows : List (List ℝ), Spec.IsGrid d rows → Spec.lowNode rows = u → Spec.topNode rows = v →
      (∀ (i : Fin d) (j : ℕ), j + 1 < (rows.getD i []).length →
        (rows.getD i []).getD (j + 1) 0 - (rows.getD i []).getD j 0 ≤ δ) →
      ∃ p arr, (k.pdf E srt (some (.rows rows)) .none .none true).1 = .ok (p, arr) ∧
        ∃ g : SampleGrid d, SampleGrid.init srt rows (arr.toND rows) = .ok g ∧
          ∀ {Ω : Type} [MeasurableSpace Ω] (μ : Measure Ω) (r : Ω → Rand d), Spec.GridNumbers μ r →
            ∀ (n : ℕ) (A : Set (Fin d → ℝ)), MeasurableSet A → ∀ ε > 0,
              μ.real {ω | ¬ ∃ out, g.sample (r ω) (some n) false = .ok out ∧
                |Spec.fraction (out.map Prod.fst) A - (∫ y in A ∩ Spec.box u v, F y) / ∫ y in Spec.box u v, F y| < ε + τ}
                ≤ 2 * Real.exp (-2 * n * ε ^ 2) := by
  have hc : Continuous F := by
    obtain ⟨F', hF', _, _, hc⟩ := C132_regular h srt hd hr hM
    rw [reports_unique hF hF']
    exact hc hD
  obtain ⟨hI, hFn⟩ := pdf_facts h srt hd hr hM hF
  set m := ∫ y in Spec.box u v, F y with hmdef
  set V := ∏ i, (v i - u i) with hV
  obtain ⟨δ1, hδ1, hfine⟩ := varies_fine (hc.continuousOn (s := Set.Icc u v)) (η := τ * m / (2 * (|V| + 1))) (by positivity)
  obtain ⟨δ2, hδ2, hnear⟩ := pos_fine hc (hmdef ▸ hm)
  refine ⟨min δ1 δ2, by positivity, fun rows hg hu hv hmesh => ?_⟩
  obtain ⟨p, arr, h1, h2⟩ := C176_values hF hd hg.1
  obtain ⟨idx, hidx, hpos⟩ := hnear rows hu hv fun i j hj => (hmesh i j hj).trans (min_le_right _ _)
  obtain ⟨g, h3, h4⟩ := C176_frequencies hsrt hg hFn (dens := arr.toND rows) rfl h2
    (hfine rows hg hu hv fun i j hj => (hmesh i j hj).trans (min_le_left _ _)) hI.integrableOn
    (by rw [hu, hv]; exact hm) hidx hpos
  refine ⟨p, arr, h1, g, h3, fun {Ω} _ μ r hr' n A hA ε hε => ?_⟩
  have h5 := h4 μ r hr' n A hA ε hε
  rw [hu, hv, ← hmdef, ← hV] at h5
  have hprob : IsProbabilityMeasure μ := (hr'.law 0).isProbabilityMeasure_iff.mpr inferInstance
  have herr : 2 * (τ * m / (2 * (|V| + 1)) * V) / m ≤ τ := by
    have e : 2 * (τ * m / (2 * (|V| + 1)) * V) / m = τ * (V / (|V| + 1)) := by
      have := hm.ne'
      field_simp
    rw [e]
    exact mul_le_of_le_one_right hτ.le ((div_le_one (by positivity)).mpr (by linarith [le_abs_self V]))
  refine le_trans (measureReal_mono fun ω hω => ?_) h5
  rintro ⟨out, b1, b2⟩
  exact hω ⟨out, b1, b2.trans_le (by linarith)⟩

open Spec (EquallySpaced) in
lemma isGrid_spaced {rows : List (List ℝ)} {ext : Fin d → ℝ × ℝ} (hlen : rows.length = d)
    (hsp : ∀ i : Fin d, ∃ n : ℕ, 3 ≤ n ∧ n ≤ 200 ∧ EquallySpaced (rows.getD i []) n (ext i).1 (ext i).2)
    (hlt : ∀ i, (ext i).1 < (ext i).2) : Spec.IsGrid d rows := by
  refine ⟨hlen, fun row hrow => ?_⟩
  obtain ⟨i, hi, rfl⟩ := List.getElem_of_mem hrow
  obtain ⟨n, hn, _, hes⟩ := hsp ⟨i, hlen ▸ hi⟩
  rw [← List.getD_eq_getElem _ [] hi]
  exact ⟨by have := hes.1; simp only at this; omega, (equallySpaced_increasing hes (by omega) (hlt _)).1⟩

/-- **C176**, default evaluation points of the finite kernels: the pdf evaluated on them integrates to one, within `η V`. -/
theorem C176_finite {E : Ext} {a : KDEArgs d} {k : KDE d} (h : KDE.init E a = .ok k) (hd : 0 < d)
    {srt : List ℝ → List ℕ} (hs : ∀ l, IsArgsort (srt l) l) (he : a.extrema = none) (hr : a.reflect = .none)
    (hD : k.kernel.dist.finite = true) (hM : (Spec.kernelMatrix k.covariance k.bandwidth).PosDef) (hpn : a.points = .none)
    (hsq : a.squeeze = true → d = 1) {F : (Fin d → ℝ) → ℝ} (hF : Spec.Reports E srt k F) :
    ∃ pts p arr T, (k.points srt).1 = .ok pts ∧
      (k.pdf E srt (some (.rows pts.toRows)) .none .none true).1 = .ok (p, arr) ∧
      trapzNd (arr.toND pts.toRows : NDArr d ℝ) pts.toRows = .ok T ∧
      ∀ η, Spec.VariesBy pts.toRows F η → |T - 1| ≤ η * ∏ i : Fin d, ((k.extrema i).2 - (k.extrema i).1) := by
  obtain ⟨pts, hp, hlen, hsp⟩ := default_points_spaced h hd hs hpn hsq (extrema_lt h he hr hD hM)
  have hg := isGrid_spaced hlen hsp (extrema_lt h he hr hD hM)
  obtain ⟨hlow, htop, hone⟩ := finite_box h hd srt he hr hD hM hpn hsq hF hp
  obtain ⟨p, arr, h1, h2⟩ := C176_values hF hd hg.1
  obtain ⟨M, hT, _, _, _⟩ := grid_masses hg (dens := arr.toND pts.toRows) rfl h2
  refine ⟨pts, p, arr, M.sum, hp, h1, C38_mass_sum hT, fun η hη => ?_⟩
  obtain ⟨T, h3, h4⟩ := C176_trapz hg rfl h2 hη (pdf_facts h srt hd hr hM hF).1.integrableOn
  rw [hone, hlow, htop, ← Except.ok.inj ((C38_mass_sum hT).symm.trans h3)] at h4
  exact h4

/-- The error bound cannot be replaced by a fixed tolerance: with default arguments for the evaluation points, the pdf on the
grid of evaluation points can be zero everywhere, so that its integral is 0 instead of 1 (data 0 and 1000, box kernels of
radius 1). -/
theorem C176_zero (E : Ext) (srt : List ℝ → List ℕ) (hs : ∀ l, IsArgsort (srt l) l) :
    ∃ (a : KDEArgs 1) (k : KDE 1) (pts p : Pts) (arr : Arr), KDE.init E a = .ok k ∧ a.points = .none ∧ a.extrema = none ∧
      a.reflect = .none ∧ (Spec.kernelMatrix k.covariance k.bandwidth).PosDef ∧ (k.points srt).1 = .ok pts ∧
      (k.pdf E srt (some (.rows pts.toRows)) .none .none true).1 = .ok (p, arr) ∧
      trapzNd (arr.toND pts.toRows : NDArr 1 ℝ) pts.toRows = .ok 0 := by
  obtain ⟨a, k, pts, F, hk, hp, he, hr, hM, hlt, hpts, hF, hzero, _⟩ := C175_zero E srt hs
  obtain ⟨pts', hp', hlen, hsp⟩ := default_points_spaced hk one_pos hs hp (fun _ => rfl) hlt
  obtain rfl : pts = pts' := by rw [hpts] at hp'; exact Except.ok.inj hp'
  have hg := isGrid_spaced hlen hsp hlt
  obtain ⟨p, arr, h1, h2⟩ := C176_values hF one_pos hg.1
  obtain ⟨M, hT, _, _, hsum⟩ := grid_masses hg (dens := arr.toND pts.toRows) rfl h2
  refine ⟨a, k, pts, p, arr, hk, hp, he, hr, hM, hpts, h1, ?_⟩
  rw [C38_mass_sum hT, hsum, massBelow_congr (f' := fun _ => 0) (lastIdx_lt hg) fun j hj => hzero j hj]
  simp [Spec.massBelow, Spec.cellMass]

/-! ## Concrete cases -/

/-- Concrete case of the hypotheses of `C176_trapz`, `C176_samples`, `C176_frequencies` and `C176_bins`: the
function `|x|` on the grid 0, 1, 3. -/
example : ∃ (rows : List (List ℝ)) (F : (Fin 1 → ℝ) → ℝ) (dens : NDArr 1 ℝ) (η : ℝ) (idx : Fin 1 → ℕ),
    Spec.IsGrid 1 rows ∧ (∀ x, 0 ≤ F x) ∧ (dens.shape = fun i : Fin 1 => (rows.getD i []).length) ∧
      Spec.ValuesOn rows F dens ∧ Spec.VariesBy rows F η ∧
      IntegrableOn F (Spec.box (Spec.lowNode rows) (Spec.topNode rows)) ∧
      0 < ∫ y in Spec.box (Spec.lowNode rows) (Spec.topNode rows), F y ∧
      (∀ i : Fin 1, idx i < (rows.getD i []).length) ∧ 0 < F (Spec.node rows idx) := by
  have hc : Continuous fun x : Fin 1 → ℝ => |x 0| := (continuous_apply 0).abs
  have hlow : Spec.lowNode (d := 1) [[(0:ℝ), 1, 3]] = fun _ => 0 := by
    funext i; fin_cases i; simp [Spec.lowNode, Spec.node]
  have htop : Spec.topNode (d := 1) [[(0:ℝ), 1, 3]] = fun _ => 3 := by
    funext i; fin_cases i; simp [Spec.topNode, Spec.node, Spec.lastIdx]
  have hi : IntegrableOn (fun x : Fin 1 → ℝ => |x 0|) (Spec.box (fun _ => 0) fun _ => 3) :=
    (hc.continuousOn.integrableOn_compact (isCompact_Icc (a := fun _ => (0:ℝ)) (b := fun _ => 3))).mono_set
      fun y hy => ⟨fun i => (hy i).1.le, fun i => (hy i).2⟩
  refine ⟨[[0, 1, 3]], fun x => |x 0|, ⟨fun _ => 3, fun idx => |Spec.node [[0, 1, 3]] idx 0|⟩, 2, fun _ => 1,
    ⟨rfl, by simp⟩, fun x => abs_nonneg _, by funext i; fin_cases i; rfl, fun idx _ => rfl, ?_, ?_, ?_, by simp,
    by simp [Spec.node]⟩
  · intro j hj y z hy hz
    have hy0 := hy 0
    have hz0 := hz 0
    have hj0 : j 0 = 0 ∨ j 0 = 1 := by
      have := hj 0
      simp at this
      omega
    refine (abs_abs_sub_abs_le _ _).trans (abs_le.mpr ?_)
    rcases hj0 with h | h <;> simp [Spec.node, h] at hy0 hz0 <;> constructor <;> linarith
  · rw [hlow, htop]
    exact hi
  · rw [hlow, htop, setIntegral_pos_iff_support_of_nonneg_ae (Filter.Eventually.of_forall fun x => abs_nonneg _) hi,
      Set.inter_eq_self_of_subset_right]
    · have := volume_box (u := fun _ : Fin 1 => (0:ℝ)) (v := fun _ => 3) fun _ => by norm_num
      rw [pos_iff_ne_zero]
      intro h0
      rw [measureReal_def, h0] at this
      norm_num at this
    · intro y hy
      have := (hy 0).1
      simp only [Function.mem_support, ne_eq, abs_eq_zero]
      exact this.ne'

/-- Concrete case of the hypotheses of `C176_integral` and `C176_limit`: data 0 and 1, gaussian kernel. -/
example (srt : List ℝ → List ℕ) : ∃ (E : Ext) (a : KDEArgs 1) (k : KDE 1) (F : (Fin 1 → ℝ) → ℝ) (u v : Fin 1 → ℝ),
    KDE.init E a = .ok k ∧ a.reflect = .none ∧ (Spec.kernelMatrix k.covariance k.bandwidth).PosDef ∧
      k.kernel.dist ≠ .box ∧ Spec.Reports E srt k F ∧ 0 < ∫ y in Spec.box u v, F y := by
  obtain ⟨k, hk, hF, hM, hD⟩ := iid_reports ⟨fun A => A, id⟩ srt one_pos .gaussian (n := 2) (by norm_num)
    (fun i _ => (i : ℝ)) (some (1 : Matrix (Fin 1) (Fin 1) ℝ)) (by rintro c ⟨⟩; exact Matrix.PosDef.one) (.val (.num 1)) 1
    one_pos rfl Matrix.PosDef.one
  obtain ⟨hI, hFn⟩ := pdf_facts hk srt one_pos rfl hM hF
  obtain ⟨F', hF', _, hone⟩ := C07_normalised hk srt one_pos rfl hM
  rw [reports_unique (fun pts => hF' [] pts) hF] at hone
  obtain ⟨R, hR⟩ := box_mass hI hFn hone (ε := 1) one_pos
  have := hR (fun _ => -R) (fun _ => R) (fun _ => le_rfl) fun _ => le_rfl
  exact ⟨_, _, k, _, _, _, hk, rfl, hM, by rw [hD]; simp, hF, by linarith⟩

end Kalepy
