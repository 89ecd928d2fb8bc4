import Mathlib.Probability.Independence.InfinitePi
import Verif.Proofs.SortLaw
import Verif.Props.Frequencies
import Verif.Props.Sample
import Verif.Spec.Random

/-!
# C113: the law of samples drawn from a grid

The samples of `Sample_Grid.sample` are a reordering of independent draws; the order in which they are returned is by
increasing mass of the bins.
-/

namespace Kalepy

open MeasureTheory ProbabilityTheory

variable {d : ℕ}

/-- What numpy promises about `np.random.uniform(0.0, 1.0, size=(1 + D, N))`: independent uniform numbers. -/
structure Spec.GridNumbers {Ω : Type*} [MeasurableSpace Ω] (μ : Measure Ω) (r : Ω → Rand d) : Prop where
  law : ∀ n, HasLaw (fun ω => ((r ω).u n, (r ω).loc n)) (Spec.unitLaw.prod (Measure.pi fun _ => Spec.unitLaw)) μ
  indep : iIndepFun (fun n ω => ((r ω).u n, (r ω).loc n)) μ

/-- Such numbers exist. -/
theorem exists_gridNumbers (d : ℕ) :
    Spec.GridNumbers (Measure.infinitePi fun _ : ℕ => Spec.unitLaw.prod (Measure.pi fun _ : Fin d => Spec.unitLaw))
      (fun (ω : ℕ → ℝ × (Fin d → ℝ)) => (⟨fun n => (ω n).1, fun n => (ω n).2⟩ : Rand d)) :=
  ⟨fun n => (measurePreserving_eval_infinitePi
      (fun _ : ℕ => Spec.unitLaw.prod (Measure.pi fun _ : Fin d => Spec.unitLaw)) n).hasLaw,
    iIndepFun_infinitePi (X := fun _ t => t) fun _ => measurable_id⟩

/-- Specification: the uniform distribution between `a` and `b`. -/
noncomputable def Spec.uniformLaw (a b : ℝ) : Measure ℝ := (ENNReal.ofReal (b - a))⁻¹ • volume.restrict (Set.Ico a b)

/-! ## Samples as functions of the random numbers -/

lemma measurable_searchLeft (l : List ℝ) : Measurable (searchLeft l) := by
  unfold searchLeft
  induction l with
  | nil => simp
  | cons x l ih =>
    simp only [List.countP_cons]
    refine ih.add ?_
    simp only [decide_eq_true_eq]
    exact Measurable.ite measurableSet_Ioi measurable_const measurable_const

lemma measurable_chosenBin (shape : Fin d → ℕ) (idx : List ℕ) (csum : List ℝ) :
    Measurable (chosenBin shape idx csum) := by
  have : chosenBin shape idx csum = (fun s : ℕ => match pyIndex idx ((s : ℤ) - 1) with
      | .ok b => unravelIdx shape b
      | .error _ => 0) ∘ searchLeft csum := by
    funext u
    rfl
  rw [this]
  exact measurable_from_top.comp (measurable_searchLeft csum)

/-- The point of a bin given by the relative positions. -/
noncomputable def binPoint (edges : List (List ℝ)) (dens : Option (NDArr d ℝ)) (b : Fin d → ℕ) (loc : Fin d → ℝ) :
    Fin d → ℝ := fun i => edgeAt edges i (b i) + (edgeAt edges i (b i + 1) - edgeAt edges i (b i)) * relPos dens b i (loc i)

lemma measurable_relPos (dens : Option (NDArr d ℝ)) (b : Fin d → ℕ) (i : Fin d) : Measurable (relPos dens b i) := by
  unfold relPos
  cases dens with
  | none => exact measurable_id
  | some dn =>
    simp only [intrabin]
    by_cases h : 1 / 10 ^ 16 < |meanDiff dn i b|
    · simp only [if_pos h]
      fun_prop
    · simp only [if_neg h]
      exact measurable_id

lemma measurable_binPoint (edges : List (List ℝ)) (dens : Option (NDArr d ℝ)) (b : Fin d → ℕ) :
    Measurable (binPoint edges dens b) := by
  refine measurable_pi_iff.mpr fun i => ?_
  exact (((measurable_relPos dens b i).comp (measurable_pi_apply i)).const_mul _).const_add _

/-- Bin and point of one sample. -/
noncomputable def gridPoint (g : SampleGrid d) (edges : List (List ℝ)) (interp : Bool) (p : ℝ × (Fin d → ℝ)) :
    (Fin d → ℕ) × (Fin d → ℝ) :=
  (chosenBin g.mass.shape g.idx g.csum p.1,
    binPoint edges (normDens g interp) (chosenBin g.mass.shape g.idx g.csum p.1) p.2)

lemma measurable_gridPoint (g : SampleGrid d) (edges : List (List ℝ)) (interp : Bool) :
    Measurable (gridPoint g edges interp) := by
  have h1 : Measurable fun p : (Fin d → ℕ) × (Fin d → ℝ) => (p.1, binPoint edges (normDens g interp) p.1 p.2) :=
    measurable_from_prod_countable_right fun b => (measurable_const.prodMk (measurable_binPoint _ _ b))
  exact h1.comp (((measurable_chosenBin _ _ _).comp measurable_fst).prodMk measurable_snd)

/-- The law of bin and point of one sample. -/
noncomputable def gridLaw (g : SampleGrid d) (edges : List (List ℝ)) (interp : Bool) :
    Measure ((Fin d → ℕ) × (Fin d → ℝ)) :=
  (Spec.unitLaw.prod (Measure.pi fun _ => Spec.unitLaw)).map (gridPoint g edges interp)

lemma ae_unit_pos : ∀ᵐ u ∂Spec.unitLaw, 0 < u ∧ u < 1 := by
  have h1 : ∀ᵐ u ∂Spec.unitLaw, 0 ≤ u ∧ u < 1 := ae_restrict_mem measurableSet_Ico
  have h2 : ∀ᵐ u ∂Spec.unitLaw, u ≠ 0 := ae_restrict_of_ae (by simp [ae_iff])
  filter_upwards [h1, h2] with u a b
  exact ⟨lt_of_le_of_ne a.1 (Ne.symm b), a.2⟩

lemma ae_gridNumbers : ∀ᵐ p ∂(Spec.unitLaw.prod (Measure.pi fun _ : Fin d => Spec.unitLaw)),
    (0 < p.1 ∧ p.1 < 1) ∧ ∀ i, 0 < p.2 i ∧ p.2 i < 1 := by
  have h1 : ∀ᵐ p ∂(Spec.unitLaw.prod (Measure.pi fun _ : Fin d => Spec.unitLaw)), 0 < p.1 ∧ p.1 < 1 :=
    Measure.quasiMeasurePreserving_fst.ae ae_unit_pos
  have h2 : ∀ i, ∀ᵐ p ∂(Spec.unitLaw.prod (Measure.pi fun _ : Fin d => Spec.unitLaw)), 0 < p.2 i ∧ p.2 i < 1 := by
    intro i
    have h3 : ∀ᵐ l ∂(Measure.pi fun _ : Fin d => Spec.unitLaw), 0 < l i ∧ l i < 1 :=
      (Measure.quasiMeasurePreserving_eval (fun _ : Fin d => Spec.unitLaw) i).ae ae_unit_pos
    exact Measure.quasiMeasurePreserving_snd.ae h3
  filter_upwards [h1, ae_all_iff.mpr h2] with p a b
  exact ⟨a, b⟩

lemma gridNumbers_inRange {Ω : Type*} [MeasurableSpace Ω] {μ : Measure Ω} {r : Ω → Rand d} (hr : Spec.GridNumbers μ r) :
    ∀ᵐ ω ∂μ, (∀ n, 0 < (r ω).u n ∧ (r ω).u n < 1) ∧ ∀ n i, 0 < (r ω).loc n i ∧ (r ω).loc n i < 1 := by
  have : ∀ n, ∀ᵐ ω ∂μ, (0 < (r ω).u n ∧ (r ω).u n < 1) ∧ ∀ i, 0 < (r ω).loc n i ∧ (r ω).loc n i < 1 := by
    intro n
    have h3 := ae_gridNumbers (d := d)
    rw [← (hr.law n).map_eq] at h3
    exact ae_of_ae_map (hr.law n).aemeasurable h3
  filter_upwards [ae_all_iff.mpr this] with ω h
  exact ⟨fun n => (h n).1, fun n => (h n).2⟩

section

variable {srt : List ℝ → List ℕ} {edges : List (List ℝ)} {dens : NDArr d ℝ} {mass : Option (NDArr d ℝ)} {g : SampleGrid d}

/-- The samples as a function of the random numbers. -/
lemma sample_ofFn (hs : ∀ l, IsArgsort (srt l) l) (hinit : SampleGrid.init srt edges dens mass = .ok g)
    (hm : ∀ b, ValidIdx g.mass.shape b → 0 ≤ g.mass.get b) (ht : 0 < g.mass.sum) (r : Rand d) (hr : r.InRange) (n : ℕ)
    (interp : Bool) (hi : interp = true → dens.sum ≠ 0) :
    ∃ out, g.sample r (some n) interp = .ok out ∧ out.map Prod.fst = List.ofFn fun k : Fin n =>
      (gridPoint g edges interp (r.u (Tuple.sort (fun j : Fin n => r.u j) k), r.loc k)).2 := by
  obtain ⟨out, ho, hl, hk⟩ := sample_main hs hinit hm ht r hr (some (n : ℝ))
    (by intro x hx; injection hx with hx; rw [← hx]; positivity) interp hi
  simp only [Option.getD_some, Nat.floor_natCast] at hl hk
  refine ⟨out, ho, List.ext_getElem (by simp [hl]) fun k h1 h2 => ?_⟩
  rw [List.length_map] at h1
  obtain ⟨u, hu, -, -, hx⟩ := hk k h1
  have hk' : k < n := by omega
  have e1 : (List.range n).map r.u = List.ofFn fun j : Fin n => r.u j := by
    rw [List.ofFn_eq_map, ← List.map_coe_finRange_eq_range, List.map_map]
    rfl
  rw [e1, npSort_ofFn, List.getElem?_ofFn, dif_pos hk', Option.some.injEq] at hu
  rw [List.getElem_map, List.getElem_ofFn]
  funext i
  rw [hx i, ← hu]
  rfl

lemma unit_chosen (hs : ∀ l, IsArgsort (srt l) l) (hinit : SampleGrid.init srt edges dens mass = .ok g)
    (hm : ∀ b, ValidIdx g.mass.shape b → 0 ≤ g.mass.get b) (ht : 0 < g.mass.sum) (b : Fin d → ℕ)
    (hb : ∀ i, b i + 1 < dens.shape i) :
    Spec.unitLaw {u | chosenBin g.mass.shape g.idx g.csum u = b} = ENNReal.ofReal (g.mass.get b / g.mass.sum) := by
  obtain ⟨e1, e2, e3, e4, e5⟩ := SampleGrid.init_ok hinit
  obtain ⟨f1, f2, -⟩ := initMasses_ok e4
  have hcum := SampleGrid.init_cum hs hinit ht
  have hbv : ValidIdx g.mass.shape b := fun i => by have := hb i; rw [f2] at this; omega
  have hlt := ravelIdx_lt hbv
  have hset : {u : ℝ | chosenBin g.mass.shape g.idx g.csum u = b} ∩ Set.Ico 0 1
      = {u : ℝ | 0 ≤ u ∧ u < 1 ∧ pickBin g.idx g.csum u = .ok (ravelIdx g.mass.shape b)} := by
    ext u
    simp only [Set.mem_ofPred_eq, Set.mem_inter_iff, Set.mem_Ico]
    rw [and_comm, and_assoc]
    refine and_congr_right fun h0 => and_congr_right fun h1 => ?_
    obtain ⟨k, hk, hkl, hc, -, -⟩ := pick_spec hcum hm ht h0 h1
    rw [hc, hk]
    constructor
    · rintro rfl; rw [ravel_unravelIdx hkl]
    · intro h; injection h with h; rw [h, unravel_ravelIdx hbv]
  rw [Spec.unitLaw, Measure.restrict_apply' measurableSet_Ico, hset,
    volume_pick hcum (flat_nonneg hm) (by rwa [NDArr.flat_sum]) _
    (by rw [NDArr.flat_length]; exact hlt), NDArr.flat_sum,
    flat_getD _ (by rw [NDArr.flat_length]; exact hlt), unravel_ravelIdx hbv]

lemma edge_lt {shape : Fin d → ℕ} {edges : List (List ℝ)} (h3 : EdgesMatch shape edges)
    (hedges : ∀ e ∈ edges, e.Pairwise (· < ·)) (i : Fin d) (k : ℕ) (hk : k + 1 < shape i) :
    edgeAt edges i k < edgeAt edges i (k + 1) := by
  have hlen := h3.2 i
  have hi : (i : ℕ) < edges.length := by rw [h3.1]; exact i.2
  have hp := hedges _ (List.getElem_mem hi)
  rw [List.getD_eq_getElem _ _ hi] at hlen
  simp only [edgeAt, List.getD_eq_getElem _ _ hi]
  rw [List.getD_eq_getElem _ _ (by omega), List.getD_eq_getElem _ _ (by omega)]
  exact List.pairwise_iff_getElem.mp hp _ _ _ _ (by omega)

lemma relPos_mem_open (dens : Option (NDArr d ℝ)) (b : Fin d → ℕ) (i : Fin d) {loc : ℝ} (h0 : 0 < loc) (h1 : loc < 1) :
    0 < relPos dens b i loc ∧ relPos dens b i loc < 1 := by
  obtain ⟨m0, m1⟩ := relPos_mem dens b i h0.le h1.le
  unfold relPos at m0 m1 ⊢
  split at m0
  · exact ⟨h0, h1⟩
  · rename_i dn
    simp only at m1 ⊢
    by_cases hg : 1 / 10 ^ 16 < |meanDiff dn i b|
    · have hc := intrabin_cdf h0.le h1.le hg
      refine ⟨lt_of_le_of_ne m0 fun h => ?_, lt_of_le_of_ne m1 fun h => ?_⟩
      · rw [← h] at hc; simp at hc; linarith
      · rw [h] at hc; linarith
    · simp only [intrabin, if_neg hg]
      exact ⟨h0, h1⟩

lemma open_of_pos {a b t : ℝ} (h : a < b) (h0 : 0 < t) (h1 : t < 1) : a < a + (b - a) * t ∧ a + (b - a) * t < b := by
  constructor <;> nlinarith

/-- The bins of a grid. -/
def Spec.bins (shape : Fin d → ℕ) : Finset (Fin d → ℕ) := Fintype.piFinset fun i => Finset.range (shape i - 1)

lemma mem_bins {shape : Fin d → ℕ} {b : Fin d → ℕ} : b ∈ Spec.bins shape ↔ ∀ i, b i + 1 < shape i := by
  simp only [Spec.bins, Fintype.mem_piFinset, Finset.mem_range]
  exact forall_congr' fun i => by omega

/-- The law of one point: a mixture over the bins. -/
lemma gridLaw_point (hs : ∀ l, IsArgsort (srt l) l) (hinit : SampleGrid.init srt edges dens mass = .ok g)
    (hm : ∀ b, ValidIdx g.mass.shape b → 0 ≤ g.mass.get b) (ht : 0 < g.mass.sum) (interp : Bool)
    {A : Set (Fin d → ℝ)} (hA : MeasurableSet A) :
    (gridLaw g edges interp).map Prod.snd A = ∑ b ∈ Spec.bins dens.shape, ENNReal.ofReal (g.mass.get b / g.mass.sum)
      * (Measure.pi fun _ => Spec.unitLaw).map (binPoint edges (normDens g interp) b) A := by
  obtain ⟨e1, e2, e3, e4, e5⟩ := SampleGrid.init_ok hinit
  obtain ⟨f1, f2, -⟩ := initMasses_ok e4
  have hcum := SampleGrid.init_cum hs hinit ht
  have hgp := measurable_gridPoint g edges interp
  rw [gridLaw, Measure.map_map measurable_snd hgp, Measure.map_apply (measurable_snd.comp hgp) hA]
  have hae : (Prod.snd ∘ gridPoint g edges interp ⁻¹' A : Set (ℝ × (Fin d → ℝ))) =ᵐ[Spec.unitLaw.prod (Measure.pi fun _ => Spec.unitLaw)]
      ⋃ b ∈ Spec.bins dens.shape, {u | chosenBin g.mass.shape g.idx g.csum u = b}
        ×ˢ (binPoint edges (normDens g interp) b ⁻¹' A) := by
    filter_upwards [ae_gridNumbers (d := d)] with p hp
    obtain ⟨-, -, -, -, hv, -⟩ := pick_spec hcum hm ht hp.1.1.le hp.1.2
    refine propext ⟨fun h => ?_, fun h => ?_⟩
    · exact Set.mem_biUnion (mem_bins.mpr fun i => by rw [f2]; have := hv i; omega) ⟨rfl, h⟩
    · obtain ⟨b, -, hb, hA'⟩ := Set.mem_iUnion₂.mp h
      change binPoint edges (normDens g interp) (chosenBin g.mass.shape g.idx g.csum p.1) p.2 ∈ A
      rw [show chosenBin g.mass.shape g.idx g.csum p.1 = b from hb]
      exact hA'
  rw [measure_congr hae, measure_biUnion_finset]
  · refine Finset.sum_congr rfl fun b hb => ?_
    rw [Measure.prod_prod, unit_chosen hs hinit hm ht b (mem_bins.mp hb), Measure.map_apply (measurable_binPoint _ _ _) hA]
  · intro b _ c _ hbc
    refine Set.disjoint_left.mpr fun p h1 h2 => hbc ?_
    exact h1.1.symm.trans h2.1
  · intro b _
    exact ((measurable_chosenBin _ _ _) (measurableSet_singleton b)).prod ((measurable_binPoint _ _ _) hA)

lemma uniform_affine {a b : ℝ} (h : a < b) :
    MeasurePreserving (fun x => a + (b - a) * x) Spec.unitLaw (Spec.uniformLaw a b) := by
  have hf : Measurable fun x => a + (b - a) * x := by fun_prop
  refine ⟨hf, Measure.ext fun s hsm => ?_⟩
  have hpos : 0 < b - a := sub_pos.mpr h
  rw [Measure.map_apply hf hsm, Spec.unitLaw, Measure.restrict_apply' measurableSet_Ico, Spec.uniformLaw,
    Measure.smul_apply, Measure.restrict_apply' measurableSet_Ico]
  have e : (fun x => a + (b - a) * x) ⁻¹' s ∩ Set.Ico 0 1
      = (fun x => (b - a) * x) ⁻¹' ((fun x => a + x) ⁻¹' (s ∩ Set.Ico a b)) := by
    ext x
    simp only [Set.mem_inter_iff, Set.mem_preimage, Set.mem_Ico]
    refine and_congr_right fun _ => and_congr ?_ ?_
    · rw [le_add_iff_nonneg_right, mul_nonneg_iff_of_pos_left hpos]
    · rw [← lt_sub_iff_add_lt', mul_lt_iff_lt_one_right hpos]
  rw [e, Real.volume_preimage_mul_left hpos.ne', measure_preimage_add, abs_of_pos (inv_pos.mpr hpos),
    ENNReal.ofReal_inv_of_pos hpos, smul_eq_mul]

/-- **C113**, as far as it holds: there is a distribution of bins and points, in which every bin has the probability
mass / total mass and the point lies strictly inside the bin, and without interpolation is uniform in the bin, such that the samples
are a reordering of independent draws from it.  The full claim is that the samples themselves, in the order in which they
are returned, are independent draws; it is false (`C113_refuted`). -/
theorem C113_partial (hs : ∀ l, IsArgsort (srt l) l) (hinit : SampleGrid.init srt edges dens mass = .ok g)
    (hedges : ∀ e ∈ edges, e.Pairwise (· < ·))
    (hm : ∀ b, ValidIdx g.mass.shape b → 0 ≤ g.mass.get b) (ht : 0 < g.mass.sum)
    (interp : Bool) (hi : interp = true → dens.sum ≠ 0) :
    ∃ P : Measure ((Fin d → ℕ) × (Fin d → ℝ)), IsProbabilityMeasure P ∧
      (∀ b, (∀ i, b i + 1 < dens.shape i) → P {p | p.1 = b} = ENNReal.ofReal (g.mass.get b / g.mass.sum)) ∧
      (∀ᵐ p ∂P, (∀ i, p.1 i + 1 < dens.shape i) ∧ 0 < g.mass.get p.1 ∧ Spec.InBinInterior edges p.1 p.2) ∧
      (interp = false → ∀ A, MeasurableSet A → P {p | p.2 ∈ A}
        = ∑ b ∈ Spec.bins dens.shape, ENNReal.ofReal (g.mass.get b / g.mass.sum)
          * (Measure.pi fun i : Fin d => Spec.uniformLaw ((edges.getD i []).getD (b i) 0)
            ((edges.getD i []).getD (b i + 1) 0)) A) ∧
      ∀ {Ω : Type} [MeasurableSpace Ω] (μ : Measure Ω) (r : Ω → Rand d), Spec.GridNumbers μ r → ∀ n : ℕ,
        ∃ X : Fin n → Ω → (Fin d → ℕ) × (Fin d → ℝ), (∀ j, HasLaw (X j) P μ) ∧ iIndepFun X μ ∧
          ∀ᵐ ω ∂μ, ∃ out, g.sample (r ω) (some n) interp = .ok out ∧
            (out.map Prod.fst).Perm (List.ofFn fun j => (X j ω).2) := by
  obtain ⟨e1, e2, e3, e4, e5⟩ := SampleGrid.init_ok hinit
  obtain ⟨f1, f2, -⟩ := initMasses_ok e4
  have hcum := SampleGrid.init_cum hs hinit ht
  have hgp := measurable_gridPoint g edges interp
  refine ⟨gridLaw g edges interp, Measure.isProbabilityMeasure_map hgp.aemeasurable, fun b hb => ?_, ?_, ?_, ?_⟩
  · have hset : MeasurableSet {p : (Fin d → ℕ) × (Fin d → ℝ) | p.1 = b} := measurable_fst (measurableSet_singleton b)
    rw [gridLaw, Measure.map_apply hgp hset, ← unit_chosen hs hinit hm ht b hb]
    have : gridPoint g edges interp ⁻¹' {p | p.1 = b} = {u | chosenBin g.mass.shape g.idx g.csum u = b} ×ˢ Set.univ := by
      ext p
      simp [gridPoint]
    rw [this, Measure.prod_prod, measure_univ, mul_one]
  · rw [gridLaw]
    have hset : MeasurableSet {p : (Fin d → ℕ) × (Fin d → ℝ) |
        (∀ i, p.1 i + 1 < dens.shape i) ∧ 0 < g.mass.get p.1 ∧ Spec.InBinInterior edges p.1 p.2} := by
      have : {p : (Fin d → ℕ) × (Fin d → ℝ) |
          (∀ i, p.1 i + 1 < dens.shape i) ∧ 0 < g.mass.get p.1 ∧ Spec.InBinInterior edges p.1 p.2}
          = ⋃ b : Fin d → ℕ, {p | p.1 = b} ∩ {p | ((∀ i, b i + 1 < dens.shape i) ∧ 0 < g.mass.get b) ∧ Spec.InBinInterior edges b p.2} := by
        ext p
        simp only [Set.mem_iUnion, Set.mem_inter_iff, Set.mem_ofPred_eq]
        constructor
        · rintro ⟨h1, h2, h3⟩; exact ⟨_, rfl, ⟨h1, h2⟩, h3⟩
        · rintro ⟨b, rfl, ⟨h1, h2⟩, h3⟩; exact ⟨h1, h2, h3⟩
      rw [this]
      refine .iUnion fun b => .inter (measurable_fst (measurableSet_singleton b)) ?_
      refine MeasurableSet.inter (MeasurableSet.const _) ?_
      have : {p : (Fin d → ℕ) × (Fin d → ℝ) | Spec.InBinInterior edges b p.2} = ⋂ i : Fin d, {p | p.2 i ∈
          Set.Ioo ((edges.getD i []).getD (b i) 0) ((edges.getD i []).getD (b i + 1) 0)} := by
        ext p
        simp [Spec.InBinInterior]
      change MeasurableSet {p : (Fin d → ℕ) × (Fin d → ℝ) | Spec.InBinInterior edges b p.2}
      rw [this]
      exact MeasurableSet.iInter fun i => ((measurable_pi_apply i).comp measurable_snd) measurableSet_Ioo
    rw [ae_map_iff hgp.aemeasurable hset]
    filter_upwards [ae_gridNumbers (d := d)] with p hp
    obtain ⟨-, -, -, -, hv, hpos⟩ := pick_spec hcum hm ht hp.1.1.le hp.1.2
    have hb : ∀ i, chosenBin g.mass.shape g.idx g.csum p.1 i + 1 < dens.shape i := fun i => by
      rw [f2]; have := hv i; omega
    refine ⟨hb, hpos, fun i => ?_⟩
    have hlt := edge_lt f1 hedges i _ (hb i)
    have hr := relPos_mem_open (normDens g interp) (chosenBin g.mass.shape g.idx g.csum p.1) i (hp.2 i).1 (hp.2 i).2
    exact open_of_pos hlt hr.1 hr.2
  · rintro rfl A hA
    have h1 := gridLaw_point hs hinit hm ht false hA
    rw [Measure.map_apply measurable_snd hA] at h1
    refine h1.trans (Finset.sum_congr rfl fun b hb => ?_)
    congr 2
    have hlt := fun i => edge_lt f1 hedges i (b i) (mem_bins.mp hb i)
    have hpr : ∀ i : Fin d, IsProbabilityMeasure (Spec.uniformLaw (edgeAt edges i (b i)) (edgeAt edges i (b i + 1))) :=
      fun i => (uniform_affine (hlt i)).hasLaw.isProbabilityMeasure_iff.mp inferInstance
    have h2 := measurePreserving_pi (fun _ : Fin d => Spec.unitLaw) (fun i : Fin d => Spec.uniformLaw
      (edgeAt edges i (b i)) (edgeAt edges i (b i + 1))) (f := fun i x => edgeAt edges i (b i)
        + (edgeAt edges i (b i + 1) - edgeAt edges i (b i)) * x) fun i => uniform_affine (hlt i)
    exact h2.map_eq
  · intro Ω _ μ r hr n
    have hprob : IsProbabilityMeasure μ := (hr.law 0).isProbabilityMeasure_iff.mpr inferInstance
    obtain ⟨Z, h1, h2, h3⟩ := sorted_iid (n := n) (u := fun j ω => (r ω).u j) (l := fun j ω => (r ω).loc j)
      (fun j => hr.law j) (hr.indep.precomp (g := fun j : Fin n => (j : ℕ)) fun i j h => Fin.ext h) hgp
    refine ⟨Z, h1, h2, ?_⟩
    filter_upwards [gridNumbers_inRange hr] with ω hω
    obtain ⟨out, ho, he⟩ := sample_ofFn hs hinit hm ht (r ω)
      ⟨fun k => ⟨(hω.1 k).1.le, (hω.1 k).2⟩, fun k i => ⟨(hω.2 k i).1.le, (hω.2 k i).2⟩⟩ n interp hi
    refine ⟨out, ho, ?_⟩
    rw [he]
    have := (h3 ω).map Prod.snd
    rwa [List.map_ofFn, List.map_ofFn] at this

/-! ## The order of the samples -/

lemma pyIndex_nat_ok {α : Type*} {l : List α} {n : ℕ} {x : α} (h : pyIndex l (n : ℤ) = .ok x) : l[n]? = some x := by
  rw [pyIndex, if_pos (by omega), Int.toNat_natCast] at h
  cases hl : l[n]? with
  | none => rw [hl] at h; cases h
  | some y => rw [hl] at h; rw [Except.ok.inj h]

lemma chosen_mono (hs : ∀ l, IsArgsort (srt l) l) (hinit : SampleGrid.init srt edges dens mass = .ok g)
    (hm : ∀ b, ValidIdx g.mass.shape b → 0 ≤ g.mass.get b) (ht : 0 < g.mass.sum) {u v : ℝ} (h0 : 0 < u) (huv : u ≤ v)
    (h1 : v < 1) :
    g.mass.get (chosenBin g.mass.shape g.idx g.csum u) ≤ g.mass.get (chosenBin g.mass.shape g.idx g.csum v) := by
  have hcum := SampleGrid.init_cum hs hinit ht
  have hpick : ∀ {w : ℝ}, 0 < w → w < 1 → 0 < searchLeft g.csum w ∧
      ∃ h : searchLeft g.csum w - 1 < (g.idx.map fun i => g.mass.flat.getD i 0).length,
        g.mass.get (chosenBin g.mass.shape g.idx g.csum w)
          = (g.idx.map fun i => g.mass.flat.getD i 0)[searchLeft g.csum w - 1] := by
    intro w hw0 hw1
    obtain ⟨k, hk, hkl, hc, hv, -⟩ := pick_spec hcum hm ht hw0.le hw1
    have hpos : 0 < searchLeft g.csum w := by
      have hl : 0 < g.csum.length := by rw [hcum.len]; omega
      have h00 := hcum.get 0 hl
      rw [List.take_zero, List.sum_nil, zero_div] at h00
      exact List.countP_pos_iff.mpr ⟨g.csum[0], List.getElem_mem hl, by simpa [h00] using hw0⟩
    refine ⟨hpos, ?_⟩
    unfold pickBin at hk
    rw [show ((searchLeft g.csum w : ℤ) - 1) = ((searchLeft g.csum w - 1 : ℕ) : ℤ) by omega] at hk
    have hg := pyIndex_nat_ok hk
    obtain ⟨hlt, he⟩ := List.getElem?_eq_some_iff.mp hg
    refine ⟨by simpa using hlt, ?_⟩
    rw [List.getElem_map, he, hc, flat_getD _ (by rwa [NDArr.flat_length])]
  obtain ⟨p1, l1, e1⟩ := hpick h0 (huv.trans_lt h1)
  obtain ⟨p2, l2, e2⟩ := hpick (h0.trans_le huv) h1
  rw [e1, e2]
  have hle : searchLeft g.csum u ≤ searchLeft g.csum v :=
    List.countP_mono_left fun x _ hx => by simp only [decide_eq_true_eq] at hx ⊢; exact hx.trans_le huv
  rcases hle.eq_or_lt with he | hlt
  · simp only [he, le_refl]
  · exact List.pairwise_iff_getElem.mp hcum.sorted _ _ _ _ (by omega)

/-- **C113**, the order: whatever the random numbers are (not exactly zero), the samples come by increasing mass of the bin
they were drawn from. -/
theorem C113_order (hs : ∀ l, IsArgsort (srt l) l) (hinit : SampleGrid.init srt edges dens mass = .ok g)
    (hedges : ∀ e ∈ edges, e.Pairwise (· ≤ ·))
    (hm : ∀ b, ValidIdx g.mass.shape b → 0 ≤ g.mass.get b) (ht : 0 < g.mass.sum)
    (r : Rand d) (hr : r.InRange) (hr0 : ∀ k, r.u k ≠ 0) (n : ℕ) (interp : Bool) (hi : interp = true → dens.sum ≠ 0) :
    ∃ (x : Fin n → Fin d → ℝ) (b : Fin n → Fin d → ℕ) (out : _), g.sample r (some n) interp = .ok out ∧
      out.map Prod.fst = List.ofFn x ∧
      (∀ k, (∀ i, b k i + 1 < dens.shape i) ∧ 0 < g.mass.get (b k) ∧ Spec.InBin edges (b k) (x k)) ∧
      ∀ j k, j ≤ k → g.mass.get (b j) ≤ g.mass.get (b k) := by
  obtain ⟨e1, e2, e3, e4, e5⟩ := SampleGrid.init_ok hinit
  obtain ⟨f1, f2, -⟩ := initMasses_ok e4
  have hcum := SampleGrid.init_cum hs hinit ht
  obtain ⟨out, ho, he⟩ := sample_ofFn hs hinit hm ht r hr n interp hi
  have hpos : ∀ k, 0 < r.u k := fun k => lt_of_le_of_ne (hr.1 k).1 (Ne.symm (hr0 k))
  refine ⟨_, fun k => (gridPoint g edges interp (r.u (Tuple.sort (fun j : Fin n => r.u j) k), r.loc k)).1, out, ho, he,
    fun k => ?_, fun j k hjk => ?_⟩
  · obtain ⟨-, -, -, -, hv, hp⟩ := pick_spec hcum hm ht (hr.1 (Tuple.sort (fun j : Fin n => r.u j) k)).1
      (hr.1 (Tuple.sort (fun j : Fin n => r.u j) k)).2
    have hb : ∀ i, chosenBin g.mass.shape g.idx g.csum (r.u (Tuple.sort (fun j : Fin n => r.u j) k)) i + 1
        < dens.shape i := fun i => by
      rw [f2]; have := hv i; omega
    exact ⟨hb, hp, inBin_of_pos f1 hedges hb (fun i => relPos_mem _ _ _ (hr.2 k i).1 (hr.2 k i).2.le) fun i => rfl⟩
  · exact chosen_mono hs hinit hm ht (hpos _) (Tuple.monotone_sort (fun j : Fin n => r.u j) hjk) (hr.1 _).2

end

/-- **C113**, for frequencies: without interpolation, for every region the fraction of the samples in it is within `ε` of
the fraction of the total mass in it (spread uniformly over each bin), except with a probability of at most
`2 exp(-2 n ε²)`. -/
theorem C113_frequencies {srt : List ℝ → List ℕ} {edges : List (List ℝ)} {dens : NDArr d ℝ} {mass : Option (NDArr d ℝ)}
    {g : SampleGrid d} (hs : ∀ l, IsArgsort (srt l) l) (hinit : SampleGrid.init srt edges dens mass = .ok g)
    (hedges : ∀ e ∈ edges, e.Pairwise (· < ·))
    (hm : ∀ b, ValidIdx g.mass.shape b → 0 ≤ g.mass.get b) (ht : 0 < g.mass.sum)
    {Ω : Type} [MeasurableSpace Ω] (μ : Measure Ω) (r : Ω → Rand d) (hr : Spec.GridNumbers μ r) (n : ℕ)
    (A : Set (Fin d → ℝ)) (hA : MeasurableSet A) (ε : ℝ) (hε : 0 < ε) :
    μ.real {ω | ¬ ∃ out, g.sample (r ω) (some n) false = .ok out ∧
      |Spec.fraction (out.map Prod.fst) A - (∑ b ∈ Spec.bins dens.shape, ENNReal.ofReal (g.mass.get b / g.mass.sum)
          * (Measure.pi fun i : Fin d => Spec.uniformLaw ((edges.getD i []).getD (b i) 0)
            ((edges.getD i []).getD (b i + 1) 0)) A).toReal| < ε} ≤ 2 * Real.exp (-2 * n * ε ^ 2) := by
  obtain ⟨P, hP, -, -, hunif, hX⟩ := C113_partial hs hinit hedges hm ht false (by simp)
  obtain ⟨X, h1, h2, h3⟩ := hX μ r hr n
  have hprob : IsProbabilityMeasure μ := (hr.law 0).isProbabilityMeasure_iff.mpr inferInstance
  have hsnd : MeasurePreserving (Prod.snd : (Fin d → ℕ) × (Fin d → ℝ) → _) P (P.map Prod.snd) := ⟨measurable_snd, rfl⟩
  have h4 := fraction_bound_list (X := fun j ω => (X j ω).2) (fun j => hsnd.hasLaw.comp (h1 j))
    (h2.comp (fun _ => Prod.snd) fun _ => measurable_snd) hA
    (good := fun ω l => ∃ out, g.sample (r ω) (some n) false = .ok out ∧ out.map Prod.fst = l)
    (h3.mono fun ω ⟨out, a, b⟩ => ⟨_, ⟨out, a, rfl⟩, b⟩) hε
  rw [← hunif rfl A hA, ← measureReal_def]
  rw [measureReal_def (P.map Prod.snd), Measure.map_apply measurable_snd hA, ← measureReal_def] at h4
  refine le_trans (measureReal_mono fun ω hω => ?_) h4
  rintro ⟨l, ⟨out, a, rfl⟩, b⟩
  exact hω ⟨out, a, b⟩

/-- The full claim of C113: the samples, as they are returned, are independent draws from one distribution. -/
def C113_Claim : Prop :=
  ∀ (d : ℕ) (srt : List ℝ → List ℕ) (edges : List (List ℝ)) (dens : NDArr d ℝ) (mass : Option (NDArr d ℝ))
    (g : SampleGrid d), (∀ l, IsArgsort (srt l) l) → SampleGrid.init srt edges dens mass = .ok g →
    (∀ e ∈ edges, e.Pairwise (· < ·)) → (∀ b, ValidIdx g.mass.shape b → 0 ≤ g.mass.get b) → 0 < g.mass.sum →
    ∀ (interp : Bool), (interp = true → dens.sum ≠ 0) →
    ∀ (Ω : Type) [MeasurableSpace Ω] (μ : Measure Ω) (r : Ω → Rand d), Spec.GridNumbers μ r → ∀ n : ℕ,
      ∃ (P : Measure (Fin d → ℝ)) (X : Fin n → Ω → Fin d → ℝ), (∀ j, HasLaw (X j) P μ) ∧ iIndepFun X μ ∧
        ∀ᵐ ω ∂μ, ∃ out, g.sample (r ω) (some n) interp = .ok out ∧ out.map Prod.fst = List.ofFn fun j => X j ω

/-- Densities of the example: one everywhere. -/
def exDensC : NDArr 1 ℝ := ⟨fun _ => 3, fun _ => 1⟩

/-- Masses of the example: one and two. -/
def exMassC : NDArr 1 ℝ := ⟨fun _ => 2, fun b => if b 0 = 0 then 1 else 2⟩

lemma exMassC_sum : exMassC.sum = 3 := by
  rw [sum_one]
  simp [exMassC, Finset.sum_range_succ]
  norm_num

lemma exGrid_init {srt : List ℝ → List ℕ} (hs : ∀ l, IsArgsort (srt l) l) :
    ∃ g, SampleGrid.init srt [[(0 : ℝ), 1, 2]] exDensC (some exMassC) = .ok g ∧ g.mass = exMassC := by
  have hpos : 0 < exMassC.flat.sum := by rw [NDArr.flat_sum, exMassC_sum]; norm_num
  obtain ⟨idx, csum, h1, -⟩ := dataToCumulative_ok hs hpos
  have h2 : initMasses [[(0 : ℝ), 1, 2]] exDensC (some exMassC) none none = .ok (exMassC, none) := by
    unfold initMasses
    rw [if_pos]
    · rfl
    · refine ⟨⟨rfl, fun i => by fin_cases i; rfl⟩, fun m hm i => ?_⟩
      cases hm
      rfl
  refine ⟨⟨[[(0 : ℝ), 1, 2]], exDensC, exMassC, none, none, idx, csum⟩, ?_, rfl⟩
  unfold SampleGrid.init
  rw [h2]
  simp only [bind, Except.bind, h1, pure, Except.pure]

/-- **C113** fails: with two bins of masses one and two, the first of two samples is never in the heavier bin while the
second one is in the lighter bin. -/
theorem C113_refuted : ¬ C113_Claim := by
  intro hC
  obtain ⟨srt, hs⟩ := exists_argsort
  obtain ⟨g, hg, hgm⟩ := exGrid_init hs
  have hinc : ∀ e ∈ [[(0 : ℝ), 1, 2]], e.Pairwise (· < ·) := by
    intro e he; simp only [List.mem_singleton] at he; subst he; norm_num
  have hm : ∀ b, ValidIdx g.mass.shape b → 0 ≤ g.mass.get b := by
    intro b _; rw [hgm]; simp only [exMassC]; split <;> norm_num
  have ht : 0 < g.mass.sum := by rw [hgm, exMassC_sum]; norm_num
  have hr := exists_gridNumbers 1
  set μ := Measure.infinitePi fun _ : ℕ => Spec.unitLaw.prod (Measure.pi fun _ : Fin 1 => Spec.unitLaw) with hμ
  obtain ⟨P, X, hX, hXi, hXo⟩ := hC 1 srt _ _ _ g hs hg hinc hm ht false (by simp) _ μ _ hr 2
  obtain ⟨Q, hQ, hbin, hin, hunif, hZ⟩ := C113_partial hs hg hinc hm ht false (by simp)
  obtain ⟨Z, hZl, hZi, hZo⟩ := hZ μ _ hr 2
  set L : Set (Fin 1 → ℝ) := {x | x 0 < 1} with hL
  set H : Set (Fin 1 → ℝ) := {x | 1 < x 0} with hH
  have hLm : MeasurableSet L := measurableSet_lt (measurable_pi_apply 0) measurable_const
  have hHm : MeasurableSet H := measurableSet_lt measurable_const (measurable_pi_apply 0)
  have hpi : ∀ (ν : Measure ℝ) [SigmaFinite ν] (s : Set ℝ), (Measure.pi fun _ : Fin 1 => ν) {x | x 0 ∈ s} = ν s := by
    intro ν _ s
    have : {x : Fin 1 → ℝ | x 0 ∈ s} = Set.pi Set.univ fun _ => s := by
      ext x
      simp
    rw [this, Measure.pi_pi]
    simp
  have hpos : ∀ c : ℕ, c < 2 → ∀ t : Set ℝ, MeasurableSet t → Spec.uniformLaw c (c + 1) t ≠ 0 →
      0 < Q {p | p.2 ∈ {x : Fin 1 → ℝ | x 0 ∈ t}} := by
    intro c hc t htm htc
    rw [hunif rfl {x : Fin 1 → ℝ | x 0 ∈ t} ((measurable_pi_apply 0) htm)]
    have hmem : (fun _ : Fin 1 => c) ∈ Spec.bins exDensC.shape := mem_bins.mpr fun i => by simp only [exDensC]; omega
    refine lt_of_lt_of_le ?_ (Finset.single_le_sum (fun _ _ => zero_le) hmem)
    have e : (fun i : Fin 1 => Spec.uniformLaw (([[(0 : ℝ), 1, 2]].getD i []).getD c 0)
        (([[(0 : ℝ), 1, 2]].getD i []).getD (c + 1) 0)) = fun _ => Spec.uniformLaw c (c + 1) := by
      funext i
      fin_cases i
      interval_cases c
      · simp
      · simp; norm_num
    have hprob : IsProbabilityMeasure (Spec.uniformLaw c (c + 1)) :=
      (uniform_affine (lt_add_one (c : ℝ))).hasLaw.isProbabilityMeasure_iff.mp inferInstance
    rw [e, hpi, hgm, exMassC_sum]
    refine ENNReal.mul_pos (ENNReal.ofReal_pos.mpr ?_).ne' htc
    simp only [exMassC]
    split <;> norm_num
  have hQL : 0 < Q {p | p.2 ∈ L} := hpos 0 (by norm_num) (Set.Iio 1) measurableSet_Iio (by
    have : Set.Iio (1:ℝ) ∩ Set.Ico (0:ℝ) 1 = Set.Ico 0 1 := by ext x; simp
    simp [Spec.uniformLaw, Measure.restrict_apply measurableSet_Iio, this])
  have hQH : 0 < Q {p | p.2 ∈ H} := hpos 1 (by norm_num) (Set.Ioi 1) measurableSet_Ioi (by
    have : Set.Ioi (1:ℝ) ∩ Set.Ico (1:ℝ) 2 = Set.Ioo 1 2 := by
      ext x; simp only [Set.mem_inter_iff, Set.mem_Ioi, Set.mem_Ico, Set.mem_Ioo]
      constructor
      · rintro ⟨h1, _, h2⟩; exact ⟨h1, h2⟩
      · rintro ⟨h1, h2⟩; exact ⟨h1, h1.le, h2⟩
    norm_num [Spec.uniformLaw, Measure.restrict_apply measurableSet_Ioi, this])
  -- both samples in the same set
  have hboth : ∀ A : Set (Fin 1 → ℝ), MeasurableSet A → 0 < Q {p | p.2 ∈ A} → ∀ j, μ (X j ⁻¹' A) ≠ 0 := by
    intro A hA hQA j h0
    have hAm : MeasurableSet {p : (Fin 1 → ℕ) × (Fin 1 → ℝ) | p.2 ∈ A} := measurable_snd hA
    have hind := hZi.indepFun (i := 0) (j := 1) (by decide)
    have hmul := hind.measure_inter_preimage_eq_mul _ _ hAm hAm
    have hlaw : ∀ i, μ (Z i ⁻¹' {p | p.2 ∈ A}) = Q {p | p.2 ∈ A} := fun i => by
      rw [← (hZl i).map_eq, Measure.map_apply_of_aemeasurable (hZl i).aemeasurable hAm]
    rw [hlaw, hlaw] at hmul
    have hne : μ (Z 0 ⁻¹' {p | p.2 ∈ A} ∩ Z 1 ⁻¹' {p | p.2 ∈ A}) ≠ 0 := by
      rw [hmul]; exact (ENNReal.mul_pos hQA.ne' hQA.ne').ne'
    refine hne (measure_mono_null_ae ?_ h0)
    filter_upwards [hXo, hZo] with ω ⟨o1, h1, h2⟩ ⟨o2, h3, h4⟩ ⟨hz0, hz1⟩
    rw [h1, Except.ok.injEq] at h3
    subst h3
    rw [h2] at h4
    have hmem : X j ω ∈ List.ofFn fun j => (Z j ω).2 := h4.subset ((List.mem_ofFn' _ _).mpr ⟨j, rfl⟩)
    rw [List.mem_ofFn'] at hmem
    obtain ⟨i, hi⟩ := hmem
    change X j ω ∈ A
    rw [← hi]
    fin_cases i
    · exact hz0
    · exact hz1
  have hnever : μ (X 0 ⁻¹' H ∩ X 1 ⁻¹' L) = 0 := by
    refine measure_mono_null_ae (t := ∅) ?_ measure_empty
    filter_upwards [hXo, gridNumbers_inRange hr] with ω ⟨o1, h1, h2⟩ hω ⟨hx0, hx1⟩
    obtain ⟨x, b, o2, h3, h4, h5, h6⟩ := C113_order hs hg (fun e he => (hinc e he).imp fun h => h.le) hm ht
      (⟨fun n => (ω n).1, fun n => (ω n).2⟩ : Rand 1)
      ⟨fun k => ⟨(hω.1 k).1.le, (hω.1 k).2⟩, fun k i => ⟨(hω.2 k i).1.le, (hω.2 k i).2⟩⟩ (fun k => (hω.1 k).1.ne') 2 false
      (by simp)
    rw [h1, Except.ok.injEq] at h3
    subst h3
    rw [h2] at h4
    have hxx := congrFun (List.ofFn_injective h4)
    change 1 < X 0 ω 0 at hx0
    change X 1 ω 0 < 1 at hx1
    simp only [hxx] at hx0 hx1
    have hb0 := (h5 0).1 0
    have hb1 := (h5 1).1 0
    have i0 := ((h5 0).2.2 0).2
    have i1 := ((h5 1).2.2 0).1
    have hmono := h6 0 1 (by decide)
    simp only [exDensC] at hb0 hb1
    rw [hgm] at hmono
    simp only [exMassC] at hmono
    have c0 : b 0 0 = 1 := by
      by_contra hc
      have : b 0 0 = 0 := by omega
      rw [this] at i0
      norm_num at i0
      linarith
    have c1 : b 1 0 = 0 := by
      by_contra hc
      have : b 1 0 = 1 := by omega
      rw [this] at i1
      norm_num at i1
      linarith
    rw [c0, c1] at hmono
    norm_num at hmono
  have hmul := (hXi.indepFun (i := 0) (j := 1) (by decide)).measure_inter_preimage_eq_mul _ _ hHm hLm
  rw [hnever] at hmul
  rcases mul_eq_zero.mp hmul.symm with h | h
  · exact hboth H hHm hQH 0 h
  · exact hboth L hLm hQL 1 h

/-- The example meets the hypotheses of `C113_partial` and `C113_order`, and there are random numbers as promised. -/
example : ∃ (srt : List ℝ → List ℕ) (g : SampleGrid 1), (∀ l, IsArgsort (srt l) l) ∧
    SampleGrid.init srt [[(0 : ℝ), 1, 2]] exDensC (some exMassC) = .ok g ∧
    (∀ b, ValidIdx g.mass.shape b → 0 ≤ g.mass.get b) ∧ 0 < g.mass.sum ∧ exDensC.sum ≠ 0 ∧
    ∃ (Ω : Type) (_ : MeasurableSpace Ω) (μ : Measure Ω) (r : Ω → Rand 1), Spec.GridNumbers μ r := by
  obtain ⟨srt, hs⟩ := exists_argsort
  obtain ⟨g, hg, hgm⟩ := exGrid_init hs
  refine ⟨srt, g, hs, hg, ?_, ?_, ?_, _, _, _, _, exists_gridNumbers 1⟩
  · intro b _; rw [hgm]; simp only [exMassC]; split <;> norm_num
  · rw [hgm, exMassC_sum]; norm_num
  · rw [sum_one]; simp [exDensC]

end Kalepy
