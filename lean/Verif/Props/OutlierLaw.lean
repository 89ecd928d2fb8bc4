import Mathlib.Probability.Independence.CharacteristicFunction
import Mathlib.Probability.Independence.Integration
import Verif.Props.OutlierMean

/-!
# C165: the law of the outlier samples with Poisson noise
-/

namespace Kalepy

open MeasureTheory ProbabilityTheory

variable {d : ℕ}

/-- What numpy promises about the random numbers of `Sample_Outliers.sample`, in full: those of `Spec.OutlierNumbers`, and
the Poisson numbers are independent of each other and of the uniform numbers. -/
structure Spec.PoissonNumbers {Ω : Type*} [MeasurableSpace Ω] (μ : Measure Ω) (r : Ω → Rand d) (pr : Ω → PoissonRand)
    (outMass : ℝ) (mass : NDArr d ℝ) : Prop where
  numbers : Spec.OutlierNumbers μ r pr outMass mass
  noise : iIndepFun (fun (k : Option ℕ) ω => k.elim (pr ω).outside (pr ω).inside) μ
  indep : IndepFun (fun ω => ((pr ω).outside, (pr ω).inside)) (fun ω n => ((r ω).u n, (r ω).loc n)) μ

/-- Specification: the law of the weight of a bin.  Without `poisson_inside`, the bins above the threshold have one sample
with the mass as weight; every other weight is a Poisson number with the mass as mean. -/
noncomputable def Spec.binLaw (mass : NDArr d ℝ) (thr : ℝ) (pin : Bool) (b : Fin d → ℕ) : Measure ℝ :=
  if thr < mass.get b ∧ pin = false then Measure.dirac (mass.get b)
  else (poissonMeasure (mass.get b).toNNReal).map Nat.cast

instance (mass : NDArr d ℝ) (thr : ℝ) (pin : Bool) (b : Fin d → ℕ) : IsProbabilityMeasure (Spec.binLaw mass thr pin b) := by
  unfold Spec.binLaw
  split_ifs
  · infer_instance
  · exact Measure.isProbabilityMeasure_map Measurable.of_discrete.aemeasurable

/-! ## Conditioning on a countable random variable -/

lemma integral_by_cases {Ω ι : Type*} [MeasurableSpace Ω] {μ : Measure Ω} [IsProbabilityMeasure μ] [Countable ι]
    [MeasurableSpace ι] [MeasurableSingletonClass ι] {Z : Ω → ι} (hZ : AEMeasurable Z μ) {F : Ω → ℂ} (hF : Integrable F μ)
    {G : ι → ℂ} (hG : Integrable (fun ω => G (Z ω)) μ)
    (h : ∀ z, μ (Z ⁻¹' {z}) ≠ 0 → ∫ ω, F ω ∂(μ[|Z ⁻¹' {z}]) = G z) : ∫ ω, F ω ∂μ = ∫ ω, G (Z ω) ∂μ := by
  have hs : ∀ z, NullMeasurableSet (Z ⁻¹' {z}) μ := fun z => hZ.nullMeasurableSet_preimage (measurableSet_singleton z)
  have hd : Pairwise (Function.onFun (AEDisjoint μ) fun z => Z ⁻¹' {z}) := fun m n hmn =>
    (Disjoint.preimage Z (Set.disjoint_singleton.mpr hmn)).aedisjoint
  have hu : ⋃ z, Z ⁻¹' {z} = Set.univ := by ext; simp
  have e1 : ∀ f : Ω → ℂ, Integrable f μ → ∫ ω, f ω ∂μ = ∑' z, ∫ ω in Z ⁻¹' {z}, f ω ∂μ := fun f hf => by
    rw [← integral_iUnion_ae hs hd hf.integrableOn, hu, Measure.restrict_univ]
  rw [e1 _ hF, e1 _ hG]
  refine tsum_congr fun z => ?_
  by_cases h0 : μ (Z ⁻¹' {z}) = 0
  · rw [Measure.restrict_eq_zero.mpr h0]
    simp
  have e : μ.restrict (Z ⁻¹' {z}) = μ (Z ⁻¹' {z}) • μ[|Z ⁻¹' {z}] := by
    rw [ProbabilityTheory.cond, smul_smul, ENNReal.mul_inv_cancel h0 (measure_ne_top _ _), one_smul]
  have hν : IsProbabilityMeasure (μ[|Z ⁻¹' {z}]) := cond_isProbabilityMeasure h0
  rw [e, integral_smul_measure, integral_smul_measure, h z h0]
  congr 1
  have : (fun ω => G (Z ω)) =ᵐ[μ[|Z ⁻¹' {z}]] fun _ => G z := by
    filter_upwards [ae_cond_mem₀ (hs z)] with ω hω
    have hω : Z ω = z := hω
    rw [hω]
  rw [integral_congr_ae this]
  simp

/-! ## Generating functions -/

lemma poisson_gf (l : NNReal) (q : ℂ) : ∫ n, q ^ n ∂(poissonMeasure l) = Complex.exp (l * (q - 1)) := by
  rw [integral_poissonMeasure l]
  calc ∑' a, (Real.exp (-l) * l ^ a / a.factorial : ℝ) • q ^ a
      = ∑' a, (Real.exp (-l) : ℂ) * ((l * q) ^ a / a.factorial) := by
        congr with a
        rw [Complex.real_smul]
        push_cast
        rw [mul_pow]
        ring
    _ = (Real.exp (-l) : ℂ) * ∑' a, ((l * q) ^ a / a.factorial) := tsum_mul_left
    _ = (Real.exp (-l) : ℂ) * Complex.exp (l * q) := by
        rw [(NormedSpace.expSeries_div_hasSum_exp ((l : ℂ) * q)).tsum_eq, Complex.exp_eq_exp_ℂ]
    _ = _ := by
        rw [Complex.ofReal_exp, ← Complex.exp_add]
        push_cast
        ring_nf

section

variable {B : Type} [Fintype B]

/-- Random variables whose joint characteristic function is a product are independent. -/
lemma law_of_char {Ω : Type*} [MeasurableSpace Ω] {μ : Measure Ω} [IsProbabilityMeasure μ] {W : B → Ω → ℝ}
    (hW : ∀ b, AEMeasurable (W b) μ) {ν : B → Measure ℝ} [∀ b, IsProbabilityMeasure (ν b)]
    (h : ∀ t : B → ℝ, ∫ ω, Complex.exp ((∑ b, t b * W b ω : ℝ) * Complex.I) ∂μ = ∏ b, charFun (ν b) (t b)) :
    (∀ b, HasLaw (W b) (ν b) μ) ∧ iIndepFun W μ := by
  have hWp : AEMeasurable (fun ω b => W b ω) μ := aemeasurable_pi_iff.mpr hW
  have hjoint : μ.map (fun ω b => W b ω) = Measure.pi ν := by
    have hp := Measure.isProbabilityMeasure_map hWp
    rw [← charFun_eq_pi_iff]
    intro t
    rw [← h fun b => t b, charFun_apply, integral_map (by fun_prop) (by fun_prop), integral_map hWp (by fun_prop)]
    refine integral_congr_ae (ae_of_all _ fun ω => ?_)
    simp [PiLp.inner_apply]
  have hlaw : ∀ b, HasLaw (W b) (ν b) μ := by
    intro b
    refine ⟨hW b, ?_⟩
    rw [← (measurePreserving_eval ν b).map_eq, ← hjoint,
      AEMeasurable.map_map_of_aemeasurable (measurable_pi_apply _).aemeasurable hWp]
    rfl
  refine ⟨hlaw, ?_⟩
  rw [iIndepFun_iff_map_fun_eq_pi_map hW, hjoint]
  congr 1
  funext b
  exact (hlaw b).map_eq.symm

/-- The character of the numbers of samples in the sets `A b`, for one sample. -/
noncomputable def cellChar (A : B → Set (Fin d → ℝ)) (t : B → ℝ) (p : (Fin d → ℕ) × (Fin d → ℝ)) : ℂ :=
  Complex.exp ((∑ b, t b * (A b).indicator 1 p.2 : ℝ) * Complex.I)

lemma cellChar_measurable {A : B → Set (Fin d → ℝ)} (hA : ∀ b, MeasurableSet (A b)) (t : B → ℝ) :
    Measurable (cellChar A t) := by
  have : Measurable fun p : (Fin d → ℕ) × (Fin d → ℝ) => (∑ b, t b * (A b).indicator (1 : (Fin d → ℝ) → ℝ) p.2 : ℝ) :=
    Finset.measurable_fun_sum _ fun b _ => measurable_const.mul ((measurable_one.indicator (hA b)).comp measurable_snd)
  unfold cellChar
  fun_prop

lemma count_char {Ω : Type} [MeasurableSpace Ω] {μ : Measure Ω} [IsProbabilityMeasure μ] {n : ℕ}
    {X : Fin n → Ω → (Fin d → ℕ) × (Fin d → ℝ)} {P : Measure ((Fin d → ℕ) × (Fin d → ℝ))} (hX : ∀ j, HasLaw (X j) P μ)
    (hXi : iIndepFun X μ) {A : B → Set (Fin d → ℝ)} (hA : ∀ b, MeasurableSet (A b)) (t : B → ℝ) {C : Ω → B → ℕ}
    (hC : ∀ᵐ ω ∂μ, ∃ l : List (Fin d → ℝ), l.Perm (List.ofFn fun j => (X j ω).2) ∧
      ∀ b, C ω b = countIn (.ok (l.map fun x => (x, none))) (A b)) :
    ∫ ω, Complex.exp ((∑ b, t b * C ω b : ℝ) * Complex.I) ∂μ = (∫ p, cellChar A t p ∂P) ^ n := by
  classical
  have e : (fun ω => Complex.exp ((∑ b, t b * C ω b : ℝ) * Complex.I)) =ᵐ[μ] fun ω => ∏ j, cellChar A t (X j ω) := by
    filter_upwards [hC] with ω ⟨l, hl, hc⟩
    have h1 : (l.map fun x => (x, (none : Option ℝ))).map Prod.fst = l := by simp [Function.comp_def]
    simp only [cellChar]
    rw [← Complex.exp_sum, ← Finset.sum_mul, ← Complex.ofReal_sum, Finset.sum_comm]
    congr 3
    refine Finset.sum_congr rfl fun b _ => ?_
    rw [hc, countIn, h1, hl.countP_eq, countP_ofFn, Finset.mul_sum]
    refine Finset.sum_congr rfl fun j _ => ?_
    simp [Set.indicator_apply]
  have hm := cellChar_measurable hA t
  rw [integral_congr_ae e, hXi.integral_fun_prod_comp (fun j => (hX j).aemeasurable) fun j => hm.aestronglyMeasurable]
  have : ∀ j, ∫ ω, cellChar A t (X j ω) ∂μ = ∫ p, cellChar A t p ∂P := fun j =>
    (hX j).integral_comp hm.aestronglyMeasurable
  simp [this]

end

section

variable {srt : List ℝ → List ℕ} {edges : List (List ℝ)} {dens : NDArr d ℝ} {thr : ℝ} {mass : Option (NDArr d ℝ)}
  {o : SampleOutliers d}

/-- The joint characteristic function of the weights of the bins. -/
lemma outlier_char (hs : ∀ l, IsArgsort (srt l) l) (hinit : SampleOutliers.init srt edges dens thr mass = .ok o)
    (hedges : ∀ e ∈ edges, e.Pairwise (· < ·)) (hthr : 0 ≤ thr)
    (hdens : ∀ idx, ValidIdx dens.shape idx → 0 ≤ dens.get idx)
    (hm : ∀ b, ValidIdx o.grid.mass.shape b → 0 ≤ o.grid.mass.get b)
    {Ω : Type} [MeasurableSpace Ω] {μ : Measure Ω} {r : Ω → Rand d} {pr : Ω → PoissonRand}
    (hr : Spec.PoissonNumbers μ r pr o.massOuts.sum o.grid.mass) (pin interp : Bool)
    (hi : interp = true → dens.sum ≠ 0) [Fintype {b // ValidIdx o.grid.mass.shape b}]
    {A : (Fin d → ℕ) → Set (Fin d → ℝ)} (hAm : ∀ b, ValidIdx o.grid.mass.shape b → MeasurableSet (A b))
    (hA : ∀ b, ValidIdx o.grid.mass.shape b → Spec.IsBin edges b (A b))
    (hW : ∀ b, ValidIdx o.grid.mass.shape b →
      AEMeasurable (fun ω => Spec.resultWeight (o.sample (r ω) (pr ω) pin true interp) (A b)) μ)
    (t : {b // ValidIdx o.grid.mass.shape b} → ℝ) :
    ∫ ω, Complex.exp ((∑ b, t b * Spec.resultWeight (o.sample (r ω) (pr ω) pin true interp) (A b) : ℝ) * Complex.I) ∂μ
      = ∏ b : {b // ValidIdx o.grid.mass.shape b}, charFun (Spec.binLaw o.grid.mass thr pin b) (t b) := by
  classical
  obtain ⟨e1, e2, e3, e4, e5, e6, e7⟩ := SampleOutliers.init_ok hinit
  obtain ⟨f1, f2, -⟩ := initMasses_ok e4
  have hg := hr.numbers.grid
  have hprob : IsProbabilityMeasure μ := (hg.law 0).isProbabilityMeasure_iff.mpr inferInstance
  have hbd : ∀ b, ValidIdx o.grid.mass.shape b → ∀ i, b i + 1 < dens.shape i := fun b hb i => by
    have := hb i; rw [f2]; omega
  have houts_nn : ∀ c, ValidIdx o.massOuts.shape c → 0 ≤ o.massOuts.get c := by
    intro c hc
    rw [e6] at hc ⊢
    simp only [NDArr.map]
    split_ifs
    · exact le_rfl
    · exact hm c hc
  have hget : ∀ b, o.massOuts.get b = if thr < o.grid.mass.get b then 0 else o.grid.mass.get b := by
    intro b; rw [e6]; rfl
  have hsum_nn : 0 ≤ o.massOuts.sum := Finset.sum_nonneg fun c hc => houts_nn c (mem_validIdx.mp hc)
  have hzero : ∀ᵐ ω ∂μ, o.massOuts.sum = 0 → (pr ω).outside = 0 := by
    by_cases h0 : o.massOuts.sum = 0
    · have hz := poisson_zero
      have hl := hr.numbers.outside
      rw [h0, Real.toNNReal_zero] at hl
      rw [← hl.map_eq] at hz
      filter_upwards [ae_of_ae_map hl.aemeasurable hz] with ω hω _
      exact hω
    · exact ae_of_all _ fun ω h => absurd h h0
  -- the weights of the interior samples, and the numbers of outliers
  let I : {b // ValidIdx o.grid.mass.shape b} → ℕ → ℝ := fun b k =>
    if thr < o.grid.mass.get b then (if pin then (k : ℝ) else o.grid.mass.get b) else 0
  let C : Ω → {b // ValidIdx o.grid.mass.shape b} → ℕ := fun ω b =>
    countIn (o.grid.sample (r ω) (some ((pr ω).outside : ℝ)) interp (some false)) (A b)
  let Z : Ω → ℕ × ({b // ValidIdx o.grid.mass.shape b} → ℕ) := fun ω =>
    ((pr ω).outside, fun b => (pr ω).inside (ravelIdx o.grid.mass.shape b))
  have hZ : AEMeasurable Z μ := hr.numbers.outside.aemeasurable.prodMk
    (aemeasurable_pi_iff.mpr fun b => (hr.numbers.inside b.1 b.2).aemeasurable)
  have hZi : IndepFun Z (fun ω n => ((r ω).u n, (r ω).loc n)) μ := by
    have hf : Measurable fun p : ℕ × (ℕ → ℕ) =>
        (p.1, fun b : {b // ValidIdx o.grid.mass.shape b} => p.2 (ravelIdx o.grid.mass.shape b)) :=
      measurable_fst.prodMk (measurable_pi_iff.mpr fun b => (measurable_pi_apply _).comp measurable_snd)
    exact hr.indep.comp hf measurable_id
  have hae : ∀ᵐ ω ∂μ, ∀ b : {b // ValidIdx o.grid.mass.shape b},
      Spec.resultWeight (o.sample (r ω) (pr ω) pin true interp) (A b)
        = I b ((pr ω).inside (ravelIdx o.grid.mass.shape b)) + C ω b := by
    filter_upwards [gridNumbers_inRange hg, hzero] with ω hω h0 b
    have := outlier_weight hs hinit hedges hthr hdens hm (r ω)
      ⟨fun k => ⟨(hω.1 k).1.le, (hω.1 k).2⟩, fun k i => ⟨(hω.2 k i).1.le, (hω.2 k i).2⟩⟩ (pr ω) h0 pin true interp hi
      (hbd b b.2) (hA b b.2)
    simpa [I, C] using this
  -- the number of outliers enters through a generating function
  obtain ⟨q, hq1, hq2, hq3⟩ : ∃ q : ℂ, ‖q‖ ≤ 1 ∧
      (o.massOuts.sum : ℂ) * (q - 1) = ∑ b : {b // ValidIdx o.grid.mass.shape b},
        (o.massOuts.get b : ℂ) * (Complex.exp (t b * Complex.I) - 1) ∧
      ∫ ω, Complex.exp ((∑ b, t b * Spec.resultWeight (o.sample (r ω) (pr ω) pin true interp) (A b) : ℝ) * Complex.I) ∂μ
        = ∫ ω, Complex.exp ((∑ b, t b * I b ((Z ω).2 b) : ℝ) * Complex.I) * q ^ (Z ω).1 ∂μ := by
    have hexp : ∀ x : ℝ, ‖Complex.exp (x * Complex.I)‖ = 1 := Complex.norm_exp_ofReal_mul_I
    rcases hsum_nn.eq_or_lt with h0 | hpos
    · refine ⟨1, by simp, ?_, ?_⟩
      · have hz : ∀ b : {b // ValidIdx o.grid.mass.shape b}, o.massOuts.get b = 0 := fun b =>
          (Finset.sum_eq_zero_iff_of_nonneg fun c hc => houts_nn c (mem_validIdx.mp hc)).mp h0.symm b
            (mem_validIdx.mpr (by rw [e6]; exact b.2))
        simp [hz]
      · refine integral_congr_ae ?_
        filter_upwards [hae, hzero] with ω hω hz
        have hC0 : ∀ b, C ω b = 0 := by
          intro b
          simp only [C]
          rw [hz h0.symm]
          exact countIn_zero _ _ _ _ _
        simp only [hω, hC0, one_pow, mul_one, Nat.cast_zero, add_zero, Z]
    · obtain ⟨g, hgi, hgm, hgs⟩ := outliers_as_grid hinit
      obtain ⟨P, hPp, hPb, hPa, -, hPX⟩ := C113_partial hs hgi hedges (by rw [hgm]; exact houts_nn) (by rw [hgm]; exact hpos)
        interp hi
      let A' : {b // ValidIdx o.grid.mass.shape b} → Set (Fin d → ℝ) := fun b => A b
      have hA' : ∀ b, MeasurableSet (A' b) := fun b => hAm b b.2
      have hq : ‖∫ p, cellChar A' t p ∂P‖ ≤ 1 := by
        refine (norm_integral_le_of_norm_le_const (C := 1) (ae_of_all _ fun p => (hexp _).le)).trans ?_
        simp
      refine ⟨∫ p, cellChar A' t p ∂P, hq, ?_, ?_⟩
      · have hcell : cellChar A' t =ᵐ[P] fun p => ∑ b : {b // ValidIdx o.grid.mass.shape b},
            ({p : (Fin d → ℕ) × (Fin d → ℝ) | p.1 = b}).indicator (fun _ => Complex.exp (t b * Complex.I)) p := by
          filter_upwards [hPa] with p hp
          have hv : ValidIdx o.grid.mass.shape p.1 := fun i => by have := hp.1 i; rw [f2] at this; omega
          have hmem : ∀ b : {b // ValidIdx o.grid.mass.shape b}, p.2 ∈ A b ↔ p.1 = b := by
            intro b
            constructor
            · intro h; exact bin_unique f1 hedges (hbd b b.2) hp.1 ((hA b b.2).2 _ h) hp.2.2
            · intro h; exact (hA b b.2).1 _ (h ▸ hp.2.2)
          have hmem' : ∀ b : {b // ValidIdx o.grid.mass.shape b}, p.1 = b ↔ b = ⟨p.1, hv⟩ := fun b =>
            ⟨fun h => Subtype.ext h.symm, fun h => (congrArg Subtype.val h).symm⟩
          simp only [cellChar, A', Set.indicator_apply, hmem, Set.mem_ofPred_eq, hmem']
          simp
        have hset : ∀ b : Fin d → ℕ, MeasurableSet {p : (Fin d → ℕ) × (Fin d → ℝ) | p.1 = b} := fun b =>
          measurable_fst (measurableSet_singleton b)
        have hint : ∀ b ∈ (Finset.univ : Finset {b // ValidIdx o.grid.mass.shape b}),
            Integrable (fun p => ({p : (Fin d → ℕ) × (Fin d → ℝ) | p.1 = b}).indicator
              (fun _ => Complex.exp (t b * Complex.I)) p) P := fun b _ => (integrable_const _).indicator (hset b)
        rw [integral_congr_ae hcell, integral_finsetSum _ hint]
        have hterm : ∀ b : {b // ValidIdx o.grid.mass.shape b},
            ∫ p, ({p : (Fin d → ℕ) × (Fin d → ℝ) | p.1 = b}).indicator (fun _ => Complex.exp (t b * Complex.I)) p ∂P
            = ((o.massOuts.get b / o.massOuts.sum : ℝ) : ℂ) * Complex.exp (t b * Complex.I) := by
          intro b
          rw [integral_indicator_const _ (hset b), measureReal_def, hPb b (hbd b b.2), hgm, ENNReal.toReal_ofReal
            (div_nonneg (houts_nn b (by rw [e6]; exact b.2)) hsum_nn), Complex.real_smul]
        simp only [hterm]
        have hS : (o.massOuts.sum : ℂ) = ∑ b : {b // ValidIdx o.grid.mass.shape b}, (o.massOuts.get b : ℂ) := by
          rw [← Complex.ofReal_sum]
          congr 1
          refine (Finset.sum_subtype (validIdx o.massOuts.shape) (fun b => ?_) _)
          rw [mem_validIdx, e6]; rfl
        have hne : (o.massOuts.sum : ℂ) ≠ 0 := by exact_mod_cast hpos.ne'
        rw [mul_sub, mul_one, Finset.mul_sum]
        have hcancel : ∀ b : {b // ValidIdx o.grid.mass.shape b}, (o.massOuts.sum : ℂ)
            * (((o.massOuts.get b / o.massOuts.sum : ℝ) : ℂ) * Complex.exp (t b * Complex.I))
            = o.massOuts.get b * Complex.exp (t b * Complex.I) := by
          intro b
          push_cast
          field_simp
        simp only [hcancel]
        rw [hS, ← Finset.sum_sub_distrib]
        refine Finset.sum_congr rfl fun b _ => ?_
        ring
      · refine integral_by_cases hZ (G := fun z => Complex.exp ((∑ b, t b * I b (z.2 b) : ℝ) * Complex.I)
            * (∫ p, cellChar A' t p ∂P) ^ z.1) ?_ ?_ ?_
        · refine Integrable.of_bound (C := 1) ?_ (ae_of_all _ fun ω => (hexp _).le)
          have : AEMeasurable (fun ω => (∑ b : {b // ValidIdx o.grid.mass.shape b},
              t b * Spec.resultWeight (o.sample (r ω) (pr ω) pin true interp) (A b) : ℝ)) μ :=
            Finset.aemeasurable_fun_sum _ fun b _ => (hW b b.2).const_mul _
          exact (Complex.measurable_exp.comp_aemeasurable
            ((Complex.measurable_ofReal.comp_aemeasurable this).mul_const _)).aestronglyMeasurable
        · refine Integrable.of_bound (C := 1)
            (((Measurable.of_discrete (f := fun z : ℕ × ({b // ValidIdx o.grid.mass.shape b} → ℕ) =>
              Complex.exp ((∑ b, t b * I b (z.2 b) : ℝ) * Complex.I) * (∫ p, cellChar A' t p ∂P) ^ z.1)).comp_aemeasurable
              hZ).aestronglyMeasurable) (ae_of_all _ fun ω => ?_)
          rw [norm_mul, hexp, one_mul, norm_pow]
          exact pow_le_one₀ (norm_nonneg _) hq
        · intro z hz
          have hc := gridNumbers_cond hg hZ hZi z hz
          have hν : IsProbabilityMeasure (μ[|Z ⁻¹' {z}]) := cond_isProbabilityMeasure hz
          have hac : μ[|Z ⁻¹' {z}] ≪ μ := cond_absolutelyContinuous
          have hZz : ∀ᵐ ω ∂(μ[|Z ⁻¹' {z}]), Z ω = z :=
            ae_cond_mem₀ (hZ.nullMeasurableSet_preimage (measurableSet_singleton z))
          obtain ⟨X, h1, h2, h3⟩ := hPX _ r hc z.1
          have hch := count_char h1 h2 hA' t (C := C) (by
            filter_upwards [h3, hZz] with ω ⟨out, ho, hp⟩ hn
            have hn : (pr ω).outside = z.1 := congrArg Prod.fst hn
            refine ⟨_, hp, fun b => ?_⟩
            simp only [C]
            rw [hn, ← hgs, ho]
            simp [countIn, Function.comp_def, A'])
          rw [← hch, ← integral_const_mul]
          refine integral_congr_ae ?_
          filter_upwards [hac.ae_le hae, hZz] with ω hω hn
          have hn2 : ∀ b : {b // ValidIdx o.grid.mass.shape b}, (pr ω).inside (ravelIdx o.grid.mass.shape b) = z.2 b := fun b => congrFun (congrArg Prod.snd hn) b
          simp only [hω, hn2]
          rw [← Complex.exp_add, ← add_mul, ← Complex.ofReal_add, ← Finset.sum_add_distrib]
          simp only [mul_add]
  rw [hq3]
  -- the Poisson numbers are independent
  let Y : Option {b // ValidIdx o.grid.mass.shape b} → Ω → ℕ := fun k ω =>
    (k.map fun b : {b // ValidIdx o.grid.mass.shape b} => ravelIdx o.grid.mass.shape b).elim (pr ω).outside (pr ω).inside
  have hYi : iIndepFun Y μ := by
    have hinj : Function.Injective (Option.map fun b : {b // ValidIdx o.grid.mass.shape b} => ravelIdx o.grid.mass.shape b) := by
      refine Option.map_injective fun a b hab => Subtype.ext ?_
      have := congrArg (unravelIdx o.grid.mass.shape) hab
      simpa only [unravel_ravelIdx a.2, unravel_ravelIdx b.2] using this
    have h := hr.noise.precomp hinj
    exact h
  let f : Option {b // ValidIdx o.grid.mass.shape b} → ℕ → ℂ := fun k n =>
    k.elim (q ^ n) fun b => Complex.exp ((t b * I b n : ℝ) * Complex.I)
  have hYm : ∀ k, AEMeasurable (Y k) μ := by
    rintro (_ | b)
    · exact hr.numbers.outside.aemeasurable
    · exact (hr.numbers.inside b.1 b.2).aemeasurable
  have hprod : ∀ ω, Complex.exp ((∑ b, t b * I b ((Z ω).2 b) : ℝ) * Complex.I) * q ^ (Z ω).1 = ∏ k, f k (Y k ω) := by
    intro ω
    rw [Fintype.prod_option, mul_comm]
    simp only [f, Y, Z, Option.elim, Option.map]
    rw [← Complex.exp_sum, ← Finset.sum_mul, ← Complex.ofReal_sum]
  simp only [hprod]
  rw [hYi.integral_fun_prod_comp hYm fun k => Measurable.of_discrete.aestronglyMeasurable, Fintype.prod_option]
  have h1 : ∫ ω, f none (Y none ω) ∂μ = Complex.exp (o.massOuts.sum * (q - 1)) := by
    refine (hr.numbers.outside.integral_comp (f := fun n => q ^ n) Measurable.of_discrete.aestronglyMeasurable).trans ?_
    rw [poisson_gf, Real.coe_toNNReal _ hsum_nn]
  have h2 : ∀ b : {b // ValidIdx o.grid.mass.shape b}, ∫ ω, f (some b) (Y (some b) ω) ∂μ
      = ∫ n, Complex.exp ((t b * I b n : ℝ) * Complex.I) ∂(poissonMeasure (o.grid.mass.get b).toNNReal) := by
    intro b
    exact (hr.numbers.inside b.1 b.2).integral_comp (f := fun n => Complex.exp ((t b * I b n : ℝ) * Complex.I))
      Measurable.of_discrete.aestronglyMeasurable
  rw [h1, hq2, Complex.exp_sum, ← Finset.prod_mul_distrib]
  refine Finset.prod_congr rfl fun b _ => ?_
  rw [h2, Spec.binLaw, hget]
  have hpois : charFun ((poissonMeasure (o.grid.mass.get b).toNNReal).map (Nat.cast : ℕ → ℝ)) (t b)
      = Complex.exp (o.grid.mass.get b * (Complex.exp (t b * Complex.I) - 1)) := by
    rw [charFun_map_cast_poissonMeasure, Real.coe_toNNReal _ (hm b b.2)]
  by_cases ht : thr < o.grid.mass.get b
  · simp only [I, if_pos ht, Complex.ofReal_zero, zero_mul, Complex.exp_zero, one_mul]
    cases pin
    · simp only [Bool.false_eq_true, if_false, and_true, if_pos ht, charFun_dirac]
      simp [mul_comm]
    · simp only [if_true, Bool.true_eq_false, and_false, if_false]
      rw [charFun_apply, integral_map Measurable.of_discrete.aemeasurable (by fun_prop)]
      simp [mul_comm]
  · rw [if_neg ht, if_neg (fun h : thr < o.grid.mass.get b ∧ pin = false => ht h.1), hpois]
    simp only [I, if_neg ht, mul_zero, Complex.ofReal_zero, zero_mul, Complex.exp_zero]
    rw [integral_const, probReal_univ]
    simp

/-- **C165**: with `poisson_outside=True`, the weights of the samples in the bins are independent of each other.  The weight of
a bin is a Poisson number with the mass of the bin as mean; only without `poisson_inside`, the weight of a bin above the
threshold is the mass of the bin itself. -/
theorem C165_poisson (hs : ∀ l, IsArgsort (srt l) l) (hinit : SampleOutliers.init srt edges dens thr mass = .ok o)
    (hedges : ∀ e ∈ edges, e.Pairwise (· < ·)) (hthr : 0 ≤ thr)
    (hdens : ∀ idx, ValidIdx dens.shape idx → 0 ≤ dens.get idx)
    (hm : ∀ b, ValidIdx o.grid.mass.shape b → 0 ≤ o.grid.mass.get b)
    {Ω : Type} [MeasurableSpace Ω] {μ : Measure Ω} {r : Ω → Rand d} {pr : Ω → PoissonRand}
    (hr : Spec.PoissonNumbers μ r pr (Spec.lowMass o.grid.mass thr) o.grid.mass) (pin interp : Bool)
    (hi : interp = true → dens.sum ≠ 0)
    {A : (Fin d → ℕ) → Set (Fin d → ℝ)} (hAm : ∀ b, ValidIdx o.grid.mass.shape b → MeasurableSet (A b))
    (hA : ∀ b, ValidIdx o.grid.mass.shape b → Spec.IsBin edges b (A b)) :
    (∀ b, ValidIdx o.grid.mass.shape b →
      HasLaw (fun ω => Spec.resultWeight (o.sample (r ω) (pr ω) pin true interp) (A b))
        (Spec.binLaw o.grid.mass thr pin b) μ) ∧
    iIndepFun (fun (b : {b // ValidIdx o.grid.mass.shape b}) ω =>
      Spec.resultWeight (o.sample (r ω) (pr ω) pin true interp) (A b)) μ := by
  classical
  have hprob : IsProbabilityMeasure μ := (hr.numbers.grid.law 0).isProbabilityMeasure_iff.mpr inferInstance
  let _ : Fintype {b // ValidIdx o.grid.mass.shape b} := Fintype.subtype (validIdx o.grid.mass.shape) fun b => mem_validIdx
  have hW : ∀ b, ValidIdx o.grid.mass.shape b →
      AEMeasurable (fun ω => Spec.resultWeight (o.sample (r ω) (pr ω) pin true interp) (A b)) μ := fun b hb =>
    (C114_partial hs hinit hedges hthr hdens hm hr.numbers pin true interp hi (.inl rfl) b hb _ (hAm b hb)
      (hA b hb)).1.aemeasurable
  have hr' : Spec.PoissonNumbers μ r pr o.massOuts.sum o.grid.mass := by rw [massOuts_sum hinit]; exact hr
  obtain ⟨h1, h2⟩ := law_of_char (fun b : {b // ValidIdx o.grid.mass.shape b} => hW b b.2)
    (ν := fun b => Spec.binLaw o.grid.mass thr pin b)
    (outlier_char hs hinit hedges hthr hdens hm hr' pin interp hi hAm hA hW)
  exact ⟨fun b hb => h1 ⟨b, hb⟩, h2⟩

end

/-! ## Examples -/

/-- The random numbers of the specification exist. -/
theorem exists_poissonNumbers (outMass : ℝ) (mass : NDArr d ℝ) :
    ∃ (Ω : Type) (_ : MeasurableSpace Ω) (μ : Measure Ω) (r : Ω → Rand d) (pr : Ω → PoissonRand),
      Spec.PoissonNumbers μ r pr outMass mass := by
  let law : Option ℕ → Measure ℕ := fun k =>
    k.elim (poissonMeasure outMass.toNNReal) fun k => poissonMeasure (mass.get (unravelIdx mass.shape k)).toNNReal
  have hlp : ∀ k, IsProbabilityMeasure (law k) := by
    rintro (_ | k)
    · exact inferInstanceAs (IsProbabilityMeasure (poissonMeasure _))
    · exact inferInstanceAs (IsProbabilityMeasure (poissonMeasure _))
  let μ1 := Measure.infinitePi fun _ : ℕ => Spec.unitLaw.prod (Measure.pi fun _ : Fin d => Spec.unitLaw)
  let μ2 := Measure.infinitePi law
  let μ := μ1.prod μ2
  have m1 : MeasurePreserving Prod.fst μ μ1 := measurePreserving_fst
  have m2 : MeasurePreserving Prod.snd μ μ2 := measurePreserving_snd
  have hlaw : ∀ n, HasLaw (fun ω : (ℕ → ℝ × (Fin d → ℝ)) × (Option ℕ → ℕ) => ω.1 n)
      (Spec.unitLaw.prod (Measure.pi fun _ => Spec.unitLaw)) μ := fun n =>
    ((measurePreserving_eval_infinitePi
      (fun _ : ℕ => Spec.unitLaw.prod (Measure.pi fun _ : Fin d => Spec.unitLaw)) n).comp m1).hasLaw
  have hlaw2 : ∀ k, HasLaw (fun ω : (ℕ → ℝ × (Fin d → ℝ)) × (Option ℕ → ℕ) => ω.2 k) (law k) μ := fun k =>
    ((measurePreserving_eval_infinitePi law k).comp m2).hasLaw
  have hpi : IndepFun (fun ω : (ℕ → ℝ × (Fin d → ℝ)) × (Option ℕ → ℕ) => (ω.2 none, fun k => ω.2 (some k)))
      (fun ω n => ω.1 n) μ := by
    have hm : Measurable fun x : Option ℕ → ℕ => (x none, fun k => x (some k)) := by fun_prop
    exact (indepFun_prod (X := fun ω : ℕ → ℝ × (Fin d → ℝ) => ω)
      (Y := fun x : Option ℕ → ℕ => (x none, fun k => x (some k))) measurable_id hm).symm
  refine ⟨(ℕ → ℝ × (Fin d → ℝ)) × (Option ℕ → ℕ), inferInstance, μ,
    fun ω => ⟨fun n => (ω.1 n).1, fun n => (ω.1 n).2⟩, fun ω => ⟨ω.2 none, fun k => ω.2 (some k)⟩,
    ⟨⟨hlaw, ?_⟩, hlaw2 none, ?_, ?_⟩, ?_, hpi⟩
  · change iIndepFun (fun n (ω : (ℕ → ℝ × (Fin d → ℝ)) × (Option ℕ → ℕ)) => ω.1 n) μ
    have hmeas : ∀ n, Measurable fun ω : (ℕ → ℝ × (Fin d → ℝ)) × (Option ℕ → ℕ) => ω.1 n := fun n => by fun_prop
    rw [iIndepFun_iff_map_fun_eq_infinitePi_map hmeas]
    simp only [fun n => (hlaw n).map_eq]
    exact m1.map_eq
  · exact hpi.comp measurable_fst measurable_id
  · intro b hb
    have h := hlaw2 (some (ravelIdx mass.shape b))
    simp only [law, Option.elim] at h
    rw [unravel_ravelIdx hb] at h
    exact h
  · have hmeas : ∀ k, Measurable fun ω : (ℕ → ℝ × (Fin d → ℝ)) × (Option ℕ → ℕ) => ω.2 k := fun k => by fun_prop
    have h : iIndepFun (fun k (ω : (ℕ → ℝ × (Fin d → ℝ)) × (Option ℕ → ℕ)) => ω.2 k) μ := by
      rw [iIndepFun_iff_map_fun_eq_infinitePi_map hmeas]
      simp only [fun k => (hlaw2 k).map_eq]
      exact m2.map_eq
    have e : (fun (k : Option ℕ) (ω : (ℕ → ℝ × (Fin d → ℝ)) × (Option ℕ → ℕ)) => k.elim (ω.2 none) fun k => ω.2 (some k))
        = fun k ω => ω.2 k := by
      funext k ω
      cases k <;> rfl
    rw [e]
    exact h

lemma measurableSet_inBin (edges : List (List ℝ)) (b : Fin d → ℕ) : MeasurableSet {x : Fin d → ℝ | Spec.InBin edges b x} := by
  have : {x : Fin d → ℝ | Spec.InBin edges b x} = ⋂ i : Fin d, {x | x i ∈
      Set.Icc ((edges.getD i []).getD (b i) 0) ((edges.getD i []).getD (b i + 1) 0)} := by
    ext p
    simp [Spec.InBin]
  rw [this]
  exact MeasurableSet.iInter fun i => measurable_pi_apply i measurableSet_Icc

/-- The hypotheses of `C165_poisson` are met by the densities `1, 0, 0`, whose bins have masses 1/2 and 0, and threshold 1:
the first bin stays empty with probability `exp(-1/2)`. -/
example : ∃ (srt : List ℝ → List ℕ) (o : SampleOutliers 1) (Ω : Type) (_ : MeasurableSpace Ω) (μ : Measure Ω) (r : Ω → Rand 1)
    (pr : Ω → PoissonRand), SampleOutliers.init srt [[0, 1, 2]] exDens1 1 = .ok o ∧
    Spec.PoissonNumbers μ r pr (Spec.lowMass o.grid.mass 1) o.grid.mass ∧
    μ.real {ω | Spec.resultWeight (o.sample (r ω) (pr ω) true true false) {x | Spec.InBin [[0, 1, 2]] (fun _ => 0) x} = 0}
      = Real.exp (-(1 / 2)) := by
  obtain ⟨srt, hs⟩ := exists_argsort
  obtain ⟨o, ho, hsh, h0, h1⟩ := exOutliers hs 1
  have hinc : ∀ e ∈ [[(0 : ℝ), 1, 2]], e.Pairwise (· < ·) := by
    intro e he; simp only [List.mem_singleton] at he; subst he; norm_num
  have hd : ∀ idx, ValidIdx exDens1.shape idx → 0 ≤ exDens1.get idx := by
    intro idx _; simp only [exDens1]; split <;> norm_num
  obtain ⟨Ω, mΩ, μ, r, pr, hr⟩ := exists_poissonNumbers (Spec.lowMass o.grid.mass 1) o.grid.mass
  refine ⟨srt, o, Ω, mΩ, μ, r, pr, ho, hr, ?_⟩
  have hl := (C165_poisson hs ho hinc zero_le_one hd (exOutliers_nonneg hsh h0 h1) hr true false (by simp)
    (A := fun b => {x | Spec.InBin [[0, 1, 2]] b x}) (fun b _ => measurableSet_inBin _ b)
    (fun b _ => ⟨fun x hx i => ⟨(hx i).1.le, (hx i).2.le⟩, fun x hx => hx⟩)).1 (fun _ => 0)
    (fun i => by rw [hsh]; norm_num)
  have he : Measure.real μ ((fun ω => Spec.resultWeight (o.sample (r ω) (pr ω) true true false)
      {x | Spec.InBin [[0, 1, 2]] (fun _ => 0) x}) ⁻¹' {0}) = (Spec.binLaw o.grid.mass 1 true fun _ => 0).real {0} := by
    rw [measureReal_def, measureReal_def, ← hl.map_eq, Measure.map_apply_of_aemeasurable hl.aemeasurable
      (measurableSet_singleton 0)]
  refine Eq.trans he ?_
  rw [Spec.binLaw, if_neg (by simp), h0, map_measureReal_apply Measurable.of_discrete (measurableSet_singleton 0)]
  have hz : (Nat.cast : ℕ → ℝ) ⁻¹' {0} = {0} := by ext n; simp
  rw [hz, poissonMeasure_real_singleton]
  norm_num

end Kalepy
