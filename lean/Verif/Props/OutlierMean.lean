import Mathlib.Probability.ConditionalProbability
import Mathlib.Probability.Distributions.Poisson.Basic
import Verif.Props.GridLaw
import Verif.Props.Outliers

/-!
# C114: the expected weight of outlier samples in each bin
-/

namespace Kalepy

open MeasureTheory ProbabilityTheory

variable {d : ℕ}

/-- The total weight of the samples in a region. -/
noncomputable def Spec.weightIn (l : List ((Fin d → ℝ) × ℝ)) (A : Set (Fin d → ℝ)) : ℝ :=
  (l.map fun s => A.indicator (fun _ => s.2) s.1).sum

/-- What numpy promises about the random numbers of `Sample_Outliers.sample`: uniform numbers, a Poisson number of
outliers which is independent of them, and Poisson weights of the interior bins. -/
structure Spec.OutlierNumbers {Ω : Type*} [MeasurableSpace Ω] (μ : Measure Ω) (r : Ω → Rand d) (pr : Ω → PoissonRand)
    (outMass : ℝ) (mass : NDArr d ℝ) : Prop where
  grid : Spec.GridNumbers μ r
  outside : HasLaw (fun ω => (pr ω).outside) (poissonMeasure outMass.toNNReal) μ
  indep : IndepFun (fun ω => (pr ω).outside) (fun ω n => ((r ω).u n, (r ω).loc n)) μ
  inside : ∀ b, ValidIdx mass.shape b →
    HasLaw (fun ω => (pr ω).inside (ravelIdx mass.shape b)) (poissonMeasure (mass.get b).toNNReal) μ

/-! ## Poisson numbers -/

lemma poisson_hasSum (r : NNReal) : HasSum (fun n : ℕ => Real.exp (-r) * (r : ℝ) ^ n / n.factorial * n) r := by
  rw [← hasSum_nat_add_iff' 1]
  simp only [Finset.sum_range_one, Nat.cast_zero, mul_zero, sub_zero]
  have h := (hasSum_one_poissonMeasure r).mul_left (r : ℝ)
  rw [mul_one] at h
  refine h.congr_fun fun n => ?_
  have h2 : ((n + 1 : ℕ) : ℝ) ≠ 0 := by positivity
  rw [Nat.factorial_succ]
  push_cast at h2 ⊢
  field_simp
  ring

lemma poisson_mean (r : NNReal) : Integrable (fun n : ℕ => (n : ℝ)) (poissonMeasure r) ∧ ∫ n, (n : ℝ) ∂(poissonMeasure r) = r := by
  have hi : Integrable (fun n : ℕ => (n : ℝ)) (poissonMeasure r) := by
    rw [integrable_poissonMeasure_iff]
    refine (poisson_hasSum r).summable.congr fun n => ?_
    simp
  refine ⟨hi, ?_⟩
  have := hasSum_integral_poissonMeasure hi
  refine this.unique ?_
  simpa [smul_eq_mul] using poisson_hasSum r

lemma integrable_of_law {Ω : Type*} [MeasurableSpace Ω] {μ : Measure Ω} {N : Ω → ℕ} {P : Measure ℕ} (h : HasLaw N P μ)
    {f : ℕ → ℝ} (hf : Integrable f P) : Integrable (fun ω => f (N ω)) μ := by
  rw [← h.map_eq] at hf
  exact hf.comp_aemeasurable h.aemeasurable

lemma poisson_zero : ∀ᵐ n ∂(poissonMeasure 0), n = 0 := by
  obtain ⟨h1, h2⟩ := poisson_mean 0
  have := (integral_eq_zero_iff_of_nonneg (fun n => Nat.cast_nonneg n) h1).mp (by simpa using h2)
  filter_upwards [this] with n hn
  have hn : (n : ℝ) = 0 := hn
  exact_mod_cast hn

/-! ## A random number of samples -/

lemma gridNumbers_cond {Ω : Type*} [MeasurableSpace Ω] {μ : Measure Ω} {r : Ω → Rand d} (hr : Spec.GridNumbers μ r)
    {ι : Type*} [MeasurableSpace ι] [MeasurableSingletonClass ι] {N : Ω → ι} (hN : AEMeasurable N μ)
    (hi : IndepFun N (fun ω n => ((r ω).u n, (r ω).loc n)) μ) (n : ι)
    (h0 : μ (N ⁻¹' {n}) ≠ 0) : Spec.GridNumbers (μ[|N ⁻¹' {n}]) r := by
  have hprob : IsProbabilityMeasure μ := (hr.law 0).isProbabilityMeasure_iff.mpr inferInstance
  have hs : NullMeasurableSet (N ⁻¹' {n}) μ := hN.nullMeasurableSet_preimage (measurableSet_singleton n)
  set ν := μ[|N ⁻¹' {n}] with hν
  have hνp : IsProbabilityMeasure ν := cond_isProbabilityMeasure h0
  have hac : ν ≪ μ := cond_absolutelyContinuous
  have hm : ∀ k, AEMeasurable (fun ω => ((r ω).u k, (r ω).loc k)) μ := fun k => (hr.law k).aemeasurable
  have hR : AEMeasurable (fun ω k => ((r ω).u k, (r ω).loc k)) μ := aemeasurable_pi_iff.mpr hm
  have hmap : ν.map (fun ω k => ((r ω).u k, (r ω).loc k)) = μ.map (fun ω k => ((r ω).u k, (r ω).loc k)) := by
    ext B hB
    rw [Measure.map_apply_of_aemeasurable (hR.mono_ac hac) hB, Measure.map_apply_of_aemeasurable hR hB, hν,
      ProbabilityTheory.cond, Measure.smul_apply, Measure.restrict_apply₀' hs, Set.inter_comm,
      hi.measure_inter_preimage_eq_mul _ _ (measurableSet_singleton n) hB, smul_eq_mul, ← mul_assoc,
      ENNReal.inv_mul_cancel h0 (measure_ne_top _ _), one_mul]
  have hlaw : ∀ k, ν.map (fun ω => ((r ω).u k, (r ω).loc k)) = μ.map fun ω => ((r ω).u k, (r ω).loc k) := by
    intro k
    have e : (fun ω => ((r ω).u k, (r ω).loc k)) = (fun R : ℕ → ℝ × (Fin d → ℝ) => R k) ∘ fun ω k => ((r ω).u k, (r ω).loc k) := rfl
    rw [e, ← AEMeasurable.map_map_of_aemeasurable (measurable_pi_apply k).aemeasurable (hR.mono_ac hac), hmap,
      AEMeasurable.map_map_of_aemeasurable (measurable_pi_apply k).aemeasurable hR]
  refine ⟨fun k => ⟨(hm k).mono_ac hac, by rw [hlaw k]; exact (hr.law k).map_eq⟩, ?_⟩
  rw [iIndepFun_iff_map_fun_eq_infinitePi_map₀' fun k => (hm k).mono_ac hac, hmap]
  simp only [hlaw]
  exact hr.indep.map_fun_eq_infinitePi_map₀' hm

open Classical in
/-- The number of samples in a region. -/
noncomputable def countIn (res : Res (List ((Fin d → ℝ) × Option ℝ))) (A : Set (Fin d → ℝ)) : ℕ :=
  match res with
  | .ok out => (out.map Prod.fst).countP fun x => decide (x ∈ A)
  | .error _ => 0

section

variable {srt : List ℝ → List ℕ} {edges : List (List ℝ)} {dens : NDArr d ℝ} {mass : Option (NDArr d ℝ)} {g : SampleGrid d}

lemma count_mean_fixed {Ω : Type} [MeasurableSpace Ω] {μ : Measure Ω} [IsProbabilityMeasure μ] {n : ℕ}
    {X : Fin n → Ω → (Fin d → ℕ) × (Fin d → ℝ)} {P : Measure ((Fin d → ℕ) × (Fin d → ℝ))} (hX : ∀ j, HasLaw (X j) P μ)
    {A : Set (Fin d → ℝ)} (hA : MeasurableSet A) {C : Ω → ℕ}
    (hC : ∀ᵐ ω ∂μ, ∃ l : List (Fin d → ℝ), l.Perm (List.ofFn fun j => (X j ω).2) ∧ C ω = countIn (.ok (l.map fun x => (x, none))) A) :
    AEMeasurable (fun ω => (C ω : ENNReal)) μ ∧ ∫⁻ ω, (C ω : ENNReal) ∂μ = n * P {p | p.2 ∈ A} := by
  classical
  have hset : MeasurableSet {p : (Fin d → ℕ) × (Fin d → ℝ) | p.2 ∈ A} := measurable_snd hA
  have e : (fun ω => (C ω : ENNReal)) =ᵐ[μ] fun ω => ∑ j, ({p : (Fin d → ℕ) × (Fin d → ℝ) | p.2 ∈ A}).indicator 1 (X j ω) := by
    filter_upwards [hC] with ω ⟨l, hl, hc⟩
    have h1 : (l.map fun x => (x, (none : Option ℝ))).map Prod.fst = l := by simp [Function.comp_def]
    rw [hc, countIn, h1, hl.countP_eq, countP_ofFn]
    refine Finset.sum_congr rfl fun j _ => ?_
    simp [Set.indicator_apply]
  have hm : ∀ j, AEMeasurable (fun ω => ({p : (Fin d → ℕ) × (Fin d → ℝ) | p.2 ∈ A}).indicator (1 : (Fin d → ℕ) × (Fin d → ℝ) → ENNReal) (X j ω)) μ :=
    fun j => ((measurable_one.indicator hset).comp_aemeasurable (hX j).aemeasurable)
  refine ⟨(Finset.aemeasurable_fun_sum _ fun j _ => hm j).congr e.symm, ?_⟩
  rw [lintegral_congr_ae e, lintegral_finsetSum' _ fun j _ => hm j]
  have : ∀ j, ∫⁻ ω, ({p : (Fin d → ℕ) × (Fin d → ℝ) | p.2 ∈ A}).indicator (1 : (Fin d → ℕ) × (Fin d → ℝ) → ENNReal) (X j ω) ∂μ = P {p | p.2 ∈ A} := by
    intro j
    rw [(hX j).lintegral_comp (measurable_one.indicator hset).aemeasurable, lintegral_indicator_one hset]
  simp [this]

/-- The expected number of samples in a region, for a random number of samples. -/
lemma count_mean {P : Measure ((Fin d → ℕ) × (Fin d → ℝ))} {interp : Bool}
    (hP : ∀ {Ω : Type} [MeasurableSpace Ω] (μ : Measure Ω) (r : Ω → Rand d), Spec.GridNumbers μ r → ∀ n : ℕ,
        ∃ X : Fin n → Ω → (Fin d → ℕ) × (Fin d → ℝ), (∀ j, HasLaw (X j) P μ) ∧ iIndepFun X μ ∧
          ∀ᵐ ω ∂μ, ∃ out, g.sample (r ω) (some n) interp = .ok out ∧
            (out.map Prod.fst).Perm (List.ofFn fun j => (X j ω).2))
    {Ω : Type} [MeasurableSpace Ω] {μ : Measure Ω} {r : Ω → Rand d} (hr : Spec.GridNumbers μ r)
    {N : Ω → ℕ} (hN : AEMeasurable N μ) (hi : IndepFun N (fun ω n => ((r ω).u n, (r ω).loc n)) μ)
    {A : Set (Fin d → ℝ)} (hA : MeasurableSet A) :
    AEMeasurable (fun ω => (countIn (g.sample (r ω) (some (N ω : ℝ)) interp) A : ENNReal)) μ ∧
    ∫⁻ ω, (countIn (g.sample (r ω) (some (N ω : ℝ)) interp) A : ENNReal) ∂μ = (∫⁻ ω, (N ω : ENNReal) ∂μ) * P {p | p.2 ∈ A} := by
  have hprob : IsProbabilityMeasure μ := (hr.law 0).isProbabilityMeasure_iff.mpr inferInstance
  set C : Ω → ENNReal := fun ω => (countIn (g.sample (r ω) (some (N ω : ℝ)) interp) A : ENNReal)
  have hs : ∀ n, NullMeasurableSet (N ⁻¹' {n}) μ := fun n => hN.nullMeasurableSet_preimage (measurableSet_singleton n)
  have hd : Pairwise (Function.onFun (AEDisjoint μ) fun n => N ⁻¹' {n}) := fun m n hmn =>
    (Disjoint.preimage N (Set.disjoint_singleton.mpr hmn)).aedisjoint
  have hu : ⋃ n, N ⁻¹' {n} = Set.univ := by ext; simp
  have key : ∀ n, AEMeasurable C (μ.restrict (N ⁻¹' {n})) ∧ ∫⁻ ω in N ⁻¹' {n}, C ω ∂μ = n * μ (N ⁻¹' {n}) * P {p | p.2 ∈ A} := by
    intro n
    by_cases h0 : μ (N ⁻¹' {n}) = 0
    · rw [Measure.restrict_eq_zero.mpr h0]
      simp [h0]
    have hc := gridNumbers_cond hr hN hi n h0
    have hν : IsProbabilityMeasure (μ[|N ⁻¹' {n}]) := cond_isProbabilityMeasure h0
    obtain ⟨X, h1, -, h3⟩ := hP _ r hc n
    obtain ⟨c1, c2⟩ := count_mean_fixed h1 hA (C := fun ω => countIn (g.sample (r ω) (some (N ω : ℝ)) interp) A) (by
      filter_upwards [h3, ae_cond_mem₀ (hs n)] with ω ⟨out, ho, hp⟩ hn
      have hn : N ω = n := hn
      refine ⟨_, hp, ?_⟩
      rw [hn, ho]
      simp [countIn, Function.comp_def])
    have e : μ.restrict (N ⁻¹' {n}) = μ (N ⁻¹' {n}) • μ[|N ⁻¹' {n}] := by
      rw [ProbabilityTheory.cond, smul_smul, ENNReal.mul_inv_cancel h0 (measure_ne_top _ _), one_smul]
    rw [e]
    refine ⟨c1.smul_measure _, ?_⟩
    rw [lintegral_smul_measure, c2, smul_eq_mul]
    ring
  constructor
  · rw [← Measure.restrict_univ (μ := μ), ← hu, aemeasurable_iUnion_iff]
    exact fun n => (key n).1
  · have e1 : ∀ f : Ω → ENNReal, ∫⁻ ω, f ω ∂μ = ∑' n, ∫⁻ ω in N ⁻¹' {n}, f ω ∂μ := fun f => by
      rw [← lintegral_iUnion₀ hs hd, hu, Measure.restrict_univ]
    rw [e1 C, e1 fun ω => (N ω : ENNReal), ← ENNReal.tsum_mul_right]
    refine tsum_congr fun n => ?_
    rw [(key n).2]
    congr 1
    have e2 : ∫⁻ ω in N ⁻¹' {n}, (N ω : ENNReal) ∂μ = ∫⁻ _ in N ⁻¹' {n}, (n : ENNReal) ∂μ := by
      refine lintegral_congr_ae ?_
      filter_upwards [ae_restrict_mem₀ (hs n)] with ω hω
      have hω : N ω = n := hω
      rw [hω]
    rw [e2, lintegral_const, Measure.restrict_apply_univ]

end

/-! ## Outliers as samples of a grid -/

lemma outliers_as_grid {srt : List ℝ → List ℕ} {edges : List (List ℝ)} {dens : NDArr d ℝ} {thr : ℝ}
    {mass : Option (NDArr d ℝ)} {o : SampleOutliers d} (hinit : SampleOutliers.init srt edges dens thr mass = .ok o) :
    ∃ g, SampleGrid.init srt edges dens (some o.massOuts) = .ok g ∧ g.mass = o.massOuts ∧
      ∀ r n interp, g.sample r (some n) interp = o.grid.sample r (some n) interp (some false) := by
  obtain ⟨e1, e2, e3, e4, e5, e6, e7⟩ := SampleOutliers.init_ok hinit
  obtain ⟨f1, f2, -⟩ := initMasses_ok e4
  have hchk : gridChecks edges dens (some o.massOuts) := by
    refine ⟨f1, fun m hm i => ?_⟩
    injection hm with hm
    rw [← hm, e6]
    exact (f2 i).symm
  have hmass : initMasses edges dens (some o.massOuts) none none = .ok (o.massOuts, none) := by
    unfold initMasses
    rw [if_pos hchk]
    rfl
  have hg : SampleGrid.init srt edges dens (some o.massOuts) = .ok (SampleGrid.mk edges dens o.massOuts none none o.grid.idx o.grid.csum) := by
    unfold SampleGrid.init
    rw [hmass]
    change (dataToCumulative srt o.massOuts.flat >>= _) = _
    rw [e5]
    rfl
  refine ⟨_, hg, rfl, fun r n interp => ?_⟩
  have hone : ∀ dn u loc, sampleOne (SampleGrid.mk edges dens o.massOuts none none o.grid.idx o.grid.csum) dn none u loc
      = sampleOne o.grid dn none u loc := by
    intro dn u loc
    unfold sampleOne
    rw [e1, e2]
  unfold SampleGrid.sample
  simp only [e2, e3, hone, Option.getD_some]

lemma bin_unique {shape : Fin d → ℕ} {edges : List (List ℝ)} (h3 : EdgesMatch shape edges)
    (hedges : ∀ e ∈ edges, e.Pairwise (· < ·)) {b c : Fin d → ℕ} (hb : ∀ i, b i + 1 < shape i)
    (hc : ∀ i, c i + 1 < shape i) {x : Fin d → ℝ} (h1 : Spec.InBin edges b x) (h2 : Spec.InBinInterior edges c x) : c = b := by
  have hmono : ∀ i : Fin d, ∀ j k, j ≤ k → k < shape i → edgeAt edges i j ≤ edgeAt edges i k := by
    intro i j k hjk
    induction k, hjk using Nat.le_induction with
    | base => intro _; exact le_rfl
    | succ k hk ih => intro h; exact (ih (by omega)).trans (edge_lt h3 hedges i k h).le
  funext i
  have a1 : edgeAt edges i (b i) ≤ x i ∧ x i ≤ edgeAt edges i (b i + 1) := h1 i
  have a2 : edgeAt edges i (c i) < x i ∧ x i < edgeAt edges i (c i + 1) := h2 i
  by_contra hne
  rcases lt_or_gt_of_ne hne with h | h
  · have := hmono i (c i + 1) (b i) h (by have := hb i; omega)
    linarith
  · have := hmono i (b i + 1) (c i) h (by have := hc i; omega)
    linarith

/-- The weight of a result in a region; a failing call has no samples. -/
noncomputable def Spec.resultWeight (res : Res (ℤ × List ((Fin d → ℝ) × ℝ))) (A : Set (Fin d → ℝ)) : ℝ :=
  match res with
  | .ok p => Spec.weightIn p.2 A
  | .error _ => 0

/-- `A` is a bin with any part of its boundary. -/
def Spec.IsBin (edges : List (List ℝ)) (b : Fin d → ℕ) (A : Set (Fin d → ℝ)) : Prop :=
  (∀ x, Spec.InBinInterior edges b x → x ∈ A) ∧ ∀ x ∈ A, Spec.InBin edges b x

section

variable {srt : List ℝ → List ℕ} {edges : List (List ℝ)} {dens : NDArr d ℝ} {thr : ℝ} {mass : Option (NDArr d ℝ)}
  {o : SampleOutliers d}

lemma weightIn_append (l m : List ((Fin d → ℝ) × ℝ)) (A : Set (Fin d → ℝ)) :
    Spec.weightIn (l ++ m) A = Spec.weightIn l A + Spec.weightIn m A := by
  simp [Spec.weightIn]

lemma weightIn_ones (l : List (Fin d → ℝ)) (A : Set (Fin d → ℝ)) :
    Spec.weightIn (l.map fun x => (x, (1 : ℝ))) A = countIn (.ok (l.map fun x => (x, none))) A := by
  classical
  induction l with
  | nil => simp [Spec.weightIn, countIn]
  | cons x l ih =>
    simp only [Spec.weightIn, countIn, List.map_cons, List.sum_cons, List.countP_cons] at ih ⊢
    rw [ih]
    by_cases hx : x ∈ A <;> simp [hx, add_comm]

lemma countIn_zero (g : SampleGrid d) (r : Rand d) (interp : Bool) (rs : Option Bool) (A : Set (Fin d → ℝ)) :
    countIn (g.sample r (some ((0 : ℕ) : ℝ)) interp rs) A = 0 := by
  unfold SampleGrid.sample
  by_cases h : interp = true ∧ g.dens.sum = 0
  · rw [if_pos h]
    rfl
  · rw [if_neg h]
    simp [pyInt, npSort, listSeq, countIn]

/-- The weight of the samples in a bin: that of the interior sample, if the bin has one, and the number of outliers. -/
lemma outlier_weight (hs : ∀ l, IsArgsort (srt l) l) (hinit : SampleOutliers.init srt edges dens thr mass = .ok o)
    (hedges : ∀ e ∈ edges, e.Pairwise (· < ·)) (hthr : 0 ≤ thr)
    (hdens : ∀ idx, ValidIdx dens.shape idx → 0 ≤ dens.get idx)
    (hm : ∀ b, ValidIdx o.grid.mass.shape b → 0 ≤ o.grid.mass.get b)
    (r : Rand d) (hr : r.InRange) (pr : PoissonRand) (hpr : o.massOuts.sum = 0 → pr.outside = 0) (pin pout interp : Bool)
    (hi : interp = true → dens.sum ≠ 0) {b : Fin d → ℕ} (hb : ∀ i, b i + 1 < dens.shape i) {A : Set (Fin d → ℝ)}
    (hA : Spec.IsBin edges b A) :
    Spec.resultWeight (o.sample r pr pin pout interp) A
      = (if thr < o.grid.mass.get b then (if pin then (pr.inside (ravelIdx o.grid.mass.shape b) : ℝ) else o.grid.mass.get b) else 0)
        + countIn (o.grid.sample r (some ((if pout then pr.outside else (npAround o.massOuts.sum).toNat : ℕ) : ℝ)) interp
            (some false)) A := by
  classical
  obtain ⟨e1, e2, e3, e4, e5, e6, e7⟩ := SampleOutliers.init_ok hinit
  obtain ⟨f1, f2, -⟩ := initMasses_ok e4
  obtain ⟨nOut, outs, hn, ho, hn0, hl, -, hx⟩ := outliers_spec hs hinit
    (fun e he => (hedges e he).imp fun h => h.le) hthr hm r hr pr hpr pin pout interp hi
  have hbv : ValidIdx o.grid.mass.shape b := fun i => by have := hb i; rw [f2] at this; omega
  rw [ho, Spec.resultWeight, weightIn_append, weightIn_ones]
  congr 1
  · rw [Spec.weightIn, List.map_map, ← List.sum_toFinset _ (interiorBins_nodup _ _)]
    have hin : ∀ c ∈ (interiorBins o.grid.mass thr).toFinset, ((fun i => centroid edges dens c i) ∈ A ↔ c = b) := by
      intro c hc
      rw [List.mem_toFinset, mem_interiorBins hthr] at hc
      have hc' : ∀ i, c i + 1 < dens.shape i := fun i => by rw [f2]; have := hc.1 i; omega
      have hcent : Spec.InBinInterior edges c fun i => centroid edges dens c i := fun i =>
        C41_centroid_inside edges dens c hc' hdens i (edge_lt f1 hedges i (c i) (hc' i))
      constructor
      · intro h; exact bin_unique f1 hedges hb hc' (hA.2 _ h) hcent
      · rintro rfl; exact hA.1 _ hcent
    have hterm : ∀ c ∈ (interiorBins o.grid.mass thr).toFinset,
        ((fun s : (Fin d → ℝ) × ℝ => A.indicator (fun _ => s.2) s.1) ∘ fun b => ((fun i => centroid edges dens b i),
          (if pin then (pr.inside (ravelIdx o.grid.mass.shape b) : ℝ) else o.grid.mass.get b))) c
        = if c = b then (if pin then (pr.inside (ravelIdx o.grid.mass.shape b) : ℝ) else o.grid.mass.get b) else 0 := by
      intro c hc
      simp only [Function.comp, Set.indicator_apply, hin c hc]
      split_ifs with h1 h2
      · rw [h1]
      · rw [h1]
      · rfl
    rw [Finset.sum_congr rfl hterm, Finset.sum_ite_eq']
    simp only [List.mem_toFinset, mem_interiorBins hthr, hbv, true_and]
  · have hcast : ((if pout then pr.outside else (npAround o.massOuts.sum).toNat : ℕ) : ℤ) = nOut := by
      rw [hn]
      cases pout
      · simp only [Bool.false_eq_true, if_false] at hn ⊢
        exact Int.toNat_of_nonneg (hn ▸ hn0)
      · simp
    by_cases hpos : 0 < nOut
    · obtain ⟨s, h1, h2⟩ := hx hpos
      have hc2 : ((if pout then pr.outside else (npAround o.massOuts.sum).toNat : ℕ) : ℝ) = (nOut : ℝ) := by
        rw [← hcast, Int.cast_natCast]
      rw [hc2, h1, h2]
      simp [countIn, Function.comp_def]
    · have h0 : (if pout then pr.outside else (npAround o.massOuts.sum).toNat : ℕ) = 0 := by omega
      have h1 : outs = [] := List.length_eq_zero_iff.mp (by omega)
      rw [h0, h1, countIn_zero]
      simp [countIn]

/-- The expected weight of the samples in a bin. -/
lemma outlier_mean (hs : ∀ l, IsArgsort (srt l) l) (hinit : SampleOutliers.init srt edges dens thr mass = .ok o)
    (hedges : ∀ e ∈ edges, e.Pairwise (· < ·)) (hthr : 0 ≤ thr)
    (hdens : ∀ idx, ValidIdx dens.shape idx → 0 ≤ dens.get idx)
    (hm : ∀ b, ValidIdx o.grid.mass.shape b → 0 ≤ o.grid.mass.get b)
    {Ω : Type} [MeasurableSpace Ω] {μ : Measure Ω} {r : Ω → Rand d} {pr : Ω → PoissonRand}
    (hr : Spec.OutlierNumbers μ r pr o.massOuts.sum o.grid.mass) (pin pout interp : Bool)
    (hi : interp = true → dens.sum ≠ 0) {b : Fin d → ℕ} (hb : ∀ i, b i + 1 < dens.shape i) {A : Set (Fin d → ℝ)}
    (hAm : MeasurableSet A) (hA : Spec.IsBin edges b A) :
    Integrable (fun ω => Spec.resultWeight (o.sample (r ω) (pr ω) pin pout interp) A) μ ∧
    ∫ ω, Spec.resultWeight (o.sample (r ω) (pr ω) pin pout interp) A ∂μ
      = if thr < o.grid.mass.get b then o.grid.mass.get b
        else (if pout then o.massOuts.sum else npAround o.massOuts.sum) * (o.grid.mass.get b / o.massOuts.sum) := by
  obtain ⟨e1, e2, e3, e4, e5, e6, e7⟩ := SampleOutliers.init_ok hinit
  obtain ⟨f1, f2, -⟩ := initMasses_ok e4
  have hprob : IsProbabilityMeasure μ := (hr.grid.law 0).isProbabilityMeasure_iff.mpr inferInstance
  have hbv : ValidIdx o.grid.mass.shape b := fun i => by have := hb i; rw [f2] at this; omega
  have houts_nn : ∀ c, ValidIdx o.massOuts.shape c → 0 ≤ o.massOuts.get c := by
    intro c hc
    rw [e6] at hc ⊢
    simp only [NDArr.map]
    split_ifs
    · exact le_rfl
    · exact hm c hc
  have hsum_nn : 0 ≤ o.massOuts.sum := Finset.sum_nonneg fun c hc => houts_nn c (mem_validIdx.mp hc)
  set N : Ω → ℕ := fun ω => if pout then (pr ω).outside else (npAround o.massOuts.sum).toNat with hNdef
  have hNm : AEMeasurable N μ := by
    cases pout
    · simp only [hNdef, Bool.false_eq_true, if_false]; exact aemeasurable_const
    · simp only [hNdef, if_true]; exact hr.outside.aemeasurable
  have hNi : IndepFun N (fun ω n => ((r ω).u n, (r ω).loc n)) μ := by
    cases pout
    · simp only [hNdef, Bool.false_eq_true, if_false]; exact indepFun_const_left _ _
    · simp only [hNdef, if_true]; exact hr.indep
  have hNint : Integrable (fun ω => (N ω : ℝ)) μ ∧
      ∫ ω, (N ω : ℝ) ∂μ = if pout then o.massOuts.sum else (npAround o.massOuts.sum : ℝ) := by
    cases pout
    · simp only [hNdef, Bool.false_eq_true, if_false]
      refine ⟨integrable_const _, ?_⟩
      rw [integral_const, probReal_univ, one_smul]
      have := Int.toNat_of_nonneg (npAround_nonneg hsum_nn)
      exact_mod_cast congrArg (Int.cast : ℤ → ℝ) this
    · simp only [hNdef, if_true]
      obtain ⟨p1, p2⟩ := poisson_mean o.massOuts.sum.toNNReal
      rw [Real.coe_toNNReal _ hsum_nn] at p2
      exact ⟨integrable_of_law hr.outside p1, (hr.outside.integral_comp p1.aestronglyMeasurable).trans p2⟩
  have hzero : ∀ᵐ ω ∂μ, o.massOuts.sum = 0 → (pr ω).outside = 0 := by
    by_cases h0 : o.massOuts.sum = 0
    · have hz := poisson_zero
      have hl := hr.outside
      rw [h0, Real.toNNReal_zero] at hl
      rw [← hl.map_eq] at hz
      filter_upwards [ae_of_ae_map hl.aemeasurable hz] with ω hω _
      exact hω
    · exact ae_of_all _ fun ω h => absurd h h0
  -- the number of outliers in the bin
  have hC : Integrable (fun ω => (countIn (o.grid.sample (r ω) (some (N ω : ℝ)) interp (some false)) A : ℝ)) μ ∧
      ∫ ω, (countIn (o.grid.sample (r ω) (some (N ω : ℝ)) interp (some false)) A : ℝ) ∂μ
      = if thr < o.grid.mass.get b then 0 else (∫ ω, (N ω : ℝ) ∂μ) * (o.grid.mass.get b / o.massOuts.sum) := by
    rcases hsum_nn.eq_or_lt with h0 | hpos
    · have hz : ∀ᵐ ω ∂μ, N ω = 0 := by
        filter_upwards [hzero] with ω hω
        simp only [hNdef]
        split_ifs
        · exact hω h0.symm
        · have := npAround_le_zero h0.symm.le
          omega
      have hz2 : (fun ω => (countIn (o.grid.sample (r ω) (some (N ω : ℝ)) interp (some false)) A : ℝ)) =ᵐ[μ] fun _ => 0 := by
        filter_upwards [hz] with ω hω
        rw [hω, countIn_zero, Nat.cast_zero]
      refine ⟨(integrable_zero _ _ _).congr hz2.symm, ?_⟩
      rw [integral_congr_ae hz2, ← h0]
      simp
    · obtain ⟨g, hg, hgm, hgs⟩ := outliers_as_grid hinit
      obtain ⟨P, hPp, hPb, hPa, -, hPX⟩ := C113_partial hs hg hedges (by rw [hgm]; exact houts_nn) (by rw [hgm]; exact hpos)
        interp hi
      have hPA : P {p | p.2 ∈ A} = ENNReal.ofReal (o.massOuts.get b / o.massOuts.sum) := by
        rw [← hgm, ← hPb b hb]
        refine measure_congr ?_
        filter_upwards [hPa] with p hp
        refine propext ⟨fun h => ?_, fun h => ?_⟩
        · exact bin_unique f1 hedges hb hp.1 (hA.2 _ h) hp.2.2
        · have h : p.1 = b := h
          exact hA.1 _ (h ▸ hp.2.2)
      obtain ⟨c1, c2⟩ := count_mean hPX hr.grid hNm hNi hAm
      simp only [hgs] at c1 c2
      have hNl : ∫⁻ ω, (N ω : ENNReal) ∂μ = ENNReal.ofReal (∫ ω, (N ω : ℝ) ∂μ) := by
        rw [ofReal_integral_eq_lintegral_ofReal hNint.1 (ae_of_all _ fun ω => Nat.cast_nonneg _)]
        simp
      rw [hPA, hNl] at c2
      have hmeas : AEStronglyMeasurable (fun ω => (countIn (o.grid.sample (r ω) (some (N ω : ℝ)) interp (some false)) A : ℝ)) μ := by
        have := c1.ennreal_toReal
        simpa using this.aestronglyMeasurable
      have hfin : ∫⁻ ω, ENNReal.ofReal (countIn (o.grid.sample (r ω) (some (N ω : ℝ)) interp (some false)) A : ℝ) ∂μ
          = ENNReal.ofReal (∫ ω, (N ω : ℝ) ∂μ) * ENNReal.ofReal (o.massOuts.get b / o.massOuts.sum) := by
        simpa using c2
      have hint : Integrable (fun ω => (countIn (o.grid.sample (r ω) (some (N ω : ℝ)) interp (some false)) A : ℝ)) μ := by
        refine ⟨hmeas, ?_⟩
        rw [hasFiniteIntegral_iff_ofReal (ae_of_all _ fun ω => Nat.cast_nonneg _), hfin]
        exact ENNReal.mul_lt_top ENNReal.ofReal_lt_top ENNReal.ofReal_lt_top
      refine ⟨hint, ?_⟩
      have hN0 : 0 ≤ ∫ ω, (N ω : ℝ) ∂μ := integral_nonneg fun ω => Nat.cast_nonneg _
      have hb0 : 0 ≤ o.massOuts.get b / o.massOuts.sum := div_nonneg (houts_nn b (by rw [e6]; exact hbv)) hsum_nn
      rw [integral_eq_lintegral_of_nonneg_ae (ae_of_all _ fun ω => Nat.cast_nonneg _) hmeas, hfin,
        ← ENNReal.ofReal_mul hN0, ENNReal.toReal_ofReal (mul_nonneg hN0 hb0)]
      have hget : o.massOuts.get b = if thr < o.grid.mass.get b then 0 else o.grid.mass.get b := by rw [e6]; rfl
      rw [hget]
      split_ifs <;> simp
  -- the weight of the interior sample
  have hI : Integrable (fun ω => if thr < o.grid.mass.get b then
        (if pin then ((pr ω).inside (ravelIdx o.grid.mass.shape b) : ℝ) else o.grid.mass.get b) else 0) μ ∧
      ∫ ω, (if thr < o.grid.mass.get b then
        (if pin then ((pr ω).inside (ravelIdx o.grid.mass.shape b) : ℝ) else o.grid.mass.get b) else 0) ∂μ
      = if thr < o.grid.mass.get b then o.grid.mass.get b else 0 := by
    by_cases ht : thr < o.grid.mass.get b
    · simp only [if_pos ht]
      cases pin
      · simp only [Bool.false_eq_true, if_false]
        exact ⟨integrable_const _, by simp⟩
      · simp only [if_true]
        obtain ⟨p1, p2⟩ := poisson_mean (o.grid.mass.get b).toNNReal
        rw [Real.coe_toNNReal _ (hm b hbv)] at p2
        exact ⟨integrable_of_law (hr.inside b hbv) p1, ((hr.inside b hbv).integral_comp p1.aestronglyMeasurable).trans p2⟩
    · simp only [if_neg ht]
      exact ⟨integrable_zero _ _ _, by simp⟩
  have hae : (fun ω => Spec.resultWeight (o.sample (r ω) (pr ω) pin pout interp) A) =ᵐ[μ] fun ω =>
      (if thr < o.grid.mass.get b then
        (if pin then ((pr ω).inside (ravelIdx o.grid.mass.shape b) : ℝ) else o.grid.mass.get b) else 0)
      + (countIn (o.grid.sample (r ω) (some (N ω : ℝ)) interp (some false)) A : ℝ) := by
    filter_upwards [gridNumbers_inRange hr.grid, hzero] with ω hω h0
    exact outlier_weight hs hinit hedges hthr hdens hm (r ω)
      ⟨fun k => ⟨(hω.1 k).1.le, (hω.1 k).2⟩, fun k i => ⟨(hω.2 k i).1.le, (hω.2 k i).2⟩⟩ (pr ω) h0 pin pout interp hi hb hA
  refine ⟨(hI.1.add hC.1).congr hae.symm, ?_⟩
  rw [integral_congr_ae hae, integral_add hI.1 hC.1, hI.2, hC.2, hNint.2]
  split_ifs <;> simp

/-- The total mass of the bins at or below the threshold. -/
noncomputable def Spec.lowMass (m : NDArr d ℝ) (thr : ℝ) : ℝ := ∑ b ∈ validIdx m.shape with m.get b ≤ thr, m.get b

lemma massOuts_sum (hinit : SampleOutliers.init srt edges dens thr mass = .ok o) :
    o.massOuts.sum = Spec.lowMass o.grid.mass thr := by
  obtain ⟨-, -, -, -, -, e6, -⟩ := SampleOutliers.init_ok hinit
  rw [e6, Spec.lowMass, Finset.sum_filter]
  refine Finset.sum_congr rfl fun b _ => ?_
  simp only [NDArr.map]
  by_cases h : thr < o.grid.mass.get b
  · rw [if_pos h, if_neg (not_le.mpr h)]
  · rw [if_neg h, if_pos (not_lt.mp h)]

/-- Specification: in every bin, the expected weight of the samples is the mass of the bin. -/
def Spec.Unbiased {Ω : Type*} [MeasurableSpace Ω] (μ : Measure Ω) (res : Ω → Res (ℤ × List ((Fin d → ℝ) × ℝ)))
    (edges : List (List ℝ)) (mass : NDArr d ℝ) : Prop :=
  ∀ b, ValidIdx mass.shape b → ∀ A, MeasurableSet A → Spec.IsBin edges b A →
    Integrable (fun ω => Spec.resultWeight (res ω) A) μ ∧ ∫ ω, Spec.resultWeight (res ω) A ∂μ = mass.get b

/-- **C114**, as far as it holds: with `poisson_outside=True` the expected weight of the samples in every bin is the mass
of the bin, with or without `poisson_inside` and interpolation; without it, if the total mass of the bins at or below the
threshold is a whole number (as `np.around` rounds it).  The full claim includes all masses; it is false
(`C114_refuted`). -/
theorem C114_partial (hs : ∀ l, IsArgsort (srt l) l) (hinit : SampleOutliers.init srt edges dens thr mass = .ok o)
    (hedges : ∀ e ∈ edges, e.Pairwise (· < ·)) (hthr : 0 ≤ thr)
    (hdens : ∀ idx, ValidIdx dens.shape idx → 0 ≤ dens.get idx)
    (hm : ∀ b, ValidIdx o.grid.mass.shape b → 0 ≤ o.grid.mass.get b)
    {Ω : Type} [MeasurableSpace Ω] {μ : Measure Ω} {r : Ω → Rand d} {pr : Ω → PoissonRand}
    (hr : Spec.OutlierNumbers μ r pr (Spec.lowMass o.grid.mass thr) o.grid.mass) (pin pout interp : Bool)
    (hi : interp = true → dens.sum ≠ 0)
    (hp : pout = true ∨ (npAround (Spec.lowMass o.grid.mass thr) : ℝ) = Spec.lowMass o.grid.mass thr) :
    Spec.Unbiased μ (fun ω => o.sample (r ω) (pr ω) pin pout interp) edges o.grid.mass := by
  intro b hbv A hAm hA
  obtain ⟨-, -, -, e4, -, e6, -⟩ := SampleOutliers.init_ok hinit
  obtain ⟨-, f2, -⟩ := initMasses_ok e4
  have hb : ∀ i, b i + 1 < dens.shape i := fun i => by rw [f2]; have := hbv i; omega
  obtain ⟨h1, h2⟩ := outlier_mean hs hinit hedges hthr hdens hm (by rw [massOuts_sum hinit]; exact hr) pin pout interp hi
    hb hAm hA
  refine ⟨h1, h2.trans ?_⟩
  rw [massOuts_sum hinit]
  split_ifs with ht hpo
  · rfl
  all_goals
    by_cases h0 : Spec.lowMass o.grid.mass thr = 0
    · have hz : o.grid.mass.get b = 0 := by
        refine (Finset.sum_eq_zero_iff_of_nonneg ?_).mp h0 b ?_
        · intro c hc
          exact hm c (mem_validIdx.mp (Finset.mem_filter.mp hc).1)
        · exact Finset.mem_filter.mpr ⟨mem_validIdx.mpr hbv, not_lt.mp ht⟩
      rw [h0, hz]; simp
    · first
      | exact mul_div_cancel₀ _ h0
      | (rw [hp.resolve_left hpo]; exact mul_div_cancel₀ _ h0)

/-- **C114**, exactly when it holds: without `poisson_outside` the expected weights are the masses if and only if the total
mass of the bins at or below the threshold is a whole number. -/
theorem C114_iff (hs : ∀ l, IsArgsort (srt l) l) (hinit : SampleOutliers.init srt edges dens thr mass = .ok o)
    (hedges : ∀ e ∈ edges, e.Pairwise (· < ·)) (hthr : 0 ≤ thr)
    (hdens : ∀ idx, ValidIdx dens.shape idx → 0 ≤ dens.get idx)
    (hm : ∀ b, ValidIdx o.grid.mass.shape b → 0 ≤ o.grid.mass.get b)
    {Ω : Type} [MeasurableSpace Ω] {μ : Measure Ω} {r : Ω → Rand d} {pr : Ω → PoissonRand}
    (hr : Spec.OutlierNumbers μ r pr (Spec.lowMass o.grid.mass thr) o.grid.mass) (pin interp : Bool)
    (hi : interp = true → dens.sum ≠ 0) :
    Spec.Unbiased μ (fun ω => o.sample (r ω) (pr ω) pin false interp) edges o.grid.mass
      ↔ ∃ n : ℤ, Spec.lowMass o.grid.mass thr = n := by
  obtain ⟨-, -, -, e4, -, e6, -⟩ := SampleOutliers.init_ok hinit
  obtain ⟨f1, f2, -⟩ := initMasses_ok e4
  constructor
  · intro h
    refine ⟨npAround (Spec.lowMass o.grid.mass thr), ?_⟩
    have hnn : ∀ c ∈ (validIdx o.grid.mass.shape).filter (fun b => o.grid.mass.get b ≤ thr), 0 ≤ o.grid.mass.get c :=
      fun c hc => hm c (mem_validIdx.mp (Finset.mem_filter.mp hc).1)
    rcases (Finset.sum_nonneg hnn).eq_or_lt with h0 | hpos
    · have h0 : Spec.lowMass o.grid.mass thr = 0 := h0.symm
      rw [h0]
      simp [npAround]
    · obtain ⟨b, hb, hbp⟩ : ∃ b ∈ (validIdx o.grid.mass.shape).filter (fun b => o.grid.mass.get b ≤ thr), 0 < o.grid.mass.get b := by
        by_contra hc
        push Not at hc
        exact absurd (Finset.sum_nonpos hc) (not_le.mpr hpos)
      have hpos : 0 < Spec.lowMass o.grid.mass thr := hpos
      obtain ⟨hbv, hbt⟩ := Finset.mem_filter.mp hb
      have hbv := mem_validIdx.mp hbv
      have hb' : ∀ i, b i + 1 < dens.shape i := fun i => by rw [f2]; have := hbv i; omega
      have hAm : MeasurableSet {x : Fin d → ℝ | Spec.InBin edges b x} := by
        have : {x : Fin d → ℝ | Spec.InBin edges b x} = ⋂ i : Fin d, {x | x i ∈
            Set.Icc ((edges.getD i []).getD (b i) 0) ((edges.getD i []).getD (b i + 1) 0)} := by
          ext p
          simp [Spec.InBin]
        rw [this]
        exact MeasurableSet.iInter fun i => measurable_pi_apply i measurableSet_Icc
      have hA : Spec.IsBin edges b {x : Fin d → ℝ | Spec.InBin edges b x} :=
        ⟨fun x hx i => ⟨(hx i).1.le, (hx i).2.le⟩, fun x hx => hx⟩
      obtain ⟨-, h1⟩ := h b hbv _ hAm hA
      obtain ⟨-, h2⟩ := outlier_mean hs hinit hedges hthr hdens hm (by rw [massOuts_sum hinit]; exact hr) pin false interp hi
        hb' hAm hA
      rw [h2, if_neg (not_lt.mpr hbt), massOuts_sum hinit] at h1
      simp only [Bool.false_eq_true, if_false] at h1
      field_simp at h1
      linarith
  · rintro ⟨n, hn⟩
    refine C114_partial hs hinit hedges hthr hdens hm hr pin false interp hi (.inr ?_)
    rw [hn]
    congr 1
    simp [npAround]

end

/-! ## The full claim, and a counterexample -/

/-- The full claim of C114: the expected weights are the masses, with and without Poisson noise. -/
def C114_Claim : Prop :=
  ∀ (srt : List ℝ → List ℕ), (∀ l, IsArgsort (srt l) l) → ∀ {d : ℕ} (edges : List (List ℝ)) (dens : NDArr d ℝ) (thr : ℝ)
    (mass : Option (NDArr d ℝ)) (o : SampleOutliers d), SampleOutliers.init srt edges dens thr mass = .ok o →
    (∀ e ∈ edges, e.Pairwise (· < ·)) → 0 ≤ thr → (∀ idx, ValidIdx dens.shape idx → 0 ≤ dens.get idx) →
    (∀ b, ValidIdx o.grid.mass.shape b → 0 ≤ o.grid.mass.get b) →
    ∀ {Ω : Type} [MeasurableSpace Ω] (μ : Measure Ω) (r : Ω → Rand d) (pr : Ω → PoissonRand),
    Spec.OutlierNumbers μ r pr (Spec.lowMass o.grid.mass thr) o.grid.mass → ∀ pin pout interp : Bool,
    (interp = true → dens.sum ≠ 0) →
    Spec.Unbiased μ (fun ω => o.sample (r ω) (pr ω) pin pout interp) edges o.grid.mass

/-- The random numbers of the specification exist. -/
theorem exists_outlierNumbers (outMass : ℝ) (mass : NDArr d ℝ) :
    ∃ (Ω : Type) (_ : MeasurableSpace Ω) (μ : Measure Ω) (r : Ω → Rand d) (pr : Ω → PoissonRand),
      Spec.OutlierNumbers μ r pr outMass mass := by
  let μ1 := Measure.infinitePi fun _ : ℕ => Spec.unitLaw.prod (Measure.pi fun _ : Fin d => Spec.unitLaw)
  let μ3 := Measure.infinitePi fun k : ℕ => poissonMeasure (mass.get (unravelIdx mass.shape k)).toNNReal
  let μ := μ1.prod ((poissonMeasure outMass.toNNReal).prod μ3)
  have m1 : MeasurePreserving Prod.fst μ μ1 := measurePreserving_fst
  have m2 : MeasurePreserving (fun ω : (ℕ → ℝ × (Fin d → ℝ)) × ℕ × (ℕ → ℕ) => ω.2.1) μ (poissonMeasure outMass.toNNReal) :=
    measurePreserving_fst.comp measurePreserving_snd
  have m3 : MeasurePreserving (fun ω : (ℕ → ℝ × (Fin d → ℝ)) × ℕ × (ℕ → ℕ) => ω.2.2) μ μ3 :=
    measurePreserving_snd.comp measurePreserving_snd
  have hlaw : ∀ n, HasLaw (fun ω : (ℕ → ℝ × (Fin d → ℝ)) × ℕ × (ℕ → ℕ) => ω.1 n)
      (Spec.unitLaw.prod (Measure.pi fun _ => Spec.unitLaw)) μ := fun n =>
    ((measurePreserving_eval_infinitePi
      (fun _ : ℕ => Spec.unitLaw.prod (Measure.pi fun _ : Fin d => Spec.unitLaw)) n).comp m1).hasLaw
  refine ⟨(ℕ → ℝ × (Fin d → ℝ)) × ℕ × (ℕ → ℕ), inferInstance, μ,
    fun ω => ⟨fun n => (ω.1 n).1, fun n => (ω.1 n).2⟩, fun ω => ⟨ω.2.1, ω.2.2⟩, ⟨⟨hlaw, ?_⟩, m2.hasLaw, ?_, ?_⟩⟩
  · change iIndepFun (fun n (ω : (ℕ → ℝ × (Fin d → ℝ)) × ℕ × (ℕ → ℕ)) => ω.1 n) μ
    have hmeas : ∀ n, Measurable fun ω : (ℕ → ℝ × (Fin d → ℝ)) × ℕ × (ℕ → ℕ) => ω.1 n := fun n => by fun_prop
    rw [iIndepFun_iff_map_fun_eq_infinitePi_map hmeas]
    simp only [fun n => (hlaw n).map_eq]
    exact m1.map_eq
  · exact (indepFun_prod (X := fun ω : ℕ → ℝ × (Fin d → ℝ) => ω) (Y := fun ω : ℕ × (ℕ → ℕ) => ω.1) measurable_id
      measurable_fst).symm
  · intro b hb
    have h := ((measurePreserving_eval_infinitePi
      (fun k : ℕ => poissonMeasure (mass.get (unravelIdx mass.shape k)).toNNReal) (ravelIdx mass.shape b)).comp m3).hasLaw
    rw [unravel_ravelIdx hb] at h
    exact h

/-- The densities `1, 0, 0` on the edges `0, 1, 2`, for any threshold. -/
lemma exOutliers {srt : List ℝ → List ℕ} (hs : ∀ l, IsArgsort (srt l) l) (thr : ℝ) :
    ∃ o, SampleOutliers.init srt [[(0 : ℝ), 1, 2]] exDens1 thr = .ok o ∧ (o.grid.mass.shape = fun _ => 2) ∧
      o.grid.mass.get (fun _ => 0) = 1 / 2 ∧ o.grid.mass.get (fun _ => 1) = 0 := by
  obtain ⟨M, hM, hsh, hm0, hm1⟩ := exDens1_mass
  have hlen : (M.map fun x : ℝ => if thr < x then (0 : ℝ) else x).flat.length = 2 := by
    rw [NDArr.flat_length, NDArr.size]; simp [NDArr.map, hsh]
  have hperm := (hs (M.map fun x : ℝ => if thr < x then (0 : ℝ) else x).flat).1
  have hcum : ∃ p, dataToCumulative srt (M.map fun x : ℝ => if thr < x then (0 : ℝ) else x).flat = .ok p := by
    unfold dataToCumulative
    simp only [npCumsum_getLast?]
    have : srt (M.map fun x : ℝ => if thr < x then (0 : ℝ) else x).flat ≠ [] := by
      intro h0
      have := hperm.length_eq
      rw [h0, List.length_range, hlen] at this
      simp at this
    simp only [List.map_eq_nil_iff, if_neg this]
    exact ⟨_, rfl⟩
  obtain ⟨⟨idx, csum⟩, hp⟩ := hcum
  have hi : initMasses [[(0 : ℝ), 1, 2]] exDens1 none none none = .ok (M, none) := by
    unfold initMasses
    rw [if_pos ⟨exDens1_match, by intro m h; cases h⟩]
    simp only [massArg, hM, scalarMassArg]; rfl
  have hinit : ∃ o, SampleOutliers.init srt [[(0 : ℝ), 1, 2]] exDens1 thr = .ok o ∧ o.grid.mass = M := by
    unfold SampleOutliers.init
    rw [hi]
    change ∃ o, (dataToCumulative srt (M.map fun x : ℝ => if thr < x then (0 : ℝ) else x).flat >>= _) = _ ∧ _
    rw [hp]
    exact ⟨_, rfl, rfl⟩
  obtain ⟨o, ho, rfl⟩ := hinit
  exact ⟨o, ho, by funext i; rw [hsh], hm0, hm1⟩

lemma exOutliers_sum {m : NDArr 1 ℝ} (h : m.shape = fun _ => 2) (h0 : m.get (fun _ => 0) = 1 / 2) (h1 : m.get (fun _ => 1) = 0) :
    Spec.lowMass m 1 = 1 / 2 := by
  have e : (validIdx m.shape).filter (fun b => m.get b ≤ 1) = {fun _ => 0, fun _ => 1} := by
    ext b
    rw [Finset.mem_filter, mem_validIdx, Finset.mem_insert, Finset.mem_singleton, h]
    constructor
    · rintro ⟨hv, -⟩
      have : b 0 < 2 := hv 0
      rcases (by omega : b 0 = 0 ∨ b 0 = 1) with hb | hb
      · left; funext i; rw [Subsingleton.elim i 0, hb]
      · right; funext i; rw [Subsingleton.elim i 0, hb]
    · rintro (rfl | rfl)
      · exact ⟨fun i => by norm_num, by rw [h0]; norm_num⟩
      · exact ⟨fun i => by norm_num, by rw [h1]; norm_num⟩
  rw [Spec.lowMass, e, Finset.sum_pair (by intro h; have := congrFun h 0; simp at this), h0, h1]
  norm_num

lemma exOutliers_nonneg {m : NDArr 1 ℝ} (h : m.shape = fun _ => 2) (h0 : m.get (fun _ => 0) = 1 / 2)
    (h1 : m.get (fun _ => 1) = 0) : ∀ b, ValidIdx m.shape b → 0 ≤ m.get b := by
  intro b hv
  rw [h] at hv
  have : b 0 < 2 := hv 0
  rcases (by omega : b 0 = 0 ∨ b 0 = 1) with hb | hb
  · have : b = fun _ => 0 := by funext i; rw [Subsingleton.elim i 0, hb]
    rw [this, h0]; norm_num
  · have : b = fun _ => 1 := by funext i; rw [Subsingleton.elim i 0, hb]
    rw [this, h1]

/-- **C114 is false in full**: for the densities `1, 0, 0` and threshold 1, half a sample is expected in the first bin, and
none is ever drawn. -/
theorem C114_refuted : ¬ C114_Claim := by
  intro h
  obtain ⟨srt, hs⟩ := exists_argsort
  obtain ⟨o, ho, hsh, h0, h1⟩ := exOutliers hs 1
  have hinc : ∀ e ∈ [[(0 : ℝ), 1, 2]], e.Pairwise (· < ·) := by
    intro e he; simp only [List.mem_singleton] at he; subst he; norm_num
  have hd : ∀ idx, ValidIdx exDens1.shape idx → 0 ≤ exDens1.get idx := by
    intro idx _; simp only [exDens1]; split <;> norm_num
  have hm := exOutliers_nonneg hsh h0 h1
  obtain ⟨Ω, _, μ, r, pr, hr⟩ := exists_outlierNumbers (Spec.lowMass o.grid.mass 1) o.grid.mass
  have hu := h srt hs _ _ 1 none o ho hinc zero_le_one hd hm μ r pr hr false false false (by simp)
  obtain ⟨n, hn⟩ := (C114_iff hs ho hinc zero_le_one hd hm hr false false (by simp)).mp hu
  rw [exOutliers_sum hsh h0 h1] at hn
  have h2 : (2 * n : ℤ) = 1 := by
    have : ((2 * n : ℤ) : ℝ) = ((1 : ℤ) : ℝ) := by push_cast; linarith
    exact_mod_cast this
  omega

/-- The hypotheses of `C114_partial` are met by the densities `1, 0, 0`, threshold 1 and `poisson_outside=True`: half a sample
is expected in the first bin. -/
example : ∃ (srt : List ℝ → List ℕ) (o : SampleOutliers 1) (Ω : Type) (_ : MeasurableSpace Ω) (μ : Measure Ω) (r : Ω → Rand 1)
    (pr : Ω → PoissonRand), SampleOutliers.init srt [[0, 1, 2]] exDens1 1 = .ok o ∧
    Spec.Unbiased μ (fun ω => o.sample (r ω) (pr ω) true true false) [[0, 1, 2]] o.grid.mass ∧
    o.grid.mass.get (fun _ => 0) = 1 / 2 := by
  obtain ⟨srt, hs⟩ := exists_argsort
  obtain ⟨o, ho, hsh, h0, h1⟩ := exOutliers hs 1
  have hinc : ∀ e ∈ [[(0 : ℝ), 1, 2]], e.Pairwise (· < ·) := by
    intro e he; simp only [List.mem_singleton] at he; subst he; norm_num
  have hd : ∀ idx, ValidIdx exDens1.shape idx → 0 ≤ exDens1.get idx := by
    intro idx _; simp only [exDens1]; split <;> norm_num
  obtain ⟨Ω, mΩ, μ, r, pr, hr⟩ := exists_outlierNumbers (Spec.lowMass o.grid.mass 1) o.grid.mass
  exact ⟨srt, o, Ω, mΩ, μ, r, pr, ho, C114_partial hs ho hinc zero_le_one hd (exOutliers_nonneg hsh h0 h1) hr true true false
    (by simp) (.inl rfl), h0⟩

end Kalepy
