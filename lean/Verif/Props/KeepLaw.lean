import Verif.Props.SampleMoments

/-!
# C170: what `keep` does to the distribution of the samples
-/

namespace Kalepy

open MeasureTheory ProbabilityTheory Matrix

variable {d : ℕ}

/-! ## Specification -/

open Classical in
/-- The point with the kept coordinates of `p` and the other coordinates of `y`. -/
noncomputable def Spec.combine (keep : KeepArg) (p y : Fin d → ℝ) : Fin d → ℝ := fun i => if Spec.Kept keep i then p i else y i

/-- All dimensions named by `keep` exist. -/
def Spec.KeepExists (d : ℕ) (keep : KeepArg) : Prop := ∀ l, keep = .dims l → ∀ q ∈ l, -(d : ℤ) ≤ q ∧ q < d

/-- The `n`-th sample is in `A`. -/
def Spec.NthIn (r : Res (Samples d)) (n : ℕ) (A : Set (Fin d → ℝ)) : Prop :=
  ∃ s x, r = .ok s ∧ s.points[n]? = some x ∧ x ∈ A

/-! ## Same random numbers -/

lemma keepDims_exists {keep : KeepArg} (hk : Spec.KeepExists d keep) : ∃ ps, keepDims d keep = .ok ps := by
  cases keep with
  | none => exact ⟨_, rfl⟩
  | «true» => exact ⟨_, rfl⟩
  | «false» => exact ⟨_, rfl⟩
  | dims l =>
    refine listSeq_exists fun q hq => ?_
    have hq := hk l rfl q hq
    by_cases h0 : 0 ≤ q
    · exact ⟨⟨q.toNat, by omega⟩, dimIndex_of _ (Or.inl (by simp [h0]))⟩
    · exact ⟨⟨(q + d).toNat, by omega⟩, dimIndex_of _ (Or.inr (by have := hq.1; simp only; omega))⟩

/-- Everything but the kept dimensions is the same. -/
lemma resampleClear_keep {D : Dist} {data : List (Fin d → ℝ)} {size : ℕ} {w : Option (List ℝ)}
    {M : Matrix (Fin d) (Fin d) ℝ} {keep : KeepArg} {rnd : ℕ → Draw d} {l : List (Fin d → ℝ)}
    (h : resampleClear D data size w M keep rnd = .ok l) :
    ∃ means noise : List (Fin d → ℝ), ∀ keep' ps', keepDims d keep' = .ok ps' →
      resampleClear D data size w M keep' rnd = .ok (List.zipWith (fun m x => m + zeroDims ps' x) means noise) := by
  unfold resampleClear at h
  split at h
  · cases h
  rename_i noise hnoise
  split at h
  · cases h
  rename_i noise' hadd
  split at h
  · cases h
  rename_i ps hps
  split at h
  case isFalse => cases h
  rename_i hch
  split at h
  · cases h
  rename_i means hmeans
  refine ⟨means, noise', fun keep' ps' hps' => ?_⟩
  unfold resampleClear
  simp only [hnoise, hadd, hps', hch, if_true, hmeans]

/-- **C170.** With the same random numbers, `resample(keep=...)` without boundaries returns the kept coordinates of what
`resample(keep=True)` returns and the other coordinates of what `resample()` returns; all three calls return or none does. -/
theorem C170_combine {E : Ext} {a : KDEArgs d} {k : KDE d} (h : KDE.init E a = .ok k) (size : Option ℕ) {keep keep' : KeepArg}
    (hk : Spec.KeepExists d keep) (hk' : Spec.KeepExists d keep') (reflect : Reflect) (squeeze : Bool) (rnd : ℕ → ℕ → Draw d) {s : Samples d}
    (hs : k.resample size keep reflect squeeze rnd = .ok s) (hb : Spec.boundaries k reflect = .ok none) :
    ∃ s' b t, k.resample size keep' reflect squeeze rnd = .ok s' ∧ k.resample size .true reflect squeeze rnd = .ok b ∧
      k.resample size .none reflect squeeze rnd = .ok t ∧
      s.points = List.zipWith (Spec.combine keep) b.points t.points ∧
      s'.points = List.zipWith (Spec.combine keep') b.points t.points ∧
      b.points.length = size.getD a.dataset.length ∧ t.points.length = size.getD a.dataset.length := by
  rcases resample_inv h hs with ⟨_, h1⟩ | ⟨rows, draws, h0, _⟩
  swap
  · rw [h0] at hb; cases hb
  obtain ⟨means, noise, hall⟩ := resampleClear_keep h1
  have hret : ∀ kp ps, keepDims d kp = .ok ps → ∃ v, k.resample size kp reflect squeeze rnd = .ok v ∧
      v.points = List.zipWith (fun m x => m + zeroDims ps x) means noise := by
    intro kp ps hps
    refine ⟨squeezeSamples squeeze (List.zipWith (fun m x => m + zeroDims ps x) means noise), ?_, squeezeSamples_points _ _⟩
    rw [resample_eq h, hb]
    simp only [Except.bind]
    rw [hall kp ps hps]
    rfl
  have hcomb : ∀ kp ps, keepDims d kp = .ok ps → List.zipWith (fun m x => m + zeroDims ps x) means noise
      = List.zipWith (Spec.combine kp) (List.zipWith (fun m x => m + zeroDims (List.finRange d) x) means noise)
        (List.zipWith (fun m x => m + zeroDims [] x) means noise) := by
    intro kp ps hps
    clear hall hret
    induction means generalizing noise with
    | nil => simp
    | cons m means ih =>
      cases noise with
      | nil => simp
      | cons x noise =>
        simp only [List.zipWith_cons_cons]
        rw [ih]
        congr 1
        funext i
        have hi := keepDims_spec hps i
        by_cases hc : Spec.Kept kp i
        · simp [Spec.combine, zeroDims, hc, hi.mpr hc]
        · have h3 : i ∉ ps := fun h' => hc (hi.mp h')
          simp [Spec.combine, zeroDims, hc, h3]
  obtain ⟨ps, hps⟩ := keepDims_exists hk
  obtain ⟨ps', hps'⟩ := keepDims_exists hk'
  obtain ⟨v, hv, hvp⟩ := hret keep ps hps
  obtain ⟨v', hv', hvp'⟩ := hret keep' ps' hps'
  obtain ⟨b, hB, hbp⟩ := hret .true _ rfl
  obtain ⟨t, ht, htp⟩ := hret .none _ rfl
  rw [hs] at hv
  cases hv
  refine ⟨v', b, t, hv', hB, ht, ?_, ?_, C26_size h _ _ _ _ _ _ hB, C26_size h _ _ _ _ _ _ ht⟩
  · rw [hvp, hbp, htp]
    exact hcomb _ _ hps
  · rw [hvp', hbp, htp]
    exact hcomb _ _ hps'

/-- **C170**, consequence for any random generator: regions that are described by coordinates which are not kept contain the
`n`-th sample with `keep` exactly when they contain it without. -/
theorem C170_others {E : Ext} {a : KDEArgs d} {k : KDE d} (h : KDE.init E a = .ok k) (size : Option ℕ) {keep : KeepArg}
    (hk : Spec.KeepExists d keep) (reflect : Reflect) (squeeze : Bool) (rnd : ℕ → ℕ → Draw d)
    (hb : Spec.boundaries k reflect = .ok none) (n : ℕ) (A : Set (Fin d → ℝ))
    (hA : ∀ x y : Fin d → ℝ, (∀ i, ¬ Spec.Kept keep i → x i = y i) → x ∈ A → y ∈ A) :
    Spec.NthIn (k.resample size keep reflect squeeze rnd) n A ↔ Spec.NthIn (k.resample size .none reflect squeeze rnd) n A := by
  have key : ∀ (s b t : Samples d), s.points = List.zipWith (Spec.combine keep) b.points t.points →
      b.points.length = t.points.length → ∀ x, t.points[n]? = some x → ∃ y, s.points[n]? = some y ∧ ∀ i, ¬ Spec.Kept keep i → y i = x i := by
    intro s b t he hl x hx
    have hn : n < t.points.length := by
      by_contra hc
      rw [List.getElem?_eq_none (by omega)] at hx
      cases hx
    have hy : b.points[n]? = some b.points[n] := List.getElem?_eq_getElem (by omega)
    refine ⟨Spec.combine keep b.points[n] x, ?_, fun i hi => ?_⟩
    · rw [he, List.getElem?_zipWith, hy, hx]
    · simp [Spec.combine, hi]
  constructor
  · rintro ⟨s, y, hs, hy, hyA⟩
    obtain ⟨_, b, t, _, _, ht, he, _, l1, l2⟩ := C170_combine h size hk hk reflect squeeze rnd hs hb
    have hn : n < t.points.length := by
      by_contra hc
      rw [he, List.getElem?_eq_none (by rw [List.length_zipWith]; omega)] at hy
      cases hy
    obtain ⟨y', hy', hag⟩ := key s b t he (l1.trans l2.symm) t.points[n] (List.getElem?_eq_getElem hn)
    rw [hy] at hy'
    cases hy'
    exact ⟨t, t.points[n], ht, List.getElem?_eq_getElem hn, hA y _ hag hyA⟩
  · rintro ⟨t, x, ht, hx, hxA⟩
    obtain ⟨s, b, t', hs, _, ht', _, he, l1, l2⟩ := C170_combine h size (keep := .none) (fun l hl => by cases hl) hk reflect squeeze rnd ht hb
    rw [ht] at ht'
    cases ht'
    obtain ⟨y, hy, hag⟩ := key s b t he (l1.trans l2.symm) x hx
    exact ⟨s, y, hs, hy, hA x y (fun i hi => (hag i hi).symm) hxA⟩

/-! ## Distribution -/

lemma measurable_combine (keep : KeepArg) (p : Fin d → ℝ) (L : Matrix (Fin d) (Fin d) ℝ) :
    Measurable fun z : Fin d → ℝ => Spec.combine keep p (p + L *ᵥ z) := by
  refine measurable_pi_lambda _ fun i => ?_
  unfold Spec.combine
  by_cases hi : Spec.Kept keep i
  · simp only [hi, if_true]
    exact measurable_const
  · simp only [hi, if_false]
    exact (measurable_pi_apply i).comp
      (((LinearMap.continuous_of_finiteDimensional (toLin' L)).measurable).const_add p)

/-- **C170.** Distribution of samples with `keep`, without boundaries, for independent random numbers: the samples are independent;
each is obtained by choosing one data point with probability proportional to its weight and replacing its coordinates
that are not kept by those of the data point plus kernel noise.  The noise has one and the same law `N` for all choices of `keep`;
for kernels that are sampled exactly it is the normalised kernel. -/
theorem C170_law {E : Ext} {a : KDEArgs d} {k : KDE d} (h : KDE.init E a = .ok k) (hd : 0 < d)
    (hr : a.reflect = .none) (hM : (Spec.kernelMatrix k.covariance k.bandwidth).PosDef) :
    ∃ N : Measure (Fin d → ℝ), IsProbabilityMeasure N ∧
      (Spec.ExactSampler k.kernel.dist d → ∀ A, MeasurableSet A → N A = ∫⁻ z in A, ENNReal.ofReal
        (Spec.shape k.kernel.dist (Spec.dist2 (Spec.kernelMatrix k.covariance k.bandwidth) z)
          / (Real.sqrt (Spec.kernelMatrix k.covariance k.bandwidth).det * k.kernel.dist.norm d))) ∧
      ∀ keep : KeepArg, Spec.KeepExists d keep →
      ∀ {Ω : Type} [MeasurableSpace Ω] (μ : Measure Ω) (rnd : Ω → ℕ → ℕ → Draw d), Spec.RandomNumbers μ rnd →
        ∀ (size : ℕ) (squeeze : Bool), ∃ X : Fin size → Ω → Fin d → ℝ,
          (∀ᵐ ω ∂μ, ∃ s, k.resample (some size) keep .none squeeze (rnd ω) = .ok s ∧ s.points = List.ofFn fun n => X n ω) ∧
          iIndepFun X μ ∧
          ∀ n, AEMeasurable (X n) μ ∧ ∀ A, MeasurableSet A → μ {ω | X n ω ∈ A} = ∑ j ∈ Finset.range a.dataset.length,
            ENNReal.ofReal (Spec.weightAt k.weights j / ((Spec.weighted a.dataset k.weights).map Prod.snd).sum)
              * N {z | Spec.combine keep (a.dataset.getD j 0) (a.dataset.getD j 0 + z) ∈ A} := by
  have hdat : k.dataset = a.dataset := by
    obtain ⟨_, _, _, _, _, _, _, _, _, _, _, _, _, _, _, _, _, _, he⟩ := init_inv h; rw [he]
  have hne : a.dataset ≠ [] := by
    obtain ⟨_, _, _, _, _, _, _, _, _, hne, _⟩ := init_inv h
    exact hne
  have hn : 0 < a.dataset.length := List.length_pos_iff.mpr hne
  have hkr : k.reflect = none := by
    obtain ⟨_, _, _, _, _, _, _, _, hr', _, _, _, _, _, _, _, _, _, he⟩ := init_inv h
    rw [he]
    rw [hr] at hr'
    simpa [checkReflect, eq_comm] using hr'
  have hb : Spec.boundaries k .none = .ok none := by simp [Spec.boundaries, hkr]
  have hw : OkW a.dataset.length k.weights := by
    intro l hl
    rw [← hdat]
    exact stored_weights h hl
  have hK := (C18_matrix h).1
  obtain ⟨U, hU⟩ := cholesky_of_posDef hM
  have hL : Uᵀ * Uᵀᵀ = Spec.kernelMatrix k.covariance k.bandwidth := by
    rw [transpose_transpose]
    exact cholesky_mul hM.isHermitian hU
  have hUm : Measurable fun z : Fin d → ℝ => Uᵀ *ᵥ z :=
    (LinearMap.continuous_of_finiteDimensional (toLin' Uᵀ)).measurable
  refine ⟨(noiseLaw k.kernel.dist d).map fun z => Uᵀ *ᵥ z, Measure.isProbabilityMeasure_map hUm.aemeasurable, ?_, ?_⟩
  · intro hD A hA
    have hnl : noiseLaw k.kernel.dist d = volume.withDensity (noiseDensity k.kernel.dist d) := by
      have h1 : (noiseLaw k.kernel.dist d).prod Spec.unitLaw
          = (volume.withDensity (noiseDensity k.kernel.dist d)).prod Spec.unitLaw := by
        rw [← (joint_law_all k.kernel.dist).map_eq, ← (joint_law hD).map_eq]
        congr 1
        funext t
        congr 1
        rcases hD with h1 | ⟨h1, h2 | h2⟩
        · rw [h1]; rfl
        · rw [h2]; simp only [noiseFn, if_pos h1]; rfl
        · rw [h2]; rfl
      have h2 := congrArg (Measure.map Prod.fst) h1
      rwa [Measure.map_fst_prod, Measure.map_fst_prod, measure_univ, one_smul, one_smul] at h2
    rw [Measure.map_apply hUm hA, hnl]
    have := noise_coloured k.kernel.dist hM hL 0 hA
    simp only [zero_add, sub_zero] at this
    exact this
  · intro keep hk Ω _ μ rnd hrnd size squeeze
    have hprob : IsProbabilityMeasure μ := (hrnd.law 0 0).isProbabilityMeasure
    obtain ⟨ps, hps⟩ := keepDims_exists hk
    obtain ⟨f, hf⟩ : ∃ f : (Fin d → ℝ) × ℝ → Fin d → ℝ, f = fun p =>
        Spec.combine keep (a.dataset.getD (choiceIndex a.dataset.length k.weights p.2) 0)
          (a.dataset.getD (choiceIndex a.dataset.length k.weights p.2) 0 + Uᵀ *ᵥ p.1) := ⟨_, rfl⟩
    have hfm : Measurable f := by
      rw [hf]
      have h1 : Measurable fun q : (Fin d → ℝ) × ℕ => Spec.combine keep (a.dataset.getD q.2 0) (a.dataset.getD q.2 0 + Uᵀ *ᵥ q.1) :=
        measurable_from_prod_countable_left fun j => measurable_combine keep (a.dataset.getD j 0) Uᵀ
      exact h1.comp (measurable_fst.prodMk ((measurable_choiceIndex _ _).comp measurable_snd))
    have hphi : Measurable fun t : DrawTuple d => f (noiseFn k.kernel.dist (noiseTuple t), t.2.2.2.2) :=
      hfm.comp (joint_law_all k.kernel.dist).measurable
    refine ⟨fun n ω => f (noiseFn k.kernel.dist (noiseTuple (rnd ω 0 n).tuple), (rnd ω 0 n).pick), ?_, ?_, fun n => ⟨?_, fun A hA => ?_⟩⟩
    · have hgood : ∀ n, ∀ᵐ ω ∂μ, rad (rnd ω 0 n).gauss ≠ 0 ∧ (∀ i, 0 ≤ (rnd ω 0 n).unif i ∧ (rnd ω 0 n).unif i < 1) ∧
          0 ≤ (rnd ω 0 n).pick ∧ (rnd ω 0 n).pick < 1 := by
        intro n
        have h3 := ae_good hd
        have h4 := hrnd.law 0 n
        rw [← h4.map_eq] at h3
        exact ae_of_ae_map h4.aemeasurable h3
      filter_upwards [ae_all_iff.mpr hgood] with ω hω
      have hsam := fun n => sample_noiseFn k.kernel.dist (hω n).2.1 (hω n).1
      obtain ⟨s, hs⟩ := resample_returns h hM (some size) keep hk .none squeeze (rnd ω)
        (fun n => ⟨_, hsam n⟩) (fun n => (hω n).2.2) hb
      refine ⟨s, hs, ?_⟩
      rcases resample_inv h hs with ⟨_, h1⟩ | ⟨rows, draws, h0, _⟩
      swap
      · rw [h0] at hb; cases hb
      obtain ⟨hlen, V, qs, hV, hqs, _, hall⟩ := resampleClear_inv h1
      rw [hK, hU, Option.some.injEq] at hV
      subst hV
      simp only [Option.getD_some] at hlen
      refine List.ext_getElem (by simp [hlen]) fun n hn _ => ?_
      obtain ⟨u, m, hu, hm, e⟩ := hall n hn
      rw [hsam, Except.ok.injEq] at hu
      subst hu
      have hmem := choiceDatum_mem hm
      rw [hdat] at hmem
      have hm' : a.dataset.getD (choiceIndex a.dataset.length k.weights (rnd ω 0 n).pick) 0 = m := by
        rw [List.getD_eq_getElem?_getD, hmem]
        rfl
      have hfe : f (noiseFn k.kernel.dist (noiseTuple (rnd ω 0 n).tuple), (rnd ω 0 n).pick)
          = Spec.combine keep m (m + Uᵀ *ᵥ noiseFn k.kernel.dist (noiseTuple (rnd ω 0 n).tuple)) := by
        rw [hf]
        dsimp only
        rw [hm']
      rw [e, List.getElem_ofFn]
      refine Eq.trans ?_ hfe.symm
      funext i
      have hi := keepDims_spec hqs i
      by_cases hc : Spec.Kept keep i
      · simp [Spec.combine, zeroDims, hc, hi.mpr hc]
      · have h3 : i ∉ qs := fun h' => hc (hi.mp h')
        simp [Spec.combine, zeroDims, hc, h3]
    · have h1 := hrnd.indep.precomp (g := fun n : Fin size => ((0 : ℕ), (n : ℕ)))
        fun i j hij => Fin.ext (Prod.ext_iff.mp hij).2
      exact h1.comp (fun _ => _) fun _ => hphi
    · exact hphi.comp_aemeasurable (hrnd.law 0 n).aemeasurable
    · have hlaw := (hrnd.law 0 n).map_eq
      have h1 : μ {ω | f (noiseFn k.kernel.dist (noiseTuple (rnd ω 0 n).tuple), (rnd ω 0 n).pick) ∈ A}
          = ((noiseLaw k.kernel.dist d).prod Spec.unitLaw) (f ⁻¹' A) := by
        rw [← (joint_law_all k.kernel.dist).map_eq, Measure.map_apply (joint_law_all k.kernel.dist).measurable (hfm hA), ← hlaw,
          Measure.map_apply_of_aemeasurable (hrnd.law 0 n).aemeasurable ((joint_law_all k.kernel.dist).measurable (hfm hA))]
        rfl
      rw [h1, Measure.prod_apply_symm (hfm hA)]
      have h2 : ∀ u : ℝ, noiseLaw k.kernel.dist d ((fun x => (x, u)) ⁻¹' (f ⁻¹' A))
          = (fun j : ℕ => (noiseLaw k.kernel.dist d) {z | Spec.combine keep (a.dataset.getD j 0) (a.dataset.getD j 0 + Uᵀ *ᵥ z) ∈ A})
            (choiceIndex a.dataset.length k.weights u) := by
        intro u
        rw [hf]
        rfl
      rw [lintegral_congr h2, lintegral_choice hn hw fun j => (noiseLaw k.kernel.dist d)
        {z | Spec.combine keep (a.dataset.getD j 0) (a.dataset.getD j 0 + Uᵀ *ᵥ z) ∈ A}, ← totW_eq a.dataset hw]
      refine Finset.sum_congr rfl fun j _ => ?_
      congr 1
      have h3 := measurable_combine keep (a.dataset.getD j 0) (1 : Matrix (Fin d) (Fin d) ℝ)
      simp only [one_mulVec] at h3
      exact (Measure.map_apply hUm (h3 hA)).symm

/-- Probabilities of the `n`-th sample from an almost sure representation. -/
lemma nthIn_measure {Ω : Type} [MeasurableSpace Ω] {μ : Measure Ω} {size : ℕ} {X : Fin size → Ω → Fin d → ℝ}
    {r : Ω → Res (Samples d)} (hX : ∀ᵐ ω ∂μ, ∃ s, r ω = .ok s ∧ s.points = List.ofFn fun n => X n ω) (n : Fin size)
    (A : Set (Fin d → ℝ)) : μ {ω | Spec.NthIn (r ω) n A} = μ {ω | X n ω ∈ A} := by
  refine measure_congr ?_
  filter_upwards [hX] with ω hω
  obtain ⟨s, hs, he⟩ := hω
  refine propext ⟨?_, fun hm => ⟨s, X n ω, hs, by rw [he]; simp, hm⟩⟩
  rintro ⟨s', x, hs', hx, hxA⟩
  rw [hs] at hs'
  cases hs'
  rw [he] at hx
  simp only [List.getElem?_ofFn, n.2, dite_true, Option.some.injEq] at hx
  subst hx
  exact hxA

/-- **C170.** A region that is described by kept coordinates contains each sample with the probability with which it
contains a data point chosen in proportion to the weights: on the kept coordinates the samples are a weighted bootstrap. -/
theorem C170_kept {E : Ext} {a : KDEArgs d} {k : KDE d} (h : KDE.init E a = .ok k) (hd : 0 < d)
    (hr : a.reflect = .none) (hM : (Spec.kernelMatrix k.covariance k.bandwidth).PosDef) (keep : KeepArg)
    (hk : Spec.KeepExists d keep) {Ω : Type} [MeasurableSpace Ω] (μ : Measure Ω) (rnd : Ω → ℕ → ℕ → Draw d)
    (hrnd : Spec.RandomNumbers μ rnd) (size : ℕ) (squeeze : Bool) (n : Fin size) (A : Set (Fin d → ℝ)) (hAm : MeasurableSet A)
    (hA : ∀ x y : Fin d → ℝ, (∀ i, Spec.Kept keep i → x i = y i) → x ∈ A → y ∈ A) :
    μ {ω | Spec.NthIn (k.resample (some size) keep .none squeeze (rnd ω)) n A}
      = ∑ j ∈ Finset.range a.dataset.length,
        ENNReal.ofReal (Spec.weightAt k.weights j / ((Spec.weighted a.dataset k.weights).map Prod.snd).sum)
          * A.indicator 1 (a.dataset.getD j 0) := by
  obtain ⟨N, hN, _, hall⟩ := C170_law h hd hr hM
  obtain ⟨X, hX, _, hl⟩ := hall keep hk μ rnd hrnd size squeeze
  rw [nthIn_measure hX, (hl n).2 A hAm]
  refine Finset.sum_congr rfl fun j _ => ?_
  congr 1
  have hiff : ∀ z : Fin d → ℝ, Spec.combine keep (a.dataset.getD j 0) (a.dataset.getD j 0 + z) ∈ A ↔ a.dataset.getD j 0 ∈ A :=
    fun z => ⟨hA _ _ fun i hi => by simp [Spec.combine, hi], hA _ _ fun i hi => by simp [Spec.combine, hi]⟩
  simp only [hiff]
  by_cases hj : a.dataset.getD j 0 ∈ A
  · rw [Set.indicator_of_mem hj]
    simp only [hj, Set.setOf_true, measure_univ, Pi.one_apply]
  · rw [Set.indicator_of_notMem hj]
    simp only [hj, Set.setOf_false, measure_empty]

/-- **C170.** For the kernels that are sampled exactly, a region that is described by coordinates which are not kept contains
each sample with the probability that `pdf` assigns to it. -/
theorem C170_pdf {E : Ext} {a : KDEArgs d} {k : KDE d} (h : KDE.init E a = .ok k) (srt : List ℝ → List ℕ) (hd : 0 < d)
    (hr : a.reflect = .none) (hM : (Spec.kernelMatrix k.covariance k.bandwidth).PosDef)
    (hD : Spec.ExactSampler k.kernel.dist d) :
    ∃ F : (Fin d → ℝ) → ℝ,
      (∀ pts : List (Fin d → ℝ), (k.pdf E srt (some (.rows (Spec.rowsOf pts))) .none .none false).1
        = .ok (.rows (Spec.rowsOf pts), ⟨[pts.length], pts.map F⟩)) ∧
      ∀ (keep : KeepArg), Spec.KeepExists d keep → ∀ {Ω : Type} [MeasurableSpace Ω] (μ : Measure Ω) (rnd : Ω → ℕ → ℕ → Draw d),
        Spec.RandomNumbers μ rnd → ∀ (size : ℕ) (squeeze : Bool) (n : Fin size) (A : Set (Fin d → ℝ)), MeasurableSet A →
        (∀ x y : Fin d → ℝ, (∀ i, ¬ Spec.Kept keep i → x i = y i) → x ∈ A → y ∈ A) →
        μ {ω | Spec.NthIn (k.resample (some size) keep .none squeeze (rnd ω)) n A} = ∫⁻ x in A, ENNReal.ofReal (F x) := by
  have hkr : k.reflect = none := by
    obtain ⟨_, _, _, _, _, _, _, _, hr', _, _, _, _, _, _, _, _, _, he⟩ := init_inv h
    rw [he]
    rw [hr] at hr'
    simpa [checkReflect, eq_comm] using hr'
  have hb : Spec.boundaries k .none = .ok none := by simp [Spec.boundaries, hkr]
  obtain ⟨F, hF, hall⟩ := C84_partial h srt hd hr hM hD
  refine ⟨F, hF, fun keep hk Ω _ μ rnd hrnd size squeeze n A hAm hA => ?_⟩
  simp only [C170_others h (some size) hk .none squeeze (rnd _) hb n A hA]
  obtain ⟨X, hX, hl, _⟩ := hall μ rnd hrnd size squeeze
  rw [nthIn_measure hX, ← withDensity_apply _ hAm, ← (hl n).map_eq, Measure.map_apply_of_aemeasurable (hl n).aemeasurable hAm]
  rfl

/-- Concrete case: three weighted data in the plane, parabola kernel, second coordinate kept; half-planes are
regions of both kinds. -/
example : ∃ (a : KDEArgs 2) (k : KDE 2), KDE.init ⟨fun A => A, id⟩ a = .ok k ∧ a.reflect = .none ∧
    (Spec.kernelMatrix k.covariance k.bandwidth).PosDef ∧ k.kernel.dist = .parabola ∧ Spec.KeepExists 2 (.dims [-1]) ∧
    (∀ x y : Fin 2 → ℝ, (∀ i, Spec.Kept (.dims [-1]) i → x i = y i) → x ∈ {p : Fin 2 → ℝ | 2 ≤ p 1} → y ∈ {p : Fin 2 → ℝ | 2 ≤ p 1}) ∧
    (∀ x y : Fin 2 → ℝ, (∀ i, ¬ Spec.Kept (.dims [-1]) i → x i = y i) → x ∈ {p : Fin 2 → ℝ | 2 ≤ p 0} → y ∈ {p : Fin 2 → ℝ | 2 ≤ p 0}) ∧
    ∃ (Ω : Type) (_ : MeasurableSpace Ω) (μ : Measure Ω) (rnd : Ω → ℕ → ℕ → Draw 2), Spec.RandomNumbers μ rnd := by
  obtain ⟨k, hk, _, hD, hM⟩ := unit_init (d := 2) ⟨fun A => A, id⟩ [![0, 5], ![1, 1], ![3, 2]] (by simp) [1, 2, 1]
    (by norm_num [Spec.ValidW]) .parabola rfl
  refine ⟨_, k, hk, rfl, by rw [hM]; exact PosDef.one, hD, ?_, ?_, ?_, _, _, _, _, exists_randomNumbers 2⟩
  · intro l hl q hq
    cases hl
    simp at hq
    omega
  · intro x y hxy hx
    have := hxy 1 (by simp [Spec.Kept])
    simp only [Set.mem_setOf_eq] at hx ⊢
    linarith
  · intro x y hxy hx
    have := hxy 0 (by simp [Spec.Kept])
    simp only [Set.mem_setOf_eq] at hx ⊢
    linarith

end Kalepy
