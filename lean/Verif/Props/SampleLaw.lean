import Mathlib.Probability.Independence.InfinitePi
import Verif.Proofs.Law
import Verif.Props.ResampleWitness
import Verif.Props.Marginal

/-!
# C84: samples follow the density

With random numbers as promised by numpy (`Spec.RandomNumbers`), the samples returned by `resample` are independent and
each has `pdf` as its density.
-/

namespace Kalepy

open MeasureTheory ProbabilityTheory Matrix

variable {d : ℕ}

/-- Specification: with probability one `resample(size)` without boundaries returns samples, they are independent of each
other, and each of them has the density `F`. -/
def Spec.SamplesFollow {Ω : Type} [MeasurableSpace Ω] (k : KDE d) (F : (Fin d → ℝ) → ℝ) (μ : Measure Ω)
    (rnd : Ω → ℕ → ℕ → Draw d) (size : ℕ) (squeeze : Bool) : Prop :=
  ∃ X : Fin size → Ω → Fin d → ℝ,
    (∀ᵐ ω ∂μ, ∃ s, k.resample (some size) .none .none squeeze (rnd ω) = .ok s ∧
      s.points = List.ofFn fun n => X n ω) ∧
    (∀ n, HasLaw (X n) (volume.withDensity fun x => ENNReal.ofReal (F x)) μ) ∧
    iIndepFun X μ

/-- **C84.** Without boundaries, for the Gaussian kernel in every dimension and for the box and parabola kernels in one
dimension: there is a function `F` which is what `pdf` returns at all points, and the samples of every `resample` call
are independent draws from the density `F`. -/
theorem C84_partial {E : Ext} {a : KDEArgs d} {k : KDE d} (h : KDE.init E a = .ok k) (srt : List ℝ → List ℕ)
    (hd : 0 < d) (hr : a.reflect = .none) (hM : (Spec.kernelMatrix k.covariance k.bandwidth).PosDef)
    (hD : Spec.ExactSampler k.kernel.dist d) :
    ∃ F : (Fin d → ℝ) → ℝ,
      (∀ pts : List (Fin d → ℝ), (k.pdf E srt (some (.rows (Spec.rowsOf pts))) .none .none false).1
        = .ok (.rows (Spec.rowsOf pts), ⟨[pts.length], pts.map F⟩)) ∧
      ∀ {Ω : Type} [MeasurableSpace Ω] (μ : Measure Ω) (rnd : Ω → ℕ → ℕ → Draw d), Spec.RandomNumbers μ rnd →
        ∀ (size : ℕ) (squeeze : Bool), Spec.SamplesFollow k F μ rnd size squeeze := by
  refine ⟨fun x => Spec.kernelSum k.kernel.dist (Spec.kernelMatrix k.covariance k.bandwidth)
            (Spec.weighted a.dataset k.weights) x
          / (Real.sqrt (Spec.kernelMatrix k.covariance k.bandwidth).det * k.kernel.dist.norm d)
          / ((Spec.weighted a.dataset k.weights).map Prod.snd).sum,
    fun pts => (C02_kde_density h srt hd hr hM pts).2, fun μ rnd hrnd size squeeze => ?_⟩
  have hdat : k.dataset = a.dataset := by
    obtain ⟨_, _, _, _, _, _, _, _, _, _, _, _, _, _, _, _, _, _, he⟩ := init_inv h; rw [he]
  have hne : a.dataset ≠ [] := by
    obtain ⟨_, _, _, _, _, _, _, _, _, hne, _⟩ := init_inv h
    exact hne
  have hkr : k.reflect = none := by
    obtain ⟨_, _, _, _, _, _, _, _, hr', _, _, _, _, _, _, _, _, _, he⟩ := init_inv h
    rw [he]
    rw [hr] at hr'
    simpa [checkReflect, eq_comm] using hr'
  have hb : Spec.boundaries k .none = .ok none := by simp [Spec.boundaries, hkr]
  have hw : OkW a.dataset.length k.weights := by
    intro l hl
    rw [← hdat]
    exact stored_weights h hl
  have hK := (C18_matrix h).1
  obtain ⟨U, hU⟩ := cholesky_of_posDef hM
  have hL : Uᵀ * Uᵀᵀ = Spec.kernelMatrix k.covariance k.bandwidth := by
    rw [transpose_transpose]
    exact cholesky_mul hM.isHermitian hU
  have hprob : IsProbabilityMeasure μ := (hrnd.law 0 0).isProbabilityMeasure
  have hj := joint_law (d := d) hD
  have hsf : SFinite (volume.withDensity (noiseDensity k.kernel.dist d)) := inferInstance
  have hphi := (sample_law k.kernel.dist hd hne hw hM hL).comp hj
  refine ⟨fun n ω => sampleOf k.kernel.dist a.dataset k.weights Uᵀ
    (noiseOf k.kernel.dist (rnd ω 0 n).tuple, (rnd ω 0 n).pick), ?_, fun n => ?_, ?_⟩
  · have hpick : ∀ n, ∀ᵐ ω ∂μ, 0 ≤ (rnd ω 0 n).pick ∧ (rnd ω 0 n).pick < 1 := by
      intro n
      have h1 : ∀ᵐ u ∂Spec.unitLaw, 0 ≤ u ∧ u < 1 := ae_restrict_mem measurableSet_Ico
      have h2 : ∀ᵐ p ∂((volume.withDensity (noiseDensity k.kernel.dist d)).prod Spec.unitLaw), 0 ≤ p.2 ∧ p.2 < 1 :=
        Measure.quasiMeasurePreserving_snd.ae h1
      have h3 := hj.quasiMeasurePreserving.ae h2
      have h4 := hrnd.law 0 n
      rw [← h4.map_eq] at h3
      exact ae_of_ae_map h4.aemeasurable h3
    filter_upwards [ae_all_iff.mpr hpick] with ω hω
    obtain ⟨s, hs⟩ := resample_returns h hM (some size) .none (by simp) .none squeeze (rnd ω)
      (fun n => ⟨_, sample_noiseOf hD _⟩) hω hb
    refine ⟨s, hs, ?_⟩
    rcases resample_inv h hs with ⟨_, h1⟩ | ⟨rows, draws, h0, _⟩
    swap
    · rw [h0] at hb; cases hb
    obtain ⟨hlen, V, ps, hV, hps, _, hall⟩ := resampleClear_inv h1
    rw [hK, hU, Option.some.injEq] at hV
    subst hV
    simp only [keepDims, Except.ok.injEq] at hps
    subst hps
    simp only [Option.getD_some] at hlen
    refine List.ext_getElem (by simp [hlen]) fun n hn _ => ?_
    obtain ⟨u, m, hu, hm, e⟩ := hall n hn
    rw [sample_noiseOf hD, Except.ok.injEq] at hu
    subst hu
    have hmem := choiceDatum_mem hm
    rw [hdat] at hmem
    rw [e, List.getElem_ofFn]
    have hz : zeroDims ([] : List (Fin d)) (Uᵀ *ᵥ noiseOf k.kernel.dist (rnd ω 0 n).tuple)
        = Uᵀ *ᵥ noiseOf k.kernel.dist (rnd ω 0 n).tuple := by
      funext i
      simp [zeroDims]
    rw [hz, sampleOf, List.getD_eq_getElem?_getD, hmem]
    rfl
  · exact hphi.hasLaw.comp (hrnd.law 0 n)
  · have h1 := hrnd.indep.precomp (g := fun n : Fin size => ((0 : ℕ), (n : ℕ)))
      fun i j hij => Fin.ext (Prod.ext_iff.mp hij).2
    exact h1.comp (fun _ => _) fun _ => hphi.measurable

/-! ## Such random numbers exist -/

/-- A draw from its numbers. -/
def Spec.drawOf (t : DrawTuple d) : Draw d := ⟨t.1, t.2.1, t.2.2.1, t.2.2.2.1, t.2.2.2.2⟩

/-- Random numbers as promised exist. -/
theorem exists_randomNumbers (d : ℕ) :
    Spec.RandomNumbers (Measure.infinitePi fun _ : ℕ × ℕ => Spec.drawLaw d)
      (fun (ω : ℕ × ℕ → DrawTuple d) m n => Spec.drawOf (ω (m, n))) :=
  ⟨fun m n => (measurePreserving_eval_infinitePi (fun _ : ℕ × ℕ => Spec.drawLaw d) (m, n)).hasLaw,
    iIndepFun_infinitePi (X := fun _ t => t) fun _ => measurable_id⟩

/-- Concrete case of the hypotheses of `C84_partial`: three weighted data, parabola kernel, one dimension. -/
example : ∃ (E : Ext) (a : KDEArgs 1) (k : KDE 1), KDE.init E a = .ok k ∧ a.reflect = .none ∧
    (Spec.kernelMatrix k.covariance k.bandwidth).PosDef ∧ Spec.ExactSampler k.kernel.dist 1 ∧
    ∃ (Ω : Type) (_ : MeasurableSpace Ω) (μ : Measure Ω) (rnd : Ω → ℕ → ℕ → Draw 1), Spec.RandomNumbers μ rnd := by
  obtain ⟨k, hk, _, hD, hM⟩ := unit_init (d := 1) ⟨fun A => A, id⟩ [![0], ![1], ![3]] (by simp) [1, 2, 1]
    (by norm_num [Spec.ValidW]) .parabola rfl
  exact ⟨_, _, k, hk, rfl, by rw [hM]; exact PosDef.one, by rw [hD]; exact Or.inr ⟨rfl, Or.inr rfl⟩, _, _, _, _,
    exists_randomNumbers 1⟩

/-- Concrete case with the Gaussian kernel in three dimensions. -/
example : ∃ (E : Ext) (a : KDEArgs 3) (k : KDE 3), KDE.init E a = .ok k ∧ a.reflect = .none ∧
    (Spec.kernelMatrix k.covariance k.bandwidth).PosDef ∧ Spec.ExactSampler k.kernel.dist 3 := by
  obtain ⟨dat, h1, h2⟩ := dataExtrema_spec (data := [![0, 1, 0], ![2, 5, 1]]) (by simp)
  have hk := init_of_stages (E := ⟨fun A => A, id⟩)
    (a := { dataset := [![0, 1, 0], ![2, 5, 1]]
            bandwidth := .val (.num 1)
            covariance := some 1 })
    (reflect := none) (weights := none) (cov := 1) rfl (by simp) rfl rfl rfl rfl rfl
    (by rw [kernelOut, if_neg (by simp [Dist.finite]), if_pos (by simp [effNum])])
    (by rw [effExtrema, if_pos (by simp [Kernel.init, rescaleBw]), h1]) rfl
  refine ⟨_, _, _, hk, rfl, ?_, Or.inl rfl⟩
  have : Spec.kernelMatrix (1 : Matrix (Fin 3) (Fin 3) ℝ) (rescaleBw (Matrix.of fun i j =>
      if false = true ∧ i ≠ j then 0 else (1:ℝ)) .none) = 1 := by
    ext i j
    simp [Spec.kernelMatrix, rescaleBw]
  exact Eq.subst (motive := fun M => M.PosDef) this.symm PosDef.one

/-! ## The full claim is false -/

/-- The full claim: for every kernel, dimension and data the samples follow the density returned by `pdf`. -/
def C84_Claim : Prop :=
  ∀ (d : ℕ) (E : Ext) (a : KDEArgs d) (k : KDE d) (srt : List ℝ → List ℕ) (F : (Fin d → ℝ) → ℝ),
    KDE.init E a = .ok k → 0 < d → a.reflect = .none → (Spec.kernelMatrix k.covariance k.bandwidth).PosDef →
    (∀ pts : List (Fin d → ℝ), (k.pdf E srt (some (.rows (Spec.rowsOf pts))) .none .none false).1
        = .ok (.rows (Spec.rowsOf pts), ⟨[pts.length], pts.map F⟩)) →
    ∀ (Ω : Type) (_ : MeasurableSpace Ω) (μ : Measure Ω) (rnd : Ω → ℕ → ℕ → Draw d), Spec.RandomNumbers μ rnd →
      ∀ (size : ℕ) (squeeze : Bool), Spec.SamplesFollow k F μ rnd size squeeze

/-- Numbers for the three uniform deviates of each component which lead to a sample outside of the unit disc. -/
def farTuples : Set (DrawTuple 2) :=
  Set.univ ×ˢ (Set.univ ×ˢ (Set.univ ×ˢ ((Set.univ.pi fun _ => Set.Ioi (4 / 5) ×ˢ (Set.Ioi (4 / 5) ×ˢ Set.Ioi (4 / 5)))
    ×ˢ Set.univ)))

lemma farTuples_pos : Spec.drawLaw 2 farTuples ≠ 0 := by
  have h : Spec.symLaw (Set.Ioi (4 / 5)) ≠ 0 := by
    rw [Spec.symLaw, Measure.smul_apply, Measure.restrict_apply measurableSet_Ioi]
    have : Set.Ioi (4 / 5 : ℝ) ∩ Set.Ico (-1) 1 = Set.Ioo (4 / 5) 1 := by
      ext t
      simp only [Set.mem_inter_iff, Set.mem_Ioi, Set.mem_Ico, Set.mem_Ioo]
      constructor
      · rintro ⟨h1, _, h2⟩; exact ⟨h1, h2⟩
      · rintro ⟨h1, h2⟩; exact ⟨h1, by linarith, h2⟩
    rw [this, Real.volume_Ioo, smul_eq_mul]
    norm_num
  simp only [Spec.drawLaw, farTuples, Measure.prod_prod, Measure.pi_pi, measure_univ, one_mul, mul_one,
    Finset.prod_const]
  exact pow_ne_zero _ (mul_ne_zero h (mul_ne_zero h h))

lemma farTuples_measurable : MeasurableSet farTuples := by
  refine MeasurableSet.univ.prod (MeasurableSet.univ.prod (MeasurableSet.univ.prod (MeasurableSet.prod ?_ MeasurableSet.univ)))
  exact MeasurableSet.univ_pi fun _ => measurableSet_Ioi.prod (measurableSet_Ioi.prod measurableSet_Ioi)

lemma median3_far {t : ℝ × ℝ × ℝ} (h : t ∈ Set.Ioi (4 / 5 : ℝ) ×ˢ (Set.Ioi (4 / 5 : ℝ) ×ˢ Set.Ioi (4 / 5 : ℝ))) :
    4 / 5 < median3 t := by
  obtain ⟨h1, h2, h3⟩ := h
  simp only [Set.mem_Ioi] at h1 h2 h3
  exact lt_max_of_lt_left (lt_min h1 h2)

/-- **C84 is false of the parabola kernel** in two dimensions: samples fall outside of the support of the density with
positive probability. -/
theorem C84_refuted : ¬ C84_Claim := by
  intro hC
  obtain ⟨k, hk, hw, hD, hM⟩ := unit_init (d := 2) ⟨fun A => A, id⟩ [0] (by simp) [1] (by simp [Spec.ValidW])
    .parabola rfl
  have hpd : (Spec.kernelMatrix k.covariance k.bandwidth).PosDef := by rw [hM]; exact PosDef.one
  have hrnd := exists_randomNumbers 2
  obtain ⟨X, hX, hlaw, _⟩ := hC 2 _ _ k (fun _ => []) _ hk two_pos rfl hpd
    (fun pts => (C02_kde_density hk _ two_pos rfl hpd pts).2) _ _ _ _ hrnd 1 false
  have hkr : k.reflect = none := by
    obtain ⟨_, _, _, _, _, _, _, _, hr, _, _, _, _, _, _, _, _, _, he⟩ := init_inv hk
    rw [he]
    simpa [checkReflect, eq_comm] using hr
  have hb : Spec.boundaries k .none = .ok none := by simp [Spec.boundaries, hkr]
  have hdat : k.dataset = [0] := by
    obtain ⟨_, _, _, _, _, _, _, _, _, _, _, _, _, _, _, _, _, _, he⟩ := init_inv hk; rw [he]
  set S : Set (Fin 2 → ℝ) := {x | 1 < x ⬝ᵥ x} with hS
  have hSm : MeasurableSet S := measurableSet_lt measurable_const (by unfold dotProduct; fun_prop)
  -- the density vanishes on `S`
  have h0 : (Measure.infinitePi fun _ : ℕ × ℕ => Spec.drawLaw 2) (X 0 ⁻¹' S) = 0 := by
    rw [← Measure.map_apply_of_aemeasurable (hlaw 0).aemeasurable hSm, (hlaw 0).map_eq, withDensity_apply _ hSm]
    refine lintegral_eq_zero_of_ae_eq_zero ((ae_restrict_iff' hSm).mpr (ae_of_all _ fun x hx => ?_))
    have hshape : Spec.shape .parabola (Spec.dist2 (1 : Matrix (Fin 2) (Fin 2) ℝ) x) = 0 := by
      rw [Spec.dist2, inv_one, one_mulVec, Spec.shape, if_neg (not_le.mpr hx)]
    rw [hD, hM, hw]
    simp [Spec.kernelSum, Spec.weighted, hshape]
  -- but the sample is in `S` with positive probability
  have h1 : (Measure.infinitePi fun _ : ℕ × ℕ => Spec.drawLaw 2) ((fun ω => ω (0, 0)) ⁻¹' farTuples) ≠ 0 := by
    rw [(measurePreserving_eval_infinitePi (fun _ : ℕ × ℕ => Spec.drawLaw 2) (0, 0)).measure_preimage
      farTuples_measurable.nullMeasurableSet]
    exact farTuples_pos
  refine h1 (measure_mono_null_ae ?_ h0)
  filter_upwards [hX] with ω hω hfar
  obtain ⟨s, hs, hpts⟩ := hω
  rcases resample_inv hk hs with ⟨_, h2⟩ | ⟨rows, draws, hrow, _⟩
  swap
  · rw [hrow] at hb; cases hb
  obtain ⟨hlen, V, ps, hV, hps, _, hall⟩ := resampleClear_inv h2
  simp only [keepDims, Except.ok.injEq] at hps
  subst hps
  simp only [Option.getD_some] at hlen
  obtain ⟨u, m, hu, hm, e⟩ := hall 0 (by omega)
  have hmem := choiceDatum_mem hm
  have hm0 : m = 0 := by
    rw [hdat] at hmem
    simpa using List.mem_of_getElem? hmem
  have hx : X 0 ω = Vᵀ *ᵥ u := by
    have : s.points[0]'(by omega) = X 0 ω := by
      have h3 := congrArg (fun l => l[0]?) hpts
      simp only [List.getElem?_eq_getElem (show 0 < s.points.length by omega), List.ofFn_succ, List.ofFn_zero,
        List.getElem?_cons_zero, Option.some.injEq] at h3
      exact h3
    rw [← this, e, hm0, zero_add]
    funext i
    simp [zeroDims]
  rw [(C18_matrix hk).1] at hV
  have hVV : Vᵀ * Vᵀᵀ = 1 := by 
    have hsym : (Spec.kernelMatrix k.covariance k.bandwidth).IsSymm := hpd.isHermitian
    rw [transpose_transpose, cholesky_mul hsym hV, hM]
  have hd2 := dist2_coloured (M := (1 : Matrix (Fin 2) (Fin 2) ℝ)) (by simp) hVV u
  rw [Spec.dist2, inv_one, one_mulVec] at hd2
  show 1 < X 0 ω ⬝ᵥ X 0 ω
  rw [hx, hd2]
  rw [hD] at hu
  simp only [Dist.sample, Except.ok.injEq] at hu
  subst hu
  have hf : ∀ i, 4 / 5 < median3 ((ω (0, 0)).2.2.2.1 i) := fun i => median3_far (hfar.2.2.2.1 i trivial)
  rw [Fin.sum_univ_two]
  have a0 := hf 0
  have a1 := hf 1
  simp only [Spec.drawOf]
  nlinarith

end Kalepy
