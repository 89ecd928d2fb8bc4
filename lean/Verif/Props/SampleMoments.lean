import Verif.Proofs.BoxLaw
import Verif.Props.Moments

/-!
# C86: mean and covariance of samples, for all kernels
-/

namespace Kalepy

open MeasureTheory ProbabilityTheory Matrix

variable {d : ℕ}

/-! ## Samples as random variables -/

/-- Without boundaries, with probability one `resample` returns a chosen data point plus coloured noise. -/
theorem resample_repr {E : Ext} {a : KDEArgs d} {k : KDE d} (h : KDE.init E a = .ok k) (hd : 0 < d)
    (hr : a.reflect = .none) (hM : (Spec.kernelMatrix k.covariance k.bandwidth).PosDef) :
    ∃ L : Matrix (Fin d) (Fin d) ℝ, L * Lᵀ = Spec.kernelMatrix k.covariance k.bandwidth ∧
      ∀ {Ω : Type} [MeasurableSpace Ω] (μ : Measure Ω) (rnd : Ω → ℕ → ℕ → Draw d), Spec.RandomNumbers μ rnd →
        ∀ (size : ℕ) (squeeze : Bool), ∀ᵐ ω ∂μ, ∃ s, k.resample (some size) .none .none squeeze (rnd ω) = .ok s ∧
          s.points = List.ofFn fun n : Fin size => sampleOf k.kernel.dist a.dataset k.weights L
            (noiseFn k.kernel.dist (noiseTuple (rnd ω 0 n).tuple), (rnd ω 0 n).pick) := by
  have hdat : k.dataset = a.dataset := by
    obtain ⟨_, _, _, _, _, _, _, _, _, _, _, _, _, _, _, _, _, _, he⟩ := init_inv h; rw [he]
  have hkr : k.reflect = none := by
    obtain ⟨_, _, _, _, _, _, _, _, hr', _, _, _, _, _, _, _, _, _, he⟩ := init_inv h
    rw [he]
    rw [hr] at hr'
    simpa [checkReflect, eq_comm] using hr'
  have hb : Spec.boundaries k .none = .ok none := by simp [Spec.boundaries, hkr]
  have hK := (C18_matrix h).1
  obtain ⟨U, hU⟩ := cholesky_of_posDef hM
  refine ⟨Uᵀ, by rw [transpose_transpose]; exact cholesky_mul hM.isHermitian hU, fun μ rnd hrnd size squeeze => ?_⟩
  have hgood : ∀ n, ∀ᵐ ω ∂μ, rad (rnd ω 0 n).gauss ≠ 0 ∧ (∀ i, 0 ≤ (rnd ω 0 n).unif i ∧ (rnd ω 0 n).unif i < 1) ∧
      0 ≤ (rnd ω 0 n).pick ∧ (rnd ω 0 n).pick < 1 := by
    intro n
    have h3 := ae_good hd
    have h4 := hrnd.law 0 n
    rw [← h4.map_eq] at h3
    exact ae_of_ae_map h4.aemeasurable h3
  filter_upwards [ae_all_iff.mpr hgood] with ω hω
  have hsam := fun n => sample_noiseFn k.kernel.dist (hω n).2.1 (hω n).1
  obtain ⟨s, hs⟩ := resample_returns h hM (some size) .none (by simp) .none squeeze (rnd ω)
    (fun n => ⟨_, hsam n⟩) (fun n => (hω n).2.2) hb
  refine ⟨s, hs, ?_⟩
  rcases resample_inv h hs with ⟨_, h1⟩ | ⟨rows, draws, h0, _⟩
  swap
  · rw [h0] at hb; cases hb
  obtain ⟨hlen, V, ps, hV, hps, _, hall⟩ := resampleClear_inv h1
  rw [hK, hU, Option.some.injEq] at hV
  subst hV
  simp only [keepDims, Except.ok.injEq] at hps
  subst hps
  simp only [Option.getD_some] at hlen
  refine List.ext_getElem (by simp [hlen]) fun n hn _ => ?_
  obtain ⟨u, m, hu, hm, e⟩ := hall n hn
  rw [hsam, Except.ok.injEq] at hu
  subst hu
  have hmem := choiceDatum_mem hm
  rw [hdat] at hmem
  rw [e, List.getElem_ofFn]
  have hz : zeroDims ([] : List (Fin d)) (Uᵀ *ᵥ noiseFn k.kernel.dist (noiseTuple (rnd ω 0 n).tuple))
      = Uᵀ *ᵥ noiseFn k.kernel.dist (noiseTuple (rnd ω 0 n).tuple) := by
    funext i
    simp [zeroDims]
  rw [hz, sampleOf, List.getD_eq_getElem?_getD, hmem]
  rfl

/-- The law of one sample. -/
noncomputable def sampleLaw (D : Dist) (data : List (Fin d → ℝ)) (w : Option (List ℝ)) (L : Matrix (Fin d) (Fin d) ℝ) :
    Measure (Fin d → ℝ) := ((noiseLaw D d).prod Spec.unitLaw).map (sampleOf D data w L)

/-- Specification: with probability one `resample(size)` without boundaries returns samples, and they are independent of
each other and all have the law `P`. -/
def Spec.SamplesIID {Ω : Type} [MeasurableSpace Ω] (k : KDE d) (P : Measure (Fin d → ℝ)) (μ : Measure Ω)
    (rnd : Ω → ℕ → ℕ → Draw d) (size : ℕ) (squeeze : Bool) : Prop :=
  ∃ X : Fin size → Ω → Fin d → ℝ,
    (∀ᵐ ω ∂μ, ∃ s, k.resample (some size) .none .none squeeze (rnd ω) = .ok s ∧
      s.points = List.ofFn fun n => X n ω) ∧
    (∀ n, HasLaw (X n) P μ) ∧ iIndepFun X μ

lemma samples_law {E : Ext} {a : KDEArgs d} {k : KDE d} (h : KDE.init E a = .ok k) (hd : 0 < d)
    (hr : a.reflect = .none) (hM : (Spec.kernelMatrix k.covariance k.bandwidth).PosDef) :
    ∃ L : Matrix (Fin d) (Fin d) ℝ, L * Lᵀ = Spec.kernelMatrix k.covariance k.bandwidth ∧
      ∀ {Ω : Type} [MeasurableSpace Ω] (μ : Measure Ω) (rnd : Ω → ℕ → ℕ → Draw d), Spec.RandomNumbers μ rnd →
        ∀ (size : ℕ) (squeeze : Bool),
          Spec.SamplesIID k (sampleLaw k.kernel.dist a.dataset k.weights L) μ rnd size squeeze := by
  obtain ⟨L, hL, hrep⟩ := resample_repr h hd hr hM
  refine ⟨L, hL, fun μ rnd hrnd size squeeze => ⟨_, hrep μ rnd hrnd size squeeze, fun n => ?_, ?_⟩⟩
  all_goals
    have hphi : MeasurePreserving (fun t : DrawTuple d => sampleOf k.kernel.dist a.dataset k.weights L
        (noiseFn k.kernel.dist (noiseTuple t), t.2.2.2.2)) (Spec.drawLaw d)
        (sampleLaw k.kernel.dist a.dataset k.weights L) :=
      (MeasurePreserving.mk (measurable_sampleOf _ _ _ _) rfl).comp (joint_law_all k.kernel.dist)
  · exact hphi.hasLaw.comp (hrnd.law 0 n)
  · have h1 := hrnd.indep.precomp (g := fun n : Fin size => ((0 : ℕ), (n : ℕ)))
      fun i j hij => Fin.ext (Prod.ext_iff.mp hij).2
    exact h1.comp (fun _ => _) fun _ => hphi.measurable

/-- **C84**, for all kernels and dimensions: without boundaries there is one probability distribution such that the
samples of every `resample` call are independent draws from it. -/
theorem C84_iid {E : Ext} {a : KDEArgs d} {k : KDE d} (h : KDE.init E a = .ok k) (hd : 0 < d)
    (hr : a.reflect = .none) (hM : (Spec.kernelMatrix k.covariance k.bandwidth).PosDef) :
    ∃ P : Measure (Fin d → ℝ), IsProbabilityMeasure P ∧
      ∀ {Ω : Type} [MeasurableSpace Ω] (μ : Measure Ω) (rnd : Ω → ℕ → ℕ → Draw d), Spec.RandomNumbers μ rnd →
        ∀ (size : ℕ) (squeeze : Bool), Spec.SamplesIID k P μ rnd size squeeze := by
  obtain ⟨L, _, hs⟩ := samples_law h hd hr hM
  exact ⟨_, Measure.isProbabilityMeasure_map (measurable_sampleOf _ _ _ _).aemeasurable, hs⟩

/-! ## Moments -/

lemma sum_weighted {data : List (Fin d → ℝ)} {w : Option (List ℝ)} (hw : OkW data.length w) (f : (Fin d → ℝ) → ℝ) :
    ∑ j ∈ Finset.range data.length, Spec.weightAt w j / totW data.length w * f (data.getD j 0)
      = ((Spec.weighted data w).map fun q => q.2 * f q.1).sum / ((Spec.weighted data w).map Prod.snd).sum := by
  rw [totW_eq data hw]
  generalize ((Spec.weighted data w).map Prod.snd).sum = T
  rw [weighted_range data hw, List.map_map, ← sum_map_range, div_eq_mul_inv, ← List.sum_map_mul_right]
  refine congrArg List.sum (List.map_congr_left fun j _ => ?_)
  simp only [Function.comp_apply]
  ring

/-- Moments of a chosen data point plus coloured noise. -/
lemma sampleOf_moments (D : Dist) {data : List (Fin d → ℝ)} (hne : data ≠ []) {w : Option (List ℝ)}
    (hw : OkW data.length w) (L : Matrix (Fin d) (Fin d) ℝ) {ν : Measure (Fin d → ℝ)} [IsProbabilityMeasure ν] {v : ℝ}
    (hν : NoiseMoments ν v) (hpos : ((Spec.weighted data w).map Prod.snd).sum ≠ 0) (i j : Fin d) :
    Integrable (fun p => sampleOf D data w L p i) (ν.prod Spec.unitLaw) ∧
    ∫ p, sampleOf D data w L p i ∂(ν.prod Spec.unitLaw) = Spec.mean (Spec.weighted data w) i ∧
    Integrable (fun p => (sampleOf D data w L p i - Spec.mean (Spec.weighted data w) i)
      * (sampleOf D data w L p j - Spec.mean (Spec.weighted data w) j)) (ν.prod Spec.unitLaw) ∧
    ∫ p, (sampleOf D data w L p i - Spec.mean (Spec.weighted data w) i)
      * (sampleOf D data w L p j - Spec.mean (Spec.weighted data w) j) ∂(ν.prod Spec.unitLaw)
      = (Spec.popCov (Spec.weighted data w) + v • (L * Lᵀ)) i j := by
  have hn : 0 < data.length := List.length_pos_iff.mpr hne
  set m := Spec.mean (Spec.weighted data w) with hm
  -- the noise
  have hz1 : ∀ i, Integrable (fun z : Fin d → ℝ => (L *ᵥ z) i) ν ∧ ∫ z, (L *ᵥ z) i ∂ν = 0 := by
    intro i
    have e : ∀ z : Fin d → ℝ, (L *ᵥ z) i = ∑ a, L i a * z a := fun z => rfl
    simp only [e]
    refine ⟨integrable_finset_sum _ fun a _ => (hν.first a).1.const_mul _, ?_⟩
    rw [integral_finsetSum _ fun a _ => (hν.first a).1.const_mul _]
    simp only [integral_const_mul, (hν.first _).2, mul_zero, Finset.sum_const_zero]
  have hz2 : Integrable (fun z : Fin d → ℝ => (L *ᵥ z) i * (L *ᵥ z) j) ν ∧
      ∫ z, (L *ᵥ z) i * (L *ᵥ z) j ∂ν = v * (L * Lᵀ) i j := by
    have e : ∀ z : Fin d → ℝ, (L *ᵥ z) i * (L *ᵥ z) j = ∑ a, ∑ b, L i a * L j b * (z a * z b) := by
      intro z
      rw [mulVec, mulVec, dotProduct, dotProduct, Finset.sum_mul_sum]
      exact Finset.sum_congr rfl fun a _ => Finset.sum_congr rfl fun b _ => by ring
    have hi : ∀ a b, Integrable (fun z : Fin d → ℝ => L i a * L j b * (z a * z b)) ν := fun a b =>
      (hν.second a b).1.const_mul _
    simp only [e]
    refine ⟨integrable_finset_sum _ fun a _ => integrable_finset_sum _ fun b _ => hi a b, ?_⟩
    rw [integral_finsetSum _ fun a _ => integrable_finset_sum _ fun b _ => hi a b]
    simp only [integral_finsetSum _ fun b _ => hi _ b, integral_const_mul, (hν.second _ _).2, mul_ite, mul_zero,
      Finset.sum_ite_eq, Finset.mem_univ, if_true]
    rw [← Finset.sum_mul, mul_comm, mul_apply]
    rfl
  -- the chosen point
  have hc : ∀ f : (Fin d → ℝ) → ℝ, Integrable (fun u => f (data.getD (choiceIndex data.length w u) 0)) Spec.unitLaw ∧
      ∫ u, f (data.getD (choiceIndex data.length w u) 0) ∂Spec.unitLaw
        = ((Spec.weighted data w).map fun q => q.2 * f q.1).sum / ((Spec.weighted data w).map Prod.snd).sum := by
    intro f
    obtain ⟨h1, h2⟩ := integral_choice hn hw fun j => f (data.getD j 0)
    exact ⟨h1, by rw [h2, sum_weighted hw]⟩
  have hc0 : ∀ i, ∫ u, (data.getD (choiceIndex data.length w u) 0 i - m i) ∂Spec.unitLaw = 0 := by
    intro i
    rw [(hc fun x => x i - m i).2]
    have e : ∀ l : List ((Fin d → ℝ) × ℝ), (l.map fun q => q.2 * (q.1 i - m i)).sum
        = (l.map fun q => q.2 * q.1 i).sum - (l.map Prod.snd).sum * m i := by
      intro l
      induction l with
      | nil => simp
      | cons q l ih => simp only [List.map_cons, List.sum_cons, ih]; ring
    rw [e, hm, Spec.mean, mul_div_cancel₀ _ hpos, sub_self, zero_div]
  have e1 : ∀ p : (Fin d → ℝ) × ℝ, sampleOf D data w L p i
      = (L *ᵥ p.1) i + data.getD (choiceIndex data.length w p.2) 0 i := by
    intro p; rw [sampleOf, Pi.add_apply, add_comm]
  have e2 : ∀ p : (Fin d → ℝ) × ℝ, (sampleOf D data w L p i - m i) * (sampleOf D data w L p j - m j)
      = (L *ᵥ p.1) i * (L *ᵥ p.1) j + (data.getD (choiceIndex data.length w p.2) 0 i - m i)
          * (data.getD (choiceIndex data.length w p.2) 0 j - m j)
        + ((L *ᵥ p.1) i * (data.getD (choiceIndex data.length w p.2) 0 j - m j)
          + (L *ᵥ p.1) j * (data.getD (choiceIndex data.length w p.2) 0 i - m i)) := by
    intro p
    rw [sampleOf, Pi.add_apply, Pi.add_apply]
    ring
  have q1 : Integrable (fun p : (Fin d → ℝ) × ℝ => (L *ᵥ p.1) i) (ν.prod Spec.unitLaw) := (hz1 i).1.comp_fst _
  have q2 : Integrable (fun p : (Fin d → ℝ) × ℝ => data.getD (choiceIndex data.length w p.2) 0 i) (ν.prod Spec.unitLaw) :=
    (hc fun x => x i).1.comp_snd _
  have q3 : Integrable (fun p : (Fin d → ℝ) × ℝ => (L *ᵥ p.1) i * (L *ᵥ p.1) j) (ν.prod Spec.unitLaw) := hz2.1.comp_fst _
  have q4 : Integrable (fun p : (Fin d → ℝ) × ℝ => (data.getD (choiceIndex data.length w p.2) 0 i - m i)
      * (data.getD (choiceIndex data.length w p.2) 0 j - m j)) (ν.prod Spec.unitLaw) :=
    (hc fun x => (x i - m i) * (x j - m j)).1.comp_snd _
  have q5 : ∀ i j, Integrable (fun p : (Fin d → ℝ) × ℝ => (L *ᵥ p.1) i
      * (data.getD (choiceIndex data.length w p.2) 0 j - m j)) (ν.prod Spec.unitLaw) := fun i j =>
    (hz1 i).1.mul_prod (hc fun x => x j - m j).1
  have q34 : Integrable (fun p : (Fin d → ℝ) × ℝ => (L *ᵥ p.1) i * (L *ᵥ p.1) j
      + (data.getD (choiceIndex data.length w p.2) 0 i - m i) * (data.getD (choiceIndex data.length w p.2) 0 j - m j))
      (ν.prod Spec.unitLaw) := q3.add q4
  have q55 : Integrable (fun p : (Fin d → ℝ) × ℝ => (L *ᵥ p.1) i * (data.getD (choiceIndex data.length w p.2) 0 j - m j)
      + (L *ᵥ p.1) j * (data.getD (choiceIndex data.length w p.2) 0 i - m i)) (ν.prod Spec.unitLaw) := (q5 i j).add (q5 j i)
  have z5 : ∀ i j, ∫ p : (Fin d → ℝ) × ℝ, (L *ᵥ p.1) i * (data.getD (choiceIndex data.length w p.2) 0 j - m j)
      ∂(ν.prod Spec.unitLaw) = 0 := by
    intro i j
    rw [integral_prod_mul (fun z : Fin d → ℝ => (L *ᵥ z) i)
      (fun u : ℝ => data.getD (choiceIndex data.length w u) 0 j - m j), hc0, mul_zero]
  refine ⟨?_, ?_, ?_, ?_⟩
  · simp only [e1]
    exact q1.add q2
  · simp only [e1]
    rw [integral_add q1 q2, integral_fun_fst (fun z : Fin d → ℝ => (L *ᵥ z) i),
      integral_fun_snd (fun u : ℝ => data.getD (choiceIndex data.length w u) 0 i), (hz1 i).2, (hc fun x => x i).2]
    simp [hm, Spec.mean]
  · simp only [e2]
    exact q34.add q55
  · simp only [e2]
    rw [integral_add q34 q55, integral_add q3 q4, integral_add (q5 i j) (q5 j i), z5, z5,
      integral_fun_fst (fun z : Fin d → ℝ => (L *ᵥ z) i * (L *ᵥ z) j),
      integral_fun_snd (fun u : ℝ => (data.getD (choiceIndex data.length w u) 0 i - m i)
        * (data.getD (choiceIndex data.length w u) 0 j - m j)), hz2.2, (hc fun x => (x i - m i) * (x j - m j)).2]
    simp only [Matrix.add_apply, Matrix.smul_apply, Spec.popCov, Matrix.of_apply, smul_eq_mul, probReal_univ, one_smul,
      mul_assoc, ← hm]
    ring

/-- Specification: with probability one `resample(size)` without boundaries returns samples, they are independent of each
other, and each has the expectation `m` and the covariance matrix `C`. -/
def Spec.SamplesHave {Ω : Type} [MeasurableSpace Ω] (k : KDE d) (m : Fin d → ℝ) (C : Matrix (Fin d) (Fin d) ℝ)
    (μ : Measure Ω) (rnd : Ω → ℕ → ℕ → Draw d) (size : ℕ) (squeeze : Bool) : Prop :=
  ∃ X : Fin size → Ω → Fin d → ℝ,
    (∀ᵐ ω ∂μ, ∃ s, k.resample (some size) .none .none squeeze (rnd ω) = .ok s ∧
      s.points = List.ofFn fun n => X n ω) ∧ iIndepFun X μ ∧
    ∀ n i, Integrable (fun ω => X n ω i) μ ∧ ∫ ω, X n ω i ∂μ = m i ∧
      ∀ j, Integrable (fun ω => (X n ω i - m i) * (X n ω j - m j)) μ ∧
        ∫ ω, (X n ω i - m i) * (X n ω j - m j) ∂μ = C i j

/-- **C86**, the general part: for all kernels and dimensions the samples that `resample` returns without boundaries have
the weighted mean of the data as expectation, and the covariance of the weighted data plus a multiple `v` of the kernel
matrix as covariance. The full claim is that `v` is the variance of the kernel, so that the covariance is the one of the
density; `v` is 1 for the Gaussian, `1/(d+2)` for the box, `1/5` for the parabola, and larger than `1/(9d)` but
at most `(1/9 + 2/999)/d` for the triweight. -/
theorem C86_partial {E : Ext} {a : KDEArgs d} {k : KDE d} (h : KDE.init E a = .ok k) (hd : 0 < d)
    (hr : a.reflect = .none) (hM : (Spec.kernelMatrix k.covariance k.bandwidth).PosDef) :
    ∃ v, Spec.SampleVar k.kernel.dist d v ∧
      ∀ {Ω : Type} [MeasurableSpace Ω] (μ : Measure Ω) (rnd : Ω → ℕ → ℕ → Draw d), Spec.RandomNumbers μ rnd →
        ∀ (size : ℕ) (squeeze : Bool), Spec.SamplesHave k (Spec.mean (Spec.weighted a.dataset k.weights))
          (Spec.popCov (Spec.weighted a.dataset k.weights) + v • Spec.kernelMatrix k.covariance k.bandwidth)
          μ rnd size squeeze := by
  obtain ⟨L, hL, hs⟩ := samples_law h hd hr hM
  obtain ⟨v, hv, hν⟩ := noise_moments hd k.kernel.dist
  refine ⟨v, hv, fun μ rnd hrnd size squeeze => ?_⟩
  obtain ⟨X, hX, hlaw, hind⟩ := hs μ rnd hrnd size squeeze
  have hne : a.dataset ≠ [] := (C16_weights h).1
  have hdat : k.dataset = a.dataset := by
    obtain ⟨_, _, _, _, _, _, _, _, _, _, _, _, _, _, _, _, _, _, he⟩ := init_inv h; rw [he]
  have hw : OkW a.dataset.length k.weights := by
    intro l hl
    rw [← hdat]
    exact stored_weights h hl
  have hpos := (weighted_total_pos h).1.ne'
  have hmom := fun i j => sampleOf_moments k.kernel.dist hne hw L hν hpos i j
  rw [hL] at hmom
  have hso := measurable_sampleOf k.kernel.dist a.dataset k.weights L
  have hsoi := fun i => (measurable_pi_apply i).comp hso
  have key : ∀ (n : Fin size) (f : (Fin d → ℝ) → ℝ), Measurable f →
      Integrable (fun p => f (sampleOf k.kernel.dist a.dataset k.weights L p)) ((noiseLaw k.kernel.dist d).prod Spec.unitLaw) →
      Integrable (fun ω => f (X n ω)) μ ∧ ∫ ω, f (X n ω) ∂μ
        = ∫ p, f (sampleOf k.kernel.dist a.dataset k.weights L p) ∂((noiseLaw k.kernel.dist d).prod Spec.unitLaw) := by
    intro n f hf hi
    have hi' : Integrable f (sampleLaw k.kernel.dist a.dataset k.weights L) :=
      (integrable_map_measure hf.aestronglyMeasurable hso.aemeasurable).mpr hi
    refine ⟨?_, ?_⟩
    · rw [← (hlaw n).map_eq] at hi'
      exact hi'.comp_aemeasurable (hlaw n).aemeasurable
    · have := (hlaw n).integral_comp (f := f) hf.aestronglyMeasurable
      rw [Function.comp_def] at this
      rw [this, sampleLaw, integral_map hso.aemeasurable hf.aestronglyMeasurable]
  refine ⟨X, hX, hind, fun n i => ?_⟩
  have h1 := key n (fun x => x i) (measurable_pi_apply i) (hmom i i).1
  refine ⟨h1.1, h1.2.trans (hmom i i).2.1, fun j => ?_⟩
  have h2 := key n (fun x => (x i - Spec.mean (Spec.weighted a.dataset k.weights) i)
    * (x j - Spec.mean (Spec.weighted a.dataset k.weights) j)) (by fun_prop) (hmom i j).2.2.1
  exact ⟨h2.1, h2.2.trans (hmom i j).2.2.2⟩

/-- **C86**, where it holds: with the Gaussian and the box kernel, and with the parabola kernel for one parameter, the
samples have the mean and the covariance of the density. -/
theorem C86_same_covariance {E : Ext} {a : KDEArgs d} {k : KDE d} (h : KDE.init E a = .ok k) (srt : List ℝ → List ℕ)
    (hd : 0 < d) (hr : a.reflect = .none) (hM : (Spec.kernelMatrix k.covariance k.bandwidth).PosDef)
    (hD : k.kernel.dist = .gaussian ∨ k.kernel.dist = .box ∨ k.kernel.dist = .parabola ∧ d = 1) :
    ∃ (F : (Fin d → ℝ) → ℝ) (m : Fin d → ℝ) (C : Matrix (Fin d) (Fin d) ℝ),
      (∀ pts : List (Fin d → ℝ), (k.pdf E srt (some (.rows (Spec.rowsOf pts))) .none .none false).1
        = .ok (.rows (Spec.rowsOf pts), ⟨[pts.length], pts.map F⟩)) ∧
      Spec.HasMoments F m C ∧
      ∀ {Ω : Type} [MeasurableSpace Ω] (μ : Measure Ω) (rnd : Ω → ℕ → ℕ → Draw d), Spec.RandomNumbers μ rnd →
        ∀ (size : ℕ) (squeeze : Bool), Spec.SamplesHave k m C μ rnd size squeeze := by
  obtain ⟨F, hF, hm⟩ := C85_moments h srt hd hr hM
  obtain ⟨v, hv, hs⟩ := C86_partial h hd hr hM
  have : v = Spec.kernelVar k.kernel.dist d := by
    rcases hD with hD | hD | ⟨hD, rfl⟩ <;> rw [hD] at hv ⊢ <;> simp only [Spec.SampleVar, Spec.kernelVar] at hv ⊢ <;>
      rw [hv]
    norm_num
  subst this
  exact ⟨F, _, _, hF [], hm, hs⟩

lemma sampleVar_ne {D : Dist} (hD : D = .parabola ∧ 2 ≤ d ∨ D = .triweight ∧ 1 ≤ d) {v : ℝ} (hv : Spec.SampleVar D d v) :
    v ≠ Spec.kernelVar D d := by
  rintro rfl
  rcases hD with ⟨rfl, hd⟩ | ⟨rfl, hd⟩
  · have h2 : (2:ℝ) ≤ d := by exact_mod_cast hd
    simp only [Spec.SampleVar, Spec.kernelVar] at hv
    rw [div_eq_div_iff (by positivity) (by positivity)] at hv
    linarith
  · simp only [Spec.SampleVar, Spec.kernelVar] at hv
    rcases hd.eq_or_lt with rfl | hd
    · norm_num at hv
    · have h2 : (2:ℝ) ≤ d := by exact_mod_cast hd
      have h4 : (d:ℝ) * (1 / (d + 8)) ≥ 1 / 5 := by
        rw [ge_iff_le, mul_one_div, div_le_div_iff₀ (by positivity) (by positivity)]
        linarith
      linarith [hv.2]

/-- **C86**, where it fails: with the parabola kernel and two or more parameters, and with the triweight kernel in every
dimension, whatever the data, weights and bandwidth are, the covariance of the samples is not the covariance of the
density. -/
theorem C86_wrong_covariance {E : Ext} {a : KDEArgs d} {k : KDE d} (h : KDE.init E a = .ok k) (srt : List ℝ → List ℕ)
    (hr : a.reflect = .none) (hM : (Spec.kernelMatrix k.covariance k.bandwidth).PosDef)
    (hD : k.kernel.dist = .parabola ∧ 2 ≤ d ∨ k.kernel.dist = .triweight ∧ 1 ≤ d) :
    ∃ (F : (Fin d → ℝ) → ℝ) (m : Fin d → ℝ) (C : Matrix (Fin d) (Fin d) ℝ),
      (∀ pts : List (Fin d → ℝ), (k.pdf E srt (some (.rows (Spec.rowsOf pts))) .none .none false).1
        = .ok (.rows (Spec.rowsOf pts), ⟨[pts.length], pts.map F⟩)) ∧
      Spec.HasMoments F m C ∧
      ∀ {Ω : Type} [MeasurableSpace Ω] (μ : Measure Ω) (rnd : Ω → ℕ → ℕ → Draw d), Spec.RandomNumbers μ rnd →
        ∀ (size : ℕ) (squeeze : Bool), 0 < size → ¬ Spec.SamplesHave k m C μ rnd size squeeze := by
  have hd0 : 0 < d := by omega
  obtain ⟨F, hF, hm⟩ := C85_moments h srt hd0 hr hM
  obtain ⟨v, hv, hs⟩ := C86_partial h hd0 hr hM
  refine ⟨F, _, _, hF [], hm, fun μ rnd hrnd size squeeze hsz hh => sampleVar_ne hD hv ?_⟩
  obtain ⟨X, hX, _, hXm⟩ := hs μ rnd hrnd size squeeze
  obtain ⟨Y, hY, _, hYm⟩ := hh
  have hXY : ∀ᵐ ω ∂μ, X ⟨0, hsz⟩ ω = Y ⟨0, hsz⟩ ω := by
    filter_upwards [hX, hY] with ω ⟨s, hs, e⟩ ⟨t, ht, f⟩
    rw [hs, Except.ok.injEq] at ht
    subst ht
    exact congrFun (List.ofFn_injective (e.symm.trans f)) _
  have e1 := ((hXm ⟨0, hsz⟩ ⟨0, hd0⟩).2.2 ⟨0, hd0⟩).2
  have e2 := ((hYm ⟨0, hsz⟩ ⟨0, hd0⟩).2.2 ⟨0, hd0⟩).2
  have e3 := integral_congr_ae (hXY.mono fun ω hω => show
    (X ⟨0, hsz⟩ ω ⟨0, hd0⟩ - Spec.mean (Spec.weighted a.dataset k.weights) ⟨0, hd0⟩)
      * (X ⟨0, hsz⟩ ω ⟨0, hd0⟩ - Spec.mean (Spec.weighted a.dataset k.weights) ⟨0, hd0⟩)
    = (Y ⟨0, hsz⟩ ω ⟨0, hd0⟩ - Spec.mean (Spec.weighted a.dataset k.weights) ⟨0, hd0⟩)
      * (Y ⟨0, hsz⟩ ω ⟨0, hd0⟩ - Spec.mean (Spec.weighted a.dataset k.weights) ⟨0, hd0⟩) by rw [hω])
  rw [e1, e2] at e3
  simp only [Matrix.add_apply, Matrix.smul_apply, smul_eq_mul, add_right_inj] at e3
  exact mul_right_cancel₀ hM.diag_pos.ne' e3

/-- The full claim of C86: without boundaries, the samples have the mean and the covariance of the density that `pdf`
returns, for all kernels. -/
def C86_Claim : Prop :=
  ∀ (d : ℕ) (E : Ext) (a : KDEArgs d) (k : KDE d) (srt : List ℝ → List ℕ) (F : (Fin d → ℝ) → ℝ) (m : Fin d → ℝ)
    (C : Matrix (Fin d) (Fin d) ℝ), KDE.init E a = .ok k → 0 < d → a.reflect = .none →
    (Spec.kernelMatrix k.covariance k.bandwidth).PosDef →
    (∀ pts : List (Fin d → ℝ), (k.pdf E srt (some (.rows (Spec.rowsOf pts))) .none .none false).1
      = .ok (.rows (Spec.rowsOf pts), ⟨[pts.length], pts.map F⟩)) →
    Spec.HasMoments F m C →
    ∀ (Ω : Type) [MeasurableSpace Ω] (μ : Measure Ω) (rnd : Ω → ℕ → ℕ → Draw d), Spec.RandomNumbers μ rnd →
      ∀ (size : ℕ) (squeeze : Bool), Spec.SamplesHave k m C μ rnd size squeeze

/-- **C86** fails in general. -/
theorem C86_refuted : ¬ C86_Claim := by
  intro hC
  obtain ⟨k, hk, hw, hD, hM⟩ := unit_init (d := 2) ⟨fun A => A, id⟩ [0] (by simp) [1] (by simp [Spec.ValidW])
    .triweight rfl
  have hpd : (Spec.kernelMatrix k.covariance k.bandwidth).PosDef := by rw [hM]; exact PosDef.one
  obtain ⟨F, m, C, hF, hm, hn⟩ := C86_wrong_covariance hk (fun _ => []) rfl hpd (Or.inr ⟨hD, by norm_num⟩)
  have hrnd := exists_randomNumbers 2
  exact hn _ _ hrnd 1 false one_pos (hC 2 _ _ k _ F m C hk two_pos rfl hpd hF hm _ _ _ hrnd 1 false)

/-- A KDE of two weighted points with the triweight kernel meets the hypotheses of `C84_iid` and `C86_partial`, and there
are random numbers as promised. -/
example : ∃ (a : KDEArgs 3) (k : KDE 3), KDE.init ⟨fun A => A, id⟩ a = .ok k ∧ a.reflect = .none ∧
    (Spec.kernelMatrix k.covariance k.bandwidth).PosDef ∧ k.kernel.dist = .triweight ∧
    ∃ v, Spec.SampleVar .triweight 3 v ∧ Spec.SamplesHave k (Spec.mean (Spec.weighted a.dataset k.weights))
      (Spec.popCov (Spec.weighted a.dataset k.weights) + v • Spec.kernelMatrix k.covariance k.bandwidth)
      (Measure.infinitePi fun _ : ℕ × ℕ => Spec.drawLaw 3) (fun ω r c => Spec.drawOf (ω (r, c))) 5 true := by
  obtain ⟨k, hk, hw, hD, hM⟩ := unit_init (d := 3) ⟨fun A => A, id⟩ [0, fun _ => 1] (by simp) [1, 3]
    (by simp [Spec.ValidW]) .triweight rfl
  have hpd : (Spec.kernelMatrix k.covariance k.bandwidth).PosDef := by rw [hM]; exact PosDef.one
  obtain ⟨v, hv, hs⟩ := C86_partial hk (by norm_num) rfl hpd
  rw [hD] at hv
  exact ⟨_, k, hk, rfl, hpd, hD, v, hv, hs _ _ (exists_randomNumbers 3) 5 true⟩

/-- The hypotheses of `C86_same_covariance` are met by a KDE with the box kernel in the plane. -/
example : ∃ (a : KDEArgs 2) (k : KDE 2), KDE.init ⟨fun A => A, id⟩ a = .ok k ∧ a.reflect = .none ∧
    (Spec.kernelMatrix k.covariance k.bandwidth).PosDef ∧ k.kernel.dist = .box := by
  obtain ⟨k, hk, hw, hD, hM⟩ := unit_init (d := 2) ⟨fun A => A, id⟩ [0, fun _ => 1] (by simp) [1, 3]
    (by simp [Spec.ValidW]) .box rfl
  exact ⟨_, k, hk, rfl, by rw [hM]; exact PosDef.one, hD⟩

/-! ## Which kernels are sampled correctly -/

/-- **C84**, exactly: without boundaries, whatever the data, weights and bandwidth are, the samples are independent draws
from the density that `pdf` returns if and only if the kernel is the Gaussian, or there is one parameter and the kernel is
the box or the parabola. -/
theorem C84_iff {E : Ext} {a : KDEArgs d} {k : KDE d} (h : KDE.init E a = .ok k) (srt : List ℝ → List ℕ)
    (hd : 0 < d) (hr : a.reflect = .none) (hM : (Spec.kernelMatrix k.covariance k.bandwidth).PosDef)
    {F : (Fin d → ℝ) → ℝ}
    (hF : ∀ pts : List (Fin d → ℝ), (k.pdf E srt (some (.rows (Spec.rowsOf pts))) .none .none false).1
        = .ok (.rows (Spec.rowsOf pts), ⟨[pts.length], pts.map F⟩))
    {Ω : Type} [MeasurableSpace Ω] (μ : Measure Ω) (rnd : Ω → ℕ → ℕ → Draw d) (hrnd : Spec.RandomNumbers μ rnd)
    (size : ℕ) (hs : 0 < size) (squeeze : Bool) :
    Spec.SamplesFollow k F μ rnd size squeeze ↔
      k.kernel.dist = .gaussian ∨ d = 1 ∧ (k.kernel.dist = .box ∨ k.kernel.dist = .parabola) := by
  have huniq : ∀ {G : (Fin d → ℝ) → ℝ},
      (∀ pts : List (Fin d → ℝ), (k.pdf E srt (some (.rows (Spec.rowsOf pts))) .none .none false).1
        = .ok (.rows (Spec.rowsOf pts), ⟨[pts.length], pts.map G⟩)) → G = F := by
    intro G hG
    funext x
    have h1 := hF [x]
    rw [hG [x]] at h1
    simpa using h1
  constructor
  swap
  · intro hD
    obtain ⟨G, hG, hs⟩ := C84_partial h srt hd hr hM hD
    obtain rfl := huniq hG
    exact hs μ rnd hrnd size squeeze
  · rintro ⟨Y, hY, hYlaw, _⟩
    have hne : a.dataset ≠ [] := (C16_weights h).1
    have hdat : k.dataset = a.dataset := by
      obtain ⟨_, _, _, _, _, _, _, _, _, _, _, _, _, _, _, _, _, _, he⟩ := init_inv h; rw [he]
    have hw : OkW a.dataset.length k.weights := by
      intro l hl
      rw [← hdat]
      exact stored_weights h hl
    by_contra hcon
    by_cases hbox : k.kernel.dist = .box
    · have hd2 : 2 ≤ d := by
        by_contra hlt
        exact hcon (Or.inr ⟨by omega, Or.inl hbox⟩)
      obtain ⟨L, hL, hlaw⟩ := samples_law h hd hr hM
      obtain ⟨X, hX, hXlaw, _⟩ := hlaw μ rnd hrnd size squeeze
      have hXY : X ⟨0, hs⟩ =ᵐ[μ] Y ⟨0, hs⟩ := by
        filter_upwards [hX, hY] with ω ⟨s, hs, e⟩ ⟨t, ht, f⟩
        rw [hs, Except.ok.injEq] at ht
        subst ht
        exact congrFun (List.ofFn_injective (e.symm.trans f)) _
      have hmap : μ.map (X ⟨0, hs⟩) = μ.map (Y ⟨0, hs⟩) := Measure.map_congr hXY
      rw [(hXlaw _).map_eq, (hYlaw _).map_eq] at hmap
      have hLu : IsUnit L.det := by
        refine isUnit_iff_ne_zero.mpr fun h0 => ?_
        have := congrArg det hL
        rw [det_mul, h0, zero_mul] at this
        exact hM.det_pos.ne this
      have hp := box_prob hd
      have hdens := (sample_law .box hd hne hw hM hL).map_eq
      have hFeq := huniq fun pts => (C02_kde_density h srt hd hr hM pts).2
      rw [hbox] at hFeq
      rw [← hFeq, ← hdens, sampleLaw, hbox] at hmap
      exact box_law_ne hd2 hne hw hLu hmap
    · have hD : k.kernel.dist = .parabola ∧ 2 ≤ d ∨ k.kernel.dist = .triweight ∧ 1 ≤ d := by
        cases hk : k.kernel.dist with
        | gaussian => exact absurd (Or.inl hk) hcon
        | box => exact absurd hk hbox
        | parabola =>
          refine Or.inl ⟨rfl, ?_⟩
          by_contra hlt
          exact hcon (Or.inr ⟨by omega, Or.inr hk⟩)
        | triweight => exact Or.inr ⟨rfl, hd⟩
      obtain ⟨G, hG, hm⟩ := C85_moments h srt hd hr hM
      obtain rfl := huniq (hG [])
      obtain ⟨v, hv, hmom⟩ := C86_partial h hd hr hM
      obtain ⟨X, hX, _, hXm⟩ := hmom μ rnd hrnd size squeeze
      have hXY : X ⟨0, hs⟩ =ᵐ[μ] Y ⟨0, hs⟩ := by
        filter_upwards [hX, hY] with ω ⟨s, hs, e⟩ ⟨t, ht, f⟩
        rw [hs, Except.ok.injEq] at ht
        subst ht
        exact congrFun (List.ofFn_injective (e.symm.trans f)) _
      refine sampleVar_ne hD hv ?_
      have e1 := ((hXm ⟨0, hs⟩ ⟨0, hd⟩).2.2 ⟨0, hd⟩).2
      have hi : Integrable G := by
        by_contra hn
        have := hm.total
        rw [integral_undef hn] at this
        norm_num at this
      have hXlaw := (hYlaw ⟨0, hs⟩).congr hXY
      rw [integral_hasLaw hm.nonneg hi hXlaw (g := fun x =>
        (x ⟨0, hd⟩ - Spec.mean (Spec.weighted a.dataset k.weights) ⟨0, hd⟩)
          * (x ⟨0, hd⟩ - Spec.mean (Spec.weighted a.dataset k.weights) ⟨0, hd⟩)) (by fun_prop), (hm.second _ _).2] at e1
      simp only [Matrix.add_apply, Matrix.smul_apply, smul_eq_mul, add_right_inj] at e1
      exact (mul_right_cancel₀ hM.diag_pos.ne' e1).symm

/-- The equivalence for a KDE of two weighted points with the box kernel in the plane: its samples do not follow its
density. -/
example : ∃ (a : KDEArgs 2) (k : KDE 2) (F : (Fin 2 → ℝ) → ℝ), KDE.init ⟨fun A => A, id⟩ a = .ok k ∧ a.reflect = .none ∧
    (Spec.kernelMatrix k.covariance k.bandwidth).PosDef ∧
    (∀ pts : List (Fin 2 → ℝ), (k.pdf ⟨fun A => A, id⟩ (fun _ => []) (some (.rows (Spec.rowsOf pts))) .none .none false).1
        = .ok (.rows (Spec.rowsOf pts), ⟨[pts.length], pts.map F⟩)) ∧
    ¬ Spec.SamplesFollow k F (Measure.infinitePi fun _ : ℕ × ℕ => Spec.drawLaw 2)
      (fun ω r c => Spec.drawOf (ω (r, c))) 4 false := by
  obtain ⟨k, hk, hw, hD, hM⟩ := unit_init (d := 2) ⟨fun A => A, id⟩ [0, fun _ => 1] (by simp) [1, 3]
    (by simp [Spec.ValidW]) .box rfl
  have hpd : (Spec.kernelMatrix k.covariance k.bandwidth).PosDef := by rw [hM]; exact PosDef.one
  have hF := fun pts => (C02_kde_density hk (fun _ => []) two_pos rfl hpd pts).2
  refine ⟨_, k, _, hk, rfl, hpd, hF, fun hs => ?_⟩
  have := (C84_iff hk _ two_pos rfl hpd hF _ _ (exists_randomNumbers 2) 4 (by norm_num) false).mp hs
  simp [hD] at this

end Kalepy
