import Verif.Proofs.Moments
import Verif.Props.Covariance
import Verif.Props.SampleLaw

/-!
# C85: mean and covariance of the density

The mean of the density is the weighted mean of the data. Its covariance is the covariance of the weighted data plus a
fixed multiple of the kernel matrix.
-/

namespace Kalepy

open MeasureTheory ProbabilityTheory Matrix

variable {d : ℕ}

/-- Specification: covariance of the distribution which gives each point its share of the total weight. -/
noncomputable def Spec.popCov (p : List ((Fin d → ℝ) × ℝ)) : Matrix (Fin d) (Fin d) ℝ :=
  Matrix.of fun i j => (p.map fun q => q.2 * (q.1 i - Spec.mean p i) * (q.1 j - Spec.mean p j)).sum
    / (p.map Prod.snd).sum

/-- Specification: `F` is a density with mean `m` and covariance matrix `C`. -/
structure Spec.HasMoments (F : (Fin d → ℝ) → ℝ) (m : Fin d → ℝ) (C : Matrix (Fin d) (Fin d) ℝ) : Prop where
  nonneg : ∀ x, 0 ≤ F x
  total : ∫ x, F x = 1
  first : ∀ i, (Integrable fun x => x i * F x) ∧ ∫ x, x i * F x = m i
  second : ∀ i j, (Integrable fun x => (x i - m i) * (x j - m j) * F x) ∧
    ∫ x, (x i - m i) * (x j - m j) * F x = C i j

/-- **C85.** Without boundaries `pdf` returns the values of one density whose mean is the weighted mean of the data and
whose covariance is the covariance of the weighted data plus the kernel matrix times the variance of the kernel (1 for
the Gaussian, `1/(d+2)` for the box, `1/(d+4)` for the parabola and `1/(d+8)` for the triweight). -/
theorem C85_moments {E : Ext} {a : KDEArgs d} {k : KDE d} (h : KDE.init E a = .ok k) (srt : List ℝ → List ℕ)
    (hd : 0 < d) (hr : a.reflect = .none) (hM : (Spec.kernelMatrix k.covariance k.bandwidth).PosDef) :
    ∃ F : (Fin d → ℝ) → ℝ,
      (∀ (history : List (Spec.Call d)) (pts : List (Fin d → ℝ)),
        ((history.foldl (fun k c => (Spec.call E srt k c).2) k).pdf E srt (some (.rows (Spec.rowsOf pts)))
          .none .none false).1 = .ok (.rows (Spec.rowsOf pts), ⟨[pts.length], pts.map F⟩)) ∧
      Spec.HasMoments F (Spec.mean (Spec.weighted a.dataset k.weights))
        (Spec.popCov (Spec.weighted a.dataset k.weights)
          + Spec.kernelVar k.kernel.dist d • Spec.kernelMatrix k.covariance k.bandwidth) := by
  have hnorm := mul_pos (Real.sqrt_pos.mpr hM.det_pos) (k.kernel.dist.norm_pos d hd)
  obtain ⟨hw, hw0⟩ := weighted_total_pos h
  set M := Spec.kernelMatrix k.covariance k.bandwidth with hMdef
  set D := k.kernel.dist with hDdef
  set P := Spec.weighted a.dataset k.weights with hP
  set N := Real.sqrt M.det * D.norm d with hN
  refine ⟨fun x => Spec.kernelSum D M P x / N / (P.map Prod.snd).sum, fun history pts => ?_, fun x => ?_, ?_, fun i => ?_,
    fun i j => ?_⟩
  · have hist := C14_history E srt h history (.pdf (some (.rows (Spec.rowsOf pts))) .none .none false)
    rw [Spec.call, Spec.call, Spec.Outcome.values.injEq] at hist
    rw [hist]
    exact (C02_kde_density h srt hd hr hM pts).2
  · refine div_nonneg (div_nonneg (List.sum_nonneg ?_) hnorm.le) hw.le
    simp only [List.mem_map]
    rintro _ ⟨p, hp, rfl⟩
    exact mul_nonneg (hw0 p hp) (shape_nonneg' _ _)
  · obtain ⟨h1, h2⟩ := integral_listSum P (fun p x => p.2 * Spec.shape D (Spec.dist2 M (x - p.1)))
      fun p _ => (integrable_shape_dist2 hd _ hM p.1).const_mul p.2
    simp only [Spec.kernelSum]
    rw [integral_div, integral_div, h2]
    simp only [integral_const_mul, integral_shape_dist2 hd _ hM]
    rw [List.sum_map_mul_right, ← hN]
    field_simp
  · obtain ⟨h1, h2⟩ := integral_listSum P (fun p x => p.2 * (x i * Spec.shape D (Spec.dist2 M (x - p.1))))
      fun p _ => (kernel_moments_at hd D hM p.1 0 i i).1.const_mul p.2
    have e : (fun x : Fin d → ℝ => x i * (Spec.kernelSum D M P x / N / (P.map Prod.snd).sum))
        = fun x => (P.map fun p => p.2 * (x i * Spec.shape D (Spec.dist2 M (x - p.1)))).sum / N / (P.map Prod.snd).sum := by
      funext x
      rw [Spec.kernelSum, ← mul_div_assoc, ← mul_div_assoc, ← List.sum_map_mul_left]
      simp only [mul_left_comm]
    rw [e]
    refine ⟨(h1.div_const _).div_const _, ?_⟩
    rw [integral_div, integral_div, h2]
    simp only [integral_const_mul, (kernel_moments_at hd D hM _ 0 i i).2.1, ← hN]
    simp only [mul_left_comm _ N, List.sum_map_mul_left, Spec.mean]
    field_simp
  · obtain ⟨h1, h2⟩ := integral_listSum P (fun p x => p.2 * ((x i - Spec.mean P i) * (x j - Spec.mean P j)
        * Spec.shape D (Spec.dist2 M (x - p.1))))
      fun p _ => (kernel_moments_at hd D hM p.1 (Spec.mean P) i j).2.2.1.const_mul p.2
    have e : (fun x : Fin d → ℝ => (x i - Spec.mean P i) * (x j - Spec.mean P j)
          * (Spec.kernelSum D M P x / N / (P.map Prod.snd).sum))
        = fun x => (P.map fun p => p.2 * ((x i - Spec.mean P i) * (x j - Spec.mean P j)
          * Spec.shape D (Spec.dist2 M (x - p.1)))).sum / N / (P.map Prod.snd).sum := by
      funext x
      rw [Spec.kernelSum, ← mul_div_assoc, ← mul_div_assoc, ← List.sum_map_mul_left]
      simp only [mul_left_comm]
    rw [e]
    refine ⟨(h1.div_const _).div_const _, ?_⟩
    rw [integral_div, integral_div, h2]
    simp only [integral_const_mul, (kernel_moments_at hd D hM _ (Spec.mean P) i j).2.2.2, ← hN]
    simp only [mul_left_comm _ N, List.sum_map_mul_left, mul_add, List.sum_map_add, List.sum_map_mul_right]
    simp only [Matrix.add_apply, Matrix.smul_apply, Spec.popCov, Matrix.of_apply, smul_eq_mul, ← mul_assoc]
    field_simp

/-- Concrete case of the hypotheses: weighted data in the plane, triweight kernel. -/
example : ∃ (E : Ext) (a : KDEArgs 2) (k : KDE 2), KDE.init E a = .ok k ∧ a.reflect = .none ∧
    (Spec.kernelMatrix k.covariance k.bandwidth).PosDef ∧
    Spec.mean (Spec.weighted a.dataset k.weights) = ![3 / 2, 4] ∧ Spec.kernelVar k.kernel.dist 2 = 1 / 10 := by
  obtain ⟨k, hk, hw, hD, hM⟩ := unit_init ⟨fun A => A, id⟩ [![0, 1], ![2, 5]] (by simp) [1, 3]
    ⟨rfl, by simp, 1, by simp, by norm_num⟩ .triweight rfl
  refine ⟨_, _, k, hk, rfl, by rw [hM]; exact PosDef.one, ?_, by rw [hD]; norm_num [Spec.kernelVar]⟩
  rw [hw]
  ext i
  fin_cases i <;> norm_num [Spec.mean, Spec.weighted]

/-- The covariance of the weighted data and the covariance that the KDE estimates from them. -/
lemma popCov_eq {p : List ((Fin d → ℝ) × ℝ)} (h1 : (p.map Prod.snd).sum ≠ 0)
    (h2 : (p.map Prod.snd).sum - (p.map fun q => q.2 ^ 2).sum / (p.map Prod.snd).sum ≠ 0) :
    Spec.popCov p = (1 - (p.map fun q => q.2 ^ 2).sum / (p.map Prod.snd).sum ^ 2) • Spec.sampleCov p := by
  ext i j
  simp only [Spec.popCov, Spec.sampleCov, Matrix.of_apply, Matrix.smul_apply, smul_eq_mul]
  set S := (p.map fun q => q.2 * (q.1 i - Spec.mean p i) * (q.1 j - Spec.mean p j)).sum
  set V := (p.map Prod.snd).sum
  set W := (p.map fun q => q.2 ^ 2).sum
  have e : 1 - W / V ^ 2 = (V - W / V) / V := by field_simp
  rw [e, div_mul_div_comm, mul_comm, mul_div_mul_right _ _ h2]

/-- **C85**, for the covariance estimated from the data and one bandwidth `b` for all parameters: the covariance of the
density is the estimated covariance times `1 - 1/n + b² c`, with the effective number `n` of data and the variance `c` of
the kernel. -/
theorem C85_estimated {E : Ext} {a : KDEArgs d} {k : KDE d} (h : KDE.init E a = .ok k) (srt : List ℝ → List ℕ)
    (hd : 0 < d) (hr : a.reflect = .none) (hc : a.covariance = none) (hn : a.neff = none)
    (b : ℝ) (hb : ∀ i j, k.bandwidth i j = b)
    (hM : (Spec.kernelMatrix k.covariance k.bandwidth).PosDef) :
    ∃ F : (Fin d → ℝ) → ℝ,
      (∀ pts : List (Fin d → ℝ), (k.pdf E srt (some (.rows (Spec.rowsOf pts))) .none .none false).1
        = .ok (.rows (Spec.rowsOf pts), ⟨[pts.length], pts.map F⟩)) ∧
      Spec.HasMoments F (Spec.mean (Spec.weighted a.dataset k.weights))
        ((1 - 1 / k.neff + b ^ 2 * Spec.kernelVar k.kernel.dist d) • k.covariance) := by
  obtain ⟨F, hF, hm⟩ := C85_moments h srt hd hr hM
  refine ⟨F, hF [], ?_⟩
  obtain ⟨hf, hcov⟩ := covariance_eq h hc
  obtain ⟨hw, _⟩ := weighted_total_pos h
  have hl : ∀ l, k.weights = some l → l.length = a.dataset.length := fun l hl => (stored_valid h hl).1
  have hne : a.dataset ≠ [] := (C16_weights h).1
  have h2 : ((Spec.weighted a.dataset k.weights).map fun q => q.2 ^ 2) = (onesIfNone a.dataset k.weights).map (· ^ 2) := by
    rw [← weighted_snd _ _ hl, List.map_map]
    rfl
  rw [covFact_eq _ hne, ← h2, ← weighted_snd _ _ hl] at hf
  have hneff : (1:ℝ) / k.neff = ((Spec.weighted a.dataset k.weights).map fun q => q.2 ^ 2).sum
      / ((Spec.weighted a.dataset k.weights).map Prod.snd).sum ^ 2 := by
    rw [h2, weighted_snd _ _ hl]
    obtain ⟨n1, n2⟩ := neff_eq h hn
    cases hk : k.weights with
    | none =>
      have : (a.dataset.length : ℝ) ≠ 0 := by
        rw [Nat.cast_ne_zero]; exact fun h => hne (List.eq_nil_of_length_eq_zero h)
      rw [n1 hk]
      simp only [onesIfNone, List.map_replicate, List.sum_replicate, nsmul_eq_mul]
      field_simp
    | some l =>
      rw [n2 l hk, one_div_div]
      rfl
  rw [popCov_eq hw.ne' hf.ne', ← hcov, ← hneff] at hm
  have hK : Spec.kernelMatrix k.covariance k.bandwidth = b ^ 2 • k.covariance := by
    ext i j
    simp only [Spec.kernelMatrix, Matrix.of_apply, hb, Matrix.smul_apply, smul_eq_mul]
    ring
  rw [hK, smul_smul, ← add_smul, mul_comm (Spec.kernelVar _ _)] at hm
  exact hm

/-- Concrete case of the hypotheses: two data on the line, box kernel, bandwidth 2. -/
example : ∃ (E : Ext) (a : KDEArgs 1) (k : KDE 1), KDE.init E a = .ok k ∧ a.reflect = .none ∧ a.covariance = none ∧
    a.neff = none ∧ (∀ i j, k.bandwidth i j = 2) ∧ (Spec.kernelMatrix k.covariance k.bandwidth).PosDef := by
  obtain ⟨k, hk, hw⟩ := auto_init ⟨fun A => A, id⟩ [![(0:ℝ)], ![2]] (by simp) none (by simp)
    (by norm_num [covFact]) .box rfl 2
  have hb : ∀ i j, k.bandwidth i j = 2 := by
    intro i j
    obtain ⟨B, ⟨b, rfl, hB⟩, hR⟩ := C18_bandwidth hk
    simp only [Spec.Rescaled] at hR
    rw [hR, hB]
    simp
  refine ⟨_, _, k, hk, rfl, rfl, rfl, hb, ?_⟩
  have : Spec.kernelMatrix k.covariance k.bandwidth = Matrix.diagonal fun _ => 8 := by
    ext i j
    have hi : i = 0 := Subsingleton.elim _ _
    have hj : j = 0 := Subsingleton.elim _ _
    subst hi hj
    rw [(C19_covariance hk rfl).1, hw]
    norm_num [Spec.kernelMatrix, Spec.sampleCov, Spec.weighted, Spec.mean, hb]
  rw [this]
  exact PosDef.diagonal fun i => by norm_num

/-! ## Moments of samples -/

lemma integral_hasLaw {Ω : Type} [MeasurableSpace Ω] {μ : Measure Ω} {F : (Fin d → ℝ) → ℝ} (hF : ∀ x, 0 ≤ F x)
    (hi : Integrable F) {X : Ω → Fin d → ℝ} (hX : HasLaw X (volume.withDensity fun x => ENNReal.ofReal (F x)) μ)
    {g : (Fin d → ℝ) → ℝ} (hg : Measurable g) : ∫ ω, g (X ω) ∂μ = ∫ x, g x * F x := by
  have h1 := hX.integral_comp (f := g) hg.aestronglyMeasurable
  rw [integral_withDensity_eq_integral_toReal_smul₀ hi.aestronglyMeasurable.aemeasurable.ennreal_ofReal (by simp)] at h1
  simp only [Function.comp_def] at h1
  rw [h1]
  refine integral_congr_ae (ae_of_all _ fun x => ?_)
  simp only [ENNReal.toReal_ofReal (hF x), smul_eq_mul, mul_comm]

/-- **C85**, for samples: if the random numbers are as promised, the samples that `resample` returns have the weighted
mean of the data as expectation and the covariance of the density as covariance. -/
theorem C85_samples {E : Ext} {a : KDEArgs d} {k : KDE d} (h : KDE.init E a = .ok k)
    (hd : 0 < d) (hr : a.reflect = .none) (hM : (Spec.kernelMatrix k.covariance k.bandwidth).PosDef)
    (hD : Spec.ExactSampler k.kernel.dist d) {Ω : Type} [MeasurableSpace Ω] (μ : Measure Ω)
    (rnd : Ω → ℕ → ℕ → Draw d) (hrnd : Spec.RandomNumbers μ rnd) (size : ℕ) (squeeze : Bool) :
    ∃ X : Fin size → Ω → Fin d → ℝ,
      (∀ᵐ ω ∂μ, ∃ s, k.resample (some size) .none .none squeeze (rnd ω) = .ok s ∧
        s.points = List.ofFn fun n => X n ω) ∧ iIndepFun X μ ∧
      ∀ n i j, ∫ ω, X n ω i ∂μ = Spec.mean (Spec.weighted a.dataset k.weights) i ∧
        ∫ ω, (X n ω i - Spec.mean (Spec.weighted a.dataset k.weights) i)
            * (X n ω j - Spec.mean (Spec.weighted a.dataset k.weights) j) ∂μ
          = (Spec.popCov (Spec.weighted a.dataset k.weights)
            + Spec.kernelVar k.kernel.dist d • Spec.kernelMatrix k.covariance k.bandwidth) i j := by
  obtain ⟨F, hF, hm⟩ := C85_moments h (fun _ => []) hd hr hM
  obtain ⟨G, hG, hs⟩ := C84_partial h (fun _ => []) hd hr hM hD
  have hFG : F = G := by
    funext x
    have h1 := hF [] [x]
    rw [List.foldl_nil, hG [x]] at h1
    simpa using h1.symm
  subst hFG
  obtain ⟨X, hret, hlaw, hind⟩ := hs μ rnd hrnd size squeeze
  have hi : Integrable F := by
    by_contra hn
    have := hm.total
    rw [integral_undef hn] at this
    norm_num at this
  refine ⟨X, hret, hind, fun n i j => ⟨?_, ?_⟩⟩
  · rw [integral_hasLaw hm.nonneg hi (hlaw n) (g := fun x => x i) (by fun_prop)]
    exact (hm.first i).2
  · rw [integral_hasLaw hm.nonneg hi (hlaw n) (g := fun x => (x i - Spec.mean (Spec.weighted a.dataset k.weights) i)
      * (x j - Spec.mean (Spec.weighted a.dataset k.weights) j)) (by fun_prop)]
    exact (hm.second i j).2

end Kalepy
