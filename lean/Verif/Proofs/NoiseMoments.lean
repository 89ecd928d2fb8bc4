import Mathlib.MeasureTheory.Function.JacobianOneDim
import Verif.Proofs.LawAll
import Verif.Proofs.Moments4

/-!
# Moments of the noise
-/

namespace Kalepy

open MeasureTheory ProbabilityTheory Matrix

variable {d : ℕ}

/-- Mean zero and covariance `v` times the identity. -/
structure NoiseMoments (ν : Measure (Fin d → ℝ)) (v : ℝ) : Prop where
  first : ∀ i, Integrable (fun x => x i) ν ∧ ∫ x, x i ∂ν = 0
  second : ∀ i j, Integrable (fun x => x i * x j) ν ∧ ∫ x, x i * x j ∂ν = if i = j then v else 0

/-! ### Kernel densities -/

lemma integral_noise (hd : 0 < d) (D : Dist) (f : (Fin d → ℝ) → ℝ) :
    ∫ x, f x ∂(volume.withDensity (noiseDensity D d)) = (∫ x, f x * Spec.shape D (x ⬝ᵥ x)) / D.norm d := by
  rw [integral_withDensity_eq_integral_toReal_smul (measurable_noiseDensity D) (by simp [noiseDensity]), ← integral_div]
  refine integral_congr_ae (ae_of_all _ fun x => ?_)
  simp only [noiseDensity]
  rw [ENNReal.toReal_ofReal (div_nonneg (shape_nonneg' _ _) (D.norm_pos d hd).le), smul_eq_mul]
  ring

lemma integrable_noise (hd : 0 < d) (D : Dist) {f : (Fin d → ℝ) → ℝ}
    (hf : Integrable fun x => f x * Spec.shape D (x ⬝ᵥ x)) : Integrable f (volume.withDensity (noiseDensity D d)) := by
  rw [integrable_withDensity_iff (measurable_noiseDensity D) (by simp [noiseDensity])]
  refine (hf.div_const (D.norm d)).congr (ae_of_all _ fun x => ?_)
  simp only [noiseDensity]
  rw [ENNReal.toReal_ofReal (div_nonneg (shape_nonneg' _ _) (D.norm_pos d hd).le), mul_div_assoc]

lemma density_moments (hd : 0 < d) (D : Dist) :
    NoiseMoments (volume.withDensity (noiseDensity D d)) (Spec.kernelVar D d) := by
  have hn := D.norm_pos d hd
  refine ⟨fun i => ⟨integrable_noise hd D (integrable_coord hd D i), ?_⟩,
    fun i j => ⟨integrable_noise hd D (integrable_coord2 hd D i j), ?_⟩⟩
  · rw [integral_noise hd, integral_coord, zero_div]
  · rw [integral_noise hd, integral_coord2 hd]
    split_ifs
    · field_simp
    · simp

/-! ### Independent components -/

lemma pi_moments {ν : Measure ℝ} [IsProbabilityMeasure ν] {v : ℝ} (h1 : Integrable (fun t => t) ν)
    (h2 : Integrable (fun t => t * t) ν) (m1 : ∫ t, t ∂ν = 0) (m2 : ∫ t, t * t ∂ν = v) :
    NoiseMoments (Measure.pi fun _ : Fin d => ν) v := by
  have he := fun i => measurePreserving_eval (fun _ : Fin d => ν) i
  refine ⟨fun i => ⟨?_, ?_⟩, fun i j => ⟨?_, ?_⟩⟩
  · exact (he i).integrable_comp_of_integrable h1
  · rw [integral_comp_eval (μ := fun _ : Fin d => ν) (f := fun t : ℝ => t) h1.aestronglyMeasurable, m1]
  · by_cases h : i = j
    · subst h
      exact (he i).integrable_comp_of_integrable h2
    · have hind : IndepFun (fun x : Fin d → ℝ => x i) (fun x => x j) (Measure.pi fun _ : Fin d => ν) :=
        (iIndepFun_pi (X := fun _ t => t) (μ := fun _ : Fin d => ν) fun _ => aemeasurable_id).indepFun h
      exact hind.integrable_mul ((he i).integrable_comp_of_integrable h1) ((he j).integrable_comp_of_integrable h1)
  · split_ifs with h
    · subst h
      rw [integral_comp_eval (μ := fun _ : Fin d => ν) (f := fun t : ℝ => t * t) h2.aestronglyMeasurable, m2]
    · have hind : IndepFun (fun x : Fin d → ℝ => x i) (fun x => x j) (Measure.pi fun _ : Fin d => ν) :=
        (iIndepFun_pi (X := fun _ t => t) (μ := fun _ : Fin d => ν) fun _ => aemeasurable_id).indepFun h
      rw [hind.integral_fun_mul_eq_mul_integral ((he i).integrable_comp_of_integrable h1).aestronglyMeasurable
        ((he j).integrable_comp_of_integrable h1).aestronglyMeasurable,
        integral_comp_eval (μ := fun _ : Fin d => ν) (f := fun t : ℝ => t) h1.aestronglyMeasurable, m1, zero_mul]

lemma pi_moments1 (D : Dist) {ν : Measure ℝ} [IsProbabilityMeasure ν]
    (hν : ν = volume.withDensity (noiseDensity1 D)) :
    NoiseMoments (Measure.pi fun _ : Fin d => ν) (Spec.kernelVar D 1) := by
  have hsf : SigmaFinite (volume.withDensity (noiseDensity1 D)) := by rw [← hν]; infer_instance
  have h := density_moments (d := 1) one_pos D
  rw [← pi_noise1, ← hν] at h
  have he := measurePreserving_eval (fun _ : Fin 1 => ν) 0
  have h1 : Integrable (fun t => t) ν := (he.integrable_comp aestronglyMeasurable_id).mp (h.first 0).1
  have h2 : Integrable (fun t => t * t) ν :=
    (he.integrable_comp (by exact (measurable_id.mul measurable_id).aestronglyMeasurable)).mp (h.second 0 0).1
  refine pi_moments h1 h2 ?_ ?_
  · rw [← integral_comp_eval (μ := fun _ : Fin 1 => ν) (i := 0) (f := fun t : ℝ => t) h1.aestronglyMeasurable]
    exact (h.first 0).2
  · rw [← integral_comp_eval (μ := fun _ : Fin 1 => ν) (i := 0) (f := fun t : ℝ => t * t) h2.aestronglyMeasurable]
    simpa using (h.second 0 0).2

/-! ### Directions with a radius for each component -/

/-- The noise of the box and triweight kernels. -/
noncomputable def dirNoise (R : ℝ → ℝ) (g u : Fin d → ℝ) : Fin d → ℝ := fun i => R (u i) * g i / rad g

lemma rad_mul_self (g : Fin d → ℝ) : rad g * rad g = g ⬝ᵥ g := by
  rw [rad, Real.mul_self_sqrt (Finset.sum_nonneg fun i _ => sq_nonneg _)]
  simp [dotProduct, sq]

lemma rad_eq (g : Fin d → ℝ) : rad g = Real.sqrt (g ⬝ᵥ g) := by
  rw [rad]
  simp [dotProduct, sq]

lemma direction_moments (hd : 0 < d) :
    (∀ i : Fin d, Integrable (fun g => g i / rad g) (Measure.pi fun _ : Fin d => gaussianReal 0 1) ∧
      ∫ g, g i / rad g ∂(Measure.pi fun _ : Fin d => gaussianReal 0 1) = 0) ∧
    ∀ i j : Fin d, Integrable (fun g => g i * g j / (g ⬝ᵥ g)) (Measure.pi fun _ : Fin d => gaussianReal 0 1) ∧
      ∫ g, g i * g j / (g ⬝ᵥ g) ∂(Measure.pi fun _ : Fin d => gaussianReal 0 1) = if i = j then 1 / (d : ℝ) else 0 := by
  have hn := Dist.gaussian.norm_pos d hd
  have hshape := measurable_shape .gaussian
  have hae : ∀ᵐ g : Fin d → ℝ, g ⬝ᵥ g ≠ 0 := by
    have hne : Nonempty (Fin d) := ⟨⟨0, hd⟩⟩
    filter_upwards [Measure.ae_ne (volume : Measure (Fin d → ℝ)) 0] with g hg h
    rw [dotProduct_self_eq_zero] at h
    exact hg h
  have hI : Integrable fun x : Fin d → ℝ => (x ⬝ᵥ x) * (Spec.shape .gaussian (x ⬝ᵥ x) / (x ⬝ᵥ x)) := by
    refine (integrable_shape hd .gaussian).congr ?_
    filter_upwards [hae] with g hg
    field_simp
  have hpos : ∀ s, 0 ≤ Spec.shape .gaussian s / |s| := fun s => div_nonneg (shape_nonneg' _ _) (abs_nonneg _)
  have habs : ∀ x : Fin d → ℝ, |x ⬝ᵥ x| = x ⬝ᵥ x := fun x => abs_of_nonneg (by
    rw [← rad_mul_self]; exact mul_self_nonneg _)
  rw [gaussian_noise]
  refine ⟨fun i => ⟨?_, ?_⟩, fun i j => ⟨?_, ?_⟩⟩
  · refine Integrable.mono' (g := fun _ => (1:ℝ)) ?_ ((measurable_pi_apply i).div measurable_rad).aestronglyMeasurable
      (ae_of_all _ fun g => ?_)
    · rw [← gaussian_noise]; exact integrable_const _
    · rw [Real.norm_eq_abs, abs_div, abs_of_nonneg (show 0 ≤ rad g from Real.sqrt_nonneg _)]
      refine div_le_one_of_le₀ (Real.abs_le_sqrt ?_) (Real.sqrt_nonneg _)
      exact Finset.single_le_sum (f := fun i => g i ^ 2) (fun j _ => sq_nonneg _) (Finset.mem_univ i)
  · rw [integral_noise hd]
    have := integral_radial1 (d := d) (fun s => Spec.shape .gaussian s / Real.sqrt s) i
    have e : ∀ x : Fin d → ℝ, x i / rad x * Spec.shape .gaussian (x ⬝ᵥ x)
        = x i * (Spec.shape .gaussian (x ⬝ᵥ x) / Real.sqrt (x ⬝ᵥ x)) := by
      intro x; rw [rad_eq]; ring
    simp only [e, this, zero_div]
  · refine Integrable.mono' (g := fun _ => (1:ℝ)) ?_ ?_ (ae_of_all _ fun g => ?_)
    · rw [← gaussian_noise]; exact integrable_const _
    · refine Measurable.aestronglyMeasurable (((measurable_pi_apply i).mul (measurable_pi_apply j)).div ?_)
      unfold dotProduct; fun_prop
    · rw [Real.norm_eq_abs, abs_div, habs]
      refine div_le_one_of_le₀ (abs_mul_le_dot g i j) ?_
      rw [← rad_mul_self]; exact mul_self_nonneg _
  · rw [integral_noise hd]
    have hI' : Integrable fun x : Fin d → ℝ => (x ⬝ᵥ x) * (Spec.shape .gaussian (x ⬝ᵥ x) / |x ⬝ᵥ x|) := by
      simp only [habs]; exact hI
    have := integral_radial2 hd (φ := fun s => Spec.shape .gaussian s / |s|) (hshape.div measurable_id.abs) hpos hI' i j
    have e : ∀ x : Fin d → ℝ, x i * x j / (x ⬝ᵥ x) * Spec.shape .gaussian (x ⬝ᵥ x)
        = x i * x j * (Spec.shape .gaussian (x ⬝ᵥ x) / |x ⬝ᵥ x|) := by
      intro x; rw [habs]; ring
    simp only [e, this]
    have e2 : ∫ x : Fin d → ℝ, (x ⬝ᵥ x) * (Spec.shape .gaussian (x ⬝ᵥ x) / |x ⬝ᵥ x|) = Dist.gaussian.norm d := by
      rw [← integral_shape hd .gaussian]
      refine integral_congr_ae ?_
      filter_upwards [hae] with g hg
      rw [habs]
      field_simp
    rw [e2]
    split_ifs
    · field_simp
    · simp

lemma dirNoise_moments (hd : 0 < d) {R : ℝ → ℝ} (hR : Measurable R) (hb : ∀ u, 0 ≤ u → u < 1 → 0 ≤ R u ∧ R u ≤ 1) :
    NoiseMoments (((Measure.pi fun _ : Fin d => gaussianReal 0 1).prod (Measure.pi fun _ : Fin d => Spec.unitLaw)).map
      fun p => dirNoise R p.1 p.2) ((∫ u, R u * R u ∂Spec.unitLaw) / d) := by
  obtain ⟨d1, d2⟩ := direction_moments hd
  have hm : Measurable fun p : (Fin d → ℝ) × (Fin d → ℝ) => dirNoise R p.1 p.2 := by
    refine measurable_pi_lambda _ fun i => Measurable.div (Measurable.mul (hR.comp ?_) ?_)
      (measurable_rad.comp measurable_fst) <;> fun_prop
  have hbd : ∀ᵐ u ∂(Measure.pi fun _ : Fin d => Spec.unitLaw), ∀ i, |R (u i)| ≤ 1 := by
    filter_upwards [ae_unit] with u hu i
    obtain ⟨h0, h1⟩ := hb _ (hu i).1 (hu i).2
    rw [abs_of_nonneg h0]
    exact h1
  have r1 : ∀ i : Fin d, Integrable (fun u : Fin d → ℝ => R (u i)) (Measure.pi fun _ : Fin d => Spec.unitLaw) := by
    intro i
    refine (integrable_const (1:ℝ)).mono' (hR.comp (measurable_pi_apply i)).aestronglyMeasurable ?_
    filter_upwards [hbd] with u hu
    exact hu i
  have r2 : ∀ i j : Fin d, Integrable (fun u : Fin d → ℝ => R (u i) * R (u j)) (Measure.pi fun _ : Fin d => Spec.unitLaw) := by
    intro i j
    refine (integrable_const (1:ℝ)).mono' ((hR.comp (measurable_pi_apply i)).mul
      (hR.comp (measurable_pi_apply j))).aestronglyMeasurable ?_
    filter_upwards [hbd] with u hu
    rw [Real.norm_eq_abs, abs_mul]
    exact mul_le_one₀ (hu i) (abs_nonneg _) (hu j)
  have e1 : ∀ (p : (Fin d → ℝ) × (Fin d → ℝ)) i, dirNoise R p.1 p.2 i = p.1 i / rad p.1 * R (p.2 i) := by
    intro p i; rw [dirNoise]; ring
  have e2 : ∀ (p : (Fin d → ℝ) × (Fin d → ℝ)) i j, dirNoise R p.1 p.2 i * dirNoise R p.1 p.2 j
      = p.1 i * p.1 j / (p.1 ⬝ᵥ p.1) * (R (p.2 i) * R (p.2 j)) := by
    intro p i j
    rw [e1, e1, ← rad_mul_self, mul_mul_mul_comm, div_mul_div_comm]
  have s1 : ∀ i : Fin d, AEStronglyMeasurable (fun x : Fin d → ℝ => x i)
      (((Measure.pi fun _ : Fin d => gaussianReal 0 1).prod (Measure.pi fun _ : Fin d => Spec.unitLaw)).map
      fun p => dirNoise R p.1 p.2) := fun i => (measurable_pi_apply i).aestronglyMeasurable
  have s2 : ∀ i j : Fin d, AEStronglyMeasurable (fun x : Fin d → ℝ => x i * x j)
      (((Measure.pi fun _ : Fin d => gaussianReal 0 1).prod (Measure.pi fun _ : Fin d => Spec.unitLaw)).map
      fun p => dirNoise R p.1 p.2) := fun i j => ((measurable_pi_apply i).mul (measurable_pi_apply j)).aestronglyMeasurable
  refine ⟨fun i => ⟨?_, ?_⟩, fun i j => ⟨?_, ?_⟩⟩
  · rw [integrable_map_measure (s1 i) hm.aemeasurable]
    simp only [Function.comp_def, e1]
    exact (d1 i).1.mul_prod (r1 i)
  · rw [integral_map hm.aemeasurable (s1 i)]
    simp only [e1]
    rw [integral_prod_mul (fun g : Fin d → ℝ => g i / rad g) (fun u : Fin d → ℝ => R (u i)), (d1 i).2, zero_mul]
  · rw [integrable_map_measure (s2 i j) hm.aemeasurable]
    simp only [Function.comp_def, e2]
    exact (d2 i j).1.mul_prod (r2 i j)
  · rw [integral_map hm.aemeasurable (s2 i j)]
    simp only [e2]
    rw [integral_prod_mul (fun g : Fin d → ℝ => g i * g j / (g ⬝ᵥ g)) (fun u : Fin d → ℝ => R (u i) * R (u j)),
      (d2 i j).2]
    split_ifs with h
    · subst h
      rw [integral_comp_eval (μ := fun _ : Fin d => Spec.unitLaw) (f := fun t : ℝ => R t * R t)
        (hR.mul hR).aestronglyMeasurable]
      ring
    · rw [zero_mul]

/-! ### The radii -/

lemma integral_unitLaw (f : ℝ → ℝ) : ∫ u, f u ∂Spec.unitLaw = ∫ u in (0:ℝ)..1, f u := by
  rw [Spec.unitLaw, intervalIntegral.integral_of_le zero_le_one, integral_Ico_eq_integral_Ioc]

lemma box_radius (hd : 0 < d) :
    ∫ u, u ^ (1 / (d : ℝ)) * u ^ (1 / (d : ℝ)) ∂Spec.unitLaw = d / (d + 2) := by
  have hd' : (0:ℝ) < d := by exact_mod_cast hd
  rw [integral_unitLaw]
  have : ∀ u ∈ Set.uIcc (0:ℝ) 1, u ^ (1 / (d : ℝ)) * u ^ (1 / (d : ℝ)) = u ^ (2 / (d : ℝ)) := by
    intro u hu
    rw [Set.uIcc_of_le zero_le_one] at hu
    rw [← Real.rpow_add_of_nonneg hu.1 (by positivity) (by positivity)]
    congr 1
    ring
  rw [intervalIntegral.integral_congr this, integral_rpow (Or.inl (by
    have : 0 < 2 / (d : ℝ) := by positivity
    linarith)), Real.one_rpow, Real.zero_rpow (by positivity)]
  field_simp
  ring

lemma triweightCdf_concave : StrictConcaveOn ℝ (Set.Icc 0 1) triweightCdf := by
  have hd : deriv triweightCdf = fun x => 70 / 32 * (1 - x ^ 2) ^ 3 := funext fun x => (triweightCdf_hasDerivAt x).deriv
  refine StrictAntiOn.strictConcaveOn_of_deriv (convex_Icc 0 1) (by unfold triweightCdf; fun_prop) ?_
  rw [interior_Icc, hd]
  intro x hx y hy hxy
  have h1 : 0 ≤ 1 - y ^ 2 := by nlinarith [hy.1, hy.2]
  have h2 : 1 - y ^ 2 < 1 - x ^ 2 := by nlinarith [hx.1]
  have := pow_lt_pow_left₀ h2 h1 (n := 3) (by norm_num)
  simp only
  linarith

/-- The tabulated radius is larger than the exact one, except at the points of the table. -/
lemma triRadius_above {y : ℝ} (hy : y ∈ Set.Icc (0:ℝ) 1) (hn : ∀ k : ℕ, y ≠ k / 999) : y < triRadius (triweightCdf y) := by
  have hu := (C63_cdf.2.1 : Set.BijOn triweightCdf (Set.Icc 0 1) (Set.Icc 0 1)).mapsTo hy
  have hlen : triYs.length = triXs.length := by rw [triYs_eq]; simp
  have hlen2 := triXs_length
  have hY : ∀ j (h : j < triYs.length), triYs[j] = triweightCdf (triXs[j]'(by omega)) := by
    intro j h
    simp only [triYs_eq, List.getElem_map]
  obtain ⟨j, hj, t, hlo, hhi, ht0, ht1, hxe, he⟩ := interp1d_between (xp := triYs) (fp := triXs) triYs_pairwise
    (by omega) (by omega) (x := triweightCdf y)
    (by rw [hY, triXs_getElem]; simpa [triweightCdf_zero] using hu.1)
    (by
      rw [hY, triXs_getElem]
      have : ((triYs.length - 1 : ℕ) : ℝ) / 999 = 1 := by rw [hlen, hlen2]; norm_num
      rw [this, triweightCdf_one]; exact hu.2)
  have e1 : triXs[j]'(by omega) = (j : ℝ) / 999 := triXs_getElem j _
  have e2 : triXs[j + 1]'(by omega) = ((j + 1 : ℕ) : ℝ) / 999 := triXs_getElem (j + 1) _
  have m1 := triXs_mem j (by omega)
  have m2 := triXs_mem (j + 1) (by omega)
  rw [hY, hY] at hxe
  have hinj := (C63_cdf.2.1 : Set.BijOn triweightCdf (Set.Icc 0 1) (Set.Icc 0 1)).injOn
  have hr : triRadius (triweightCdf y) = triXs[j]'(by omega) + t * (triXs[j + 1]'(by omega) - triXs[j]'(by omega)) := by
    rw [triRadius, triInverse, he]; rfl
  have ht0' : 0 < t := by
    refine lt_of_le_of_ne ht0 fun h => hn j ?_
    rw [← h, zero_mul, add_zero] at hxe
    rw [hinj hy m1 hxe, e1]
  have ht1' : t < 1 := by
    refine lt_of_le_of_ne ht1 fun h => hn (j + 1) ?_
    rw [h, one_mul, add_sub_cancel] at hxe
    rw [hinj hy m2 hxe, e2]
  have hne : triXs[j]'(by omega) ≠ triXs[j + 1]'(by omega) := by
    rw [e1, e2]; push_cast; intro h; linarith
  have hc := triweightCdf_concave.2 m1 m2 hne (show 0 < 1 - t by linarith) ht0' (by ring)
  simp only [smul_eq_mul] at hc
  have e : (1 - t) * triXs[j]'(by omega) + t * triXs[j + 1]'(by omega)
      = triXs[j]'(by omega) + t * (triXs[j + 1]'(by omega) - triXs[j]'(by omega)) := by ring
  rw [e, ← hr] at hc
  have hcr : triweightCdf y < triweightCdf (triRadius (triweightCdf y)) := by rw [hxe] at hc ⊢; linarith
  have hmem := (triInverse_radius hu.1 hu.2).2
  exact (triweightCdf_strictMono.lt_iff_lt hy hmem).mp hcr

/-- The mean square of the tabulated radius is larger than the variance 1/9 of the kernel on the line, but close to it. -/
lemma tri_radius : 1 / 9 < ∫ u, triRadius u * triRadius u ∂Spec.unitLaw ∧
    ∫ u, triRadius u * triRadius u ∂Spec.unitLaw ≤ 1 / 9 + 2 / 999 := by
  set f' : ℝ → ℝ := fun x => 70 / 32 * (1 - x ^ 2) ^ 3 with hf'
  have hf0 : ∀ x ∈ Set.Icc (0:ℝ) 1, 0 ≤ f' x := by
    intro x hx
    have : 0 ≤ 1 - x ^ 2 := by nlinarith [hx.1, hx.2]
    simp only [hf']
    positivity
  have hfc : Continuous f' := by fun_prop
  have hbij : Set.BijOn triweightCdf (Set.Icc 0 1) (Set.Icc 0 1) := C63_cdf.2.1
  have hcdf : Continuous triweightCdf := by unfold triweightCdf; fun_prop
  have hder : ∀ y : ℝ, HasDerivAt triweightCdf (f' y) y := triweightCdf_hasDerivAt
  have hcv := integral_image_eq_integral_abs_deriv_smul (f := triweightCdf) (f' := f') measurableSet_Icc
    (fun x _ => (hder x).hasDerivWithinAt) hbij.injOn fun u => triRadius u * triRadius u
  rw [hbij.image_eq] at hcv
  have hR : ∀ y ∈ Set.Icc (0:ℝ) 1, 0 ≤ triRadius (triweightCdf y) ∧ triRadius (triweightCdf y) ≤ 1 ∧
      |triRadius (triweightCdf y) - y| ≤ 1 / 999 := by
    intro y hy
    have hu := hbij.mapsTo hy
    obtain ⟨x, hx, h2, h3, h4⟩ := C63_inverse _ hu.1 hu.2
    have : triRadius (triweightCdf y) = x := by rw [triRadius, hx]; rfl
    rw [this]
    exact ⟨h2, h3, h4 y hy rfl⟩
  have hsq : ∀ y ∈ Set.Icc (0:ℝ) 1, |triRadius (triweightCdf y) * triRadius (triweightCdf y) - y * y| ≤ 2 / 999 := by
    intro y hy
    obtain ⟨h1, h2, h3⟩ := hR y hy
    have e : triRadius (triweightCdf y) * triRadius (triweightCdf y) - y * y
        = (triRadius (triweightCdf y) - y) * (triRadius (triweightCdf y) + y) := by ring
    rw [e, abs_mul, abs_of_nonneg (by linarith [hy.1] : 0 ≤ triRadius (triweightCdf y) + y)]
    nlinarith [hy.1, hy.2, abs_nonneg (triRadius (triweightCdf y) - y)]
  have hval : ∀ g G : ℝ → ℝ, (∀ y, HasDerivAt G (f' y * g y) y) → Continuous g →
      ∫ y in Set.Icc (0:ℝ) 1, f' y * g y = G 1 - G 0 := by
    intro g G hG hg
    rw [integral_Icc_eq_integral_Ioc, ← intervalIntegral.integral_of_le zero_le_one]
    exact intervalIntegral.integral_eq_sub_of_hasDerivAt (fun y _ => hG y) ((hfc.mul hg).intervalIntegrable _ _)
  have h9 : ∫ y in Set.Icc (0:ℝ) 1, f' y * (y * y) = 1 / 9 := by
    rw [hval (fun y => y * y) (fun y => 70 / 32 * ((1 / 3 : ℝ) * y ^ 3 - 3 / 5 * y ^ 5 + 3 / 7 * y ^ 7 - 1 / 9 * y ^ 9)) ?_
      (by fun_prop)]
    · norm_num
    · intro y
      have h := (((((hasDerivAt_pow 3 y).const_mul (1 / 3 : ℝ)).sub ((hasDerivAt_pow 5 y).const_mul (3 / 5 : ℝ))).add
        ((hasDerivAt_pow 7 y).const_mul (3 / 7 : ℝ))).sub ((hasDerivAt_pow 9 y).const_mul (1 / 9 : ℝ))).const_mul
          (70 / 32 : ℝ)
      refine h.congr_deriv ?_
      simp only [hf']
      norm_num
      ring
  have h1 : ∫ y in Set.Icc (0:ℝ) 1, f' y * (2 / 999) = 2 / 999 := by
    rw [hval (fun y => 2 / 999) (fun y => triweightCdf y * (2 / 999)) (fun y => (hder y).mul_const _)
      continuous_const, triweightCdf_one, triweightCdf_zero]
    ring
  have hint2 : IntegrableOn (fun y => f' y * (y * y)) (Set.Icc 0 1) :=
    (by fun_prop : Continuous fun y => f' y * (y * y)).integrableOn_Icc
  have hint1 : IntegrableOn (fun y => f' y * (triRadius (triweightCdf y) * triRadius (triweightCdf y))) (Set.Icc 0 1) := by
    refine Integrable.mono' (hfc.integrableOn_Icc (a := 0) (b := 1)) ?_ ?_
    · have hm := measurable_triRadius.comp hcdf.measurable
      exact (hfc.measurable.mul (hm.mul hm)).aestronglyMeasurable
    · refine (ae_restrict_iff' measurableSet_Icc).mpr (ae_of_all _ fun y hy => ?_)
      obtain ⟨h1, h2, _⟩ := hR y hy
      rw [Real.norm_eq_abs, abs_of_nonneg (mul_nonneg (hf0 y hy) (mul_nonneg h1 h1))]
      exact mul_le_of_le_one_right (hf0 y hy) (mul_le_one₀ h2 h1 h2)
  have hcv' : ∫ u, triRadius u * triRadius u ∂Spec.unitLaw
      = ∫ y in Set.Icc (0:ℝ) 1, f' y * (triRadius (triweightCdf y) * triRadius (triweightCdf y)) := by
    rw [Spec.unitLaw, integral_Ico_eq_integral_Ioc, ← integral_Icc_eq_integral_Ioc, hcv]
    refine setIntegral_congr_fun measurableSet_Icc fun y hy => ?_
    simp only [abs_of_nonneg (hf0 y hy), smul_eq_mul]
  have hbound : IntegrableOn (fun y => f' y * (2 / 999)) (Set.Icc 0 1) :=
    (by fun_prop : Continuous fun y => f' y * (2 / 999)).integrableOn_Icc
  have habs : |∫ u, triRadius u * triRadius u ∂Spec.unitLaw - 1 / 9| ≤ 2 / 999 := by
    rw [hcv', ← h9, ← integral_sub hint1 hint2, ← h1]
    rw [← Real.norm_eq_abs]
    refine norm_integral_le_of_norm_le hbound
      ((ae_restrict_iff' measurableSet_Icc).mpr (ae_of_all _ fun y hy => ?_))
    rw [← mul_sub, Real.norm_eq_abs, abs_mul, abs_of_nonneg (hf0 y hy)]
    exact mul_le_mul_of_nonneg_left (hsq y hy) (hf0 y hy)
  refine ⟨?_, by linarith [(abs_le.mp habs).2]⟩
  rw [← sub_pos, hcv', ← h9, ← integral_sub hint1 hint2]
  set nodes : Set ℝ := Set.range fun k : ℕ => (k:ℝ) / 999 with hnodes
  have hnull : volume nodes = 0 := (Set.countable_range _).measure_zero _
  have hlt : ∀ y ∈ Set.Ioo (0:ℝ) 1 \ nodes, 0 < f' y * (triRadius (triweightCdf y) * triRadius (triweightCdf y)) - f' y * (y * y) := by
    intro y hy
    have h2 := triRadius_above ⟨hy.1.1.le, hy.1.2.le⟩ fun k hk => hy.2 ⟨k, hk.symm⟩
    have h3 : 0 < f' y := by
      have : 0 < 1 - y ^ 2 := by nlinarith [hy.1.1, hy.1.2]
      simp only [hf']
      positivity
    rw [← mul_sub]
    exact mul_pos h3 (by nlinarith [hy.1.1])
  have hio : volume (Set.Ioo (0:ℝ) 1 \ nodes) = 1 := by
    rw [measure_sdiff_null hnull]
    simp
  have hint : IntegrableOn (fun y => f' y * (triRadius (triweightCdf y) * triRadius (triweightCdf y)) - f' y * (y * y))
      (Set.Icc 0 1) := hint1.sub hint2
  rw [integral_pos_iff_support_of_nonneg_ae ?_ hint]
  · rw [Measure.restrict_apply' measurableSet_Icc]
    refine lt_of_lt_of_le (by rw [hio]; exact one_pos) (measure_mono (s := Set.Ioo (0:ℝ) 1 \ nodes) fun y hy => ⟨?_, ?_⟩)
    · exact (hlt y hy).ne'
    · exact ⟨hy.1.1.le, hy.1.2.le⟩
  · have hset : (Set.Ioo (0:ℝ) 1 \ nodes : Set ℝ) =ᵐ[volume] Set.Icc (0:ℝ) 1 := by
      refine (sdiff_null_ae_eq_self hnull).trans Ioo_ae_eq_Icc
    have hm : MeasurableSet (Set.Ioo (0:ℝ) 1 \ nodes) := measurableSet_Ioo.diff (Set.countable_range _).measurableSet
    rw [← Measure.restrict_congr_set hset]
    exact (ae_restrict_iff' hm).mpr (ae_of_all _ fun y hy => (hlt y hy).le)

/-! ### All kernels -/

/-- Specification: `v` is the variance of the noise of the sampler: exact for the Gaussian, the box and the parabola, and
slightly more than `1/(9d)` for the triweight. -/
def Spec.SampleVar : Dist → ℕ → ℝ → Prop
  | .gaussian, _, v => v = 1
  | .box, d, v => v = 1 / (d + 2)
  | .parabola, _, v => v = 1 / 5
  | .triweight, d, v => 1 / 9 < d * v ∧ d * v ≤ 1 / 9 + 2 / 999

theorem noise_moments (hd : 0 < d) (D : Dist) : ∃ v, Spec.SampleVar D d v ∧ NoiseMoments (noiseLaw D d) v := by
  have hd' : (d:ℝ) ≠ 0 := by positivity
  cases D with
  | gaussian =>
    refine ⟨1, rfl, ?_⟩
    have h : noiseLaw .gaussian d = volume.withDensity (noiseDensity .gaussian d) := by
      rw [← gaussian_noise]
      exact measurePreserving_fst.map_eq
    rw [h]
    exact density_moments hd .gaussian
  | parabola =>
    refine ⟨1 / 5, rfl, ?_⟩
    have hp : IsProbabilityMeasure ((Spec.symLaw.prod (Spec.symLaw.prod Spec.symLaw)).map median3) :=
      Measure.isProbabilityMeasure_map measurable_median3.aemeasurable
    have hm : MeasurePreserving (fun (t : Fin d → ℝ × ℝ × ℝ) i => median3 (t i))
        (Measure.pi fun _ : Fin d => Spec.symLaw.prod (Spec.symLaw.prod Spec.symLaw))
        (Measure.pi fun _ : Fin d => (Spec.symLaw.prod (Spec.symLaw.prod Spec.symLaw)).map median3) :=
      measurePreserving_pi _ _ fun _ => ⟨measurable_median3, rfl⟩
    have h := hm.comp (measurePreserving_snd (μ := Measure.pi fun _ : Fin d => Spec.symLaw))
    have h := h.comp (measurePreserving_snd (μ := Measure.pi fun _ : Fin d => Spec.unitLaw))
    have h := h.comp (measurePreserving_snd (μ := Measure.pi fun _ : Fin d => gaussianReal 0 1))
    have e : noiseLaw .parabola d = Measure.pi fun _ : Fin d => (Spec.symLaw.prod (Spec.symLaw.prod Spec.symLaw)).map median3 :=
      h.map_eq
    rw [e]
    have := pi_moments1 (d := d) .parabola parabola_noise1
    norm_num [Spec.kernelVar] at this
    norm_num
    exact this
  | box =>
    refine ⟨1 / (d + 2), rfl, ?_⟩
    by_cases h1 : d = 1
    · subst h1
      have h := (measurePreserving_fst (μ := Measure.pi fun _ : Fin 1 => Spec.symLaw)
        (ν := Measure.pi fun _ : Fin 1 => Spec.symLaw.prod (Spec.symLaw.prod Spec.symLaw)))
      have h := h.comp (measurePreserving_snd (μ := Measure.pi fun _ : Fin 1 => Spec.unitLaw))
      have h := h.comp (measurePreserving_snd (μ := Measure.pi fun _ : Fin 1 => gaussianReal 0 1))
      have e : noiseLaw .box 1 = Measure.pi fun _ : Fin 1 => Spec.symLaw := by
        rw [← h.map_eq]
        rfl
      rw [e]
      exact pi_moments1 (d := 1) .box box_noise1
    · have h := (MeasurePreserving.id (Measure.pi fun _ : Fin d => gaussianReal 0 1)).prod
        (measurePreserving_fst (μ := Measure.pi fun _ : Fin d => Spec.unitLaw)
        (ν := (Measure.pi fun _ : Fin d => Spec.symLaw).prod
          (Measure.pi fun _ : Fin d => Spec.symLaw.prod (Spec.symLaw.prod Spec.symLaw))))
      have hR : Measurable fun u : ℝ => u ^ (1 / (d : ℝ)) := by fun_prop
      have e : noiseLaw .box d = ((Measure.pi fun _ : Fin d => gaussianReal 0 1).prod
          (Measure.pi fun _ : Fin d => Spec.unitLaw)).map fun p => dirNoise (fun u => u ^ (1 / (d : ℝ))) p.1 p.2 := by
        rw [← h.map_eq, Measure.map_map _ h.measurable, noiseLaw]
        · congr 1
          funext t
          simp only [noiseFn, if_neg h1]
          rfl
        · refine measurable_pi_lambda _ fun i => Measurable.div (Measurable.mul (hR.comp ?_) ?_)
            (measurable_rad.comp measurable_fst) <;> fun_prop
      rw [e]
      have := dirNoise_moments hd hR fun u h0 h1 => ⟨by positivity, Real.rpow_le_one h0 h1.le (by positivity)⟩
      rw [box_radius hd, div_div, mul_comm, ← div_div, div_self hd'] at this
      exact this
  | triweight =>
    refine ⟨(∫ u, triRadius u * triRadius u ∂Spec.unitLaw) / d, ?_, ?_⟩
    · simp only [Spec.SampleVar]
      rw [mul_div_cancel₀ _ hd']
      exact tri_radius
    · have h := (MeasurePreserving.id (Measure.pi fun _ : Fin d => gaussianReal 0 1)).prod
        (measurePreserving_fst (μ := Measure.pi fun _ : Fin d => Spec.unitLaw)
        (ν := (Measure.pi fun _ : Fin d => Spec.symLaw).prod
          (Measure.pi fun _ : Fin d => Spec.symLaw.prod (Spec.symLaw.prod Spec.symLaw))))
      have e : noiseLaw .triweight d = ((Measure.pi fun _ : Fin d => gaussianReal 0 1).prod
          (Measure.pi fun _ : Fin d => Spec.unitLaw)).map fun p => dirNoise triRadius p.1 p.2 := by
        rw [← h.map_eq, Measure.map_map _ h.measurable, noiseLaw]
        · rfl
        · refine measurable_pi_lambda _ fun i => Measurable.div (Measurable.mul (measurable_triRadius.comp ?_) ?_)
            (measurable_rad.comp measurable_fst) <;> fun_prop
      rw [e]
      exact dirNoise_moments hd measurable_triRadius fun u h0 h1 => (triInverse_radius h0 h1.le).2

end Kalepy
