import Verif.Proofs.NoiseMoments

/-!
# The noise of the box kernel in several dimensions
-/

namespace Kalepy

open MeasureTheory ProbabilityTheory Matrix

variable {d : ℕ}

/-- Mixed moments up to the second power. -/
noncomputable def mom (ν : Measure (Fin d → ℝ)) (i j : Fin d) (a b : ℕ) : ℝ := ∫ x, x i ^ a * x j ^ b ∂ν

/-- If two kinds of noise have the same mixed moments of lower order, and adding them to a chosen point gives the same
law, then also the moments of fourth order are the same. -/
lemma fourth_of_law (D : Dist) {data : List (Fin d → ℝ)} (hne : data ≠ []) {w : Option (List ℝ)}
    (hw : OkW data.length w) {L : Matrix (Fin d) (Fin d) ℝ} (hL : IsUnit L.det) {ν₁ ν₂ : Measure (Fin d → ℝ)}
    [IsProbabilityMeasure ν₁] [IsProbabilityMeasure ν₂] {i j : Fin d}
    (hi₁ : ∀ a ∈ Finset.range 3, ∀ b ∈ Finset.range 3, Integrable (fun x => x i ^ a * x j ^ b) ν₁)
    (hi₂ : ∀ a ∈ Finset.range 3, ∀ b ∈ Finset.range 3, Integrable (fun x => x i ^ a * x j ^ b) ν₂)
    (hm : ∀ a ∈ Finset.range 3, ∀ b ∈ Finset.range 3, ¬ (a = 2 ∧ b = 2) → mom ν₁ i j a b = mom ν₂ i j a b)
    (he : (ν₁.prod Spec.unitLaw).map (sampleOf D data w L) = (ν₂.prod Spec.unitLaw).map (sampleOf D data w L)) :
    mom ν₁ i j 2 2 = mom ν₂ i j 2 2 := by
  have hn : 0 < data.length := List.length_pos_iff.mpr hne
  set c : ℝ → Fin d → ℝ := fun u => L⁻¹ *ᵥ data.getD (choiceIndex data.length w u) 0 with hc
  set h : ℕ → ℕ → ℝ → ℝ := fun a b u => c u i ^ (2 - a) * c u j ^ (2 - b) * ((Nat.choose 2 a * Nat.choose 2 b : ℕ) : ℝ) with hh
  have hhi : ∀ a b, Integrable (h a b) Spec.unitLaw := fun a b =>
    (integral_choice hn hw fun n => (L⁻¹ *ᵥ data.getD n 0) i ^ (2 - a) * (L⁻¹ *ᵥ data.getD n 0) j ^ (2 - b)
      * ((Nat.choose 2 a * Nat.choose 2 b : ℕ) : ℝ)).1
  have hf : Measurable fun x : Fin d → ℝ => (L⁻¹ *ᵥ x) i ^ 2 * (L⁻¹ *ᵥ x) j ^ 2 := by
    unfold mulVec dotProduct
    fun_prop
  have hso := measurable_sampleOf D data w L
  have hexp : ∀ p : (Fin d → ℝ) × ℝ, (L⁻¹ *ᵥ sampleOf D data w L p) i ^ 2 * (L⁻¹ *ᵥ sampleOf D data w L p) j ^ 2
      = ∑ a ∈ Finset.range 3, ∑ b ∈ Finset.range 3, p.1 i ^ a * p.1 j ^ b * h a b p.2 := by
    intro p
    have e : L⁻¹ *ᵥ sampleOf D data w L p = p.1 + c p.2 := by
      rw [sampleOf, mulVec_add, mulVec_mulVec, nonsing_inv_mul L hL, one_mulVec, add_comm]
    rw [e, Pi.add_apply, Pi.add_apply, add_pow, add_pow, Finset.sum_mul_sum]
    refine Finset.sum_congr rfl fun a _ => Finset.sum_congr rfl fun b _ => ?_
    simp only [hh]
    push_cast
    ring
  have key : ∀ ν : Measure (Fin d → ℝ), IsProbabilityMeasure ν →
      (∀ a ∈ Finset.range 3, ∀ b ∈ Finset.range 3, Integrable (fun x => x i ^ a * x j ^ b) ν) →
      ∫ x, (L⁻¹ *ᵥ x) i ^ 2 * (L⁻¹ *ᵥ x) j ^ 2 ∂((ν.prod Spec.unitLaw).map (sampleOf D data w L))
        = ∑ a ∈ Finset.range 3, ∑ b ∈ Finset.range 3, mom ν i j a b * ∫ u, h a b u ∂Spec.unitLaw := by
    intro ν _ hi
    rw [integral_map hso.aemeasurable hf.aestronglyMeasurable]
    simp only [hexp]
    have hp : ∀ a ∈ Finset.range 3, ∀ b ∈ Finset.range 3,
        Integrable (fun p : (Fin d → ℝ) × ℝ => p.1 i ^ a * p.1 j ^ b * h a b p.2) (ν.prod Spec.unitLaw) :=
      fun a ha b hb => (hi a ha b hb).mul_prod (hhi a b)
    rw [integral_finsetSum _ fun a ha => integrable_finset_sum _ fun b hb => hp a ha b hb]
    refine Finset.sum_congr rfl fun a ha => ?_
    rw [integral_finsetSum _ fun b hb => hp a ha b hb]
    refine Finset.sum_congr rfl fun b _ => ?_
    rw [integral_prod_mul (fun x : Fin d → ℝ => x i ^ a * x j ^ b) (h a b), mom]
  have h1 := key ν₁ inferInstance hi₁
  rw [he, key ν₂ inferInstance hi₂] at h1
  simp only [Finset.sum_range_succ, Finset.sum_range_zero, zero_add] at h1
  have r : ∀ n, n < 3 → n ∈ Finset.range 3 := fun n hn => Finset.mem_range.mpr hn
  rw [hm 0 (r 0 (by norm_num)) 0 (r 0 (by norm_num)) (by simp), hm 0 (r 0 (by norm_num)) 1 (r 1 (by norm_num)) (by simp),
    hm 0 (r 0 (by norm_num)) 2 (r 2 (by norm_num)) (by simp), hm 1 (r 1 (by norm_num)) 0 (r 0 (by norm_num)) (by simp),
    hm 1 (r 1 (by norm_num)) 1 (r 1 (by norm_num)) (by simp), hm 1 (r 1 (by norm_num)) 2 (r 2 (by norm_num)) (by simp),
    hm 2 (r 2 (by norm_num)) 0 (r 0 (by norm_num)) (by simp), hm 2 (r 2 (by norm_num)) 1 (r 1 (by norm_num)) (by simp)] at h1
  have h22 : ∫ u, h 2 2 u ∂Spec.unitLaw = 1 := by simp [hh]
  rw [h22] at h1
  linarith

/-! ### The two kinds of noise -/

lemma integral_radial3 (φ : ℝ → ℝ) (i j : Fin d) : ∫ x : Fin d → ℝ, x i ^ 2 * x j * φ (x ⬝ᵥ x) = 0 := by
  have h := integral_neg_eq_self (fun x : Fin d → ℝ => x i ^ 2 * x j * φ (x ⬝ᵥ x)) volume
  simp only [Pi.neg_apply, neg_dotProduct_neg, neg_sq, mul_neg, neg_mul, integral_neg] at h
  linarith

lemma dot_nonneg (x : Fin d → ℝ) : 0 ≤ x ⬝ᵥ x := by rw [← rad_mul_self]; exact mul_self_nonneg _

/-- The moments up to the second power of noise with mean zero and covariance `v`. -/
lemma mom_low {ν : Measure (Fin d → ℝ)} [IsProbabilityMeasure ν] {v : ℝ} (hν : NoiseMoments ν v) {i j : Fin d}
    (hij : i ≠ j) : mom ν i j 0 0 = 1 ∧ mom ν i j 0 1 = 0 ∧ mom ν i j 1 0 = 0 ∧ mom ν i j 1 1 = 0 ∧
      mom ν i j 2 0 = v ∧ mom ν i j 0 2 = v := by
  have h1 := fun i => (hν.first i).2
  have h2 := fun i j => (hν.second i j).2
  refine ⟨by simp [mom], by simpa [mom] using h1 j, by simpa [mom] using h1 i, by simpa [mom, hij] using h2 i j, ?_, ?_⟩
  · have := h2 i i
    simp only [if_true, ← sq] at this
    simpa [mom] using this
  · have := h2 j j
    simp only [if_true, ← sq] at this
    simpa [mom] using this

lemma mom_swap (ν : Measure (Fin d → ℝ)) (i j : Fin d) (a b : ℕ) : mom ν i j a b = mom ν j i b a := by
  simp only [mom, mul_comm]

/-- Two bounded kinds of noise with the same covariance and vanishing third moments. -/
lemma fourth_of_law' (D : Dist) {data : List (Fin d → ℝ)} (hne : data ≠ []) {w : Option (List ℝ)}
    (hw : OkW data.length w) {L : Matrix (Fin d) (Fin d) ℝ} (hL : IsUnit L.det) {ν₁ ν₂ : Measure (Fin d → ℝ)}
    [IsProbabilityMeasure ν₁] [IsProbabilityMeasure ν₂] {i j : Fin d} (hij : i ≠ j) {v : ℝ}
    (n₁ : NoiseMoments ν₁ v) (n₂ : NoiseMoments ν₂ v) (b₁ : ∀ᵐ x ∂ν₁, ∀ i, |x i| ≤ 1) (b₂ : ∀ᵐ x ∂ν₂, ∀ i, |x i| ≤ 1)
    (t₁ : ∀ i j, mom ν₁ i j 2 1 = 0) (t₂ : ∀ i j, mom ν₂ i j 2 1 = 0)
    (he : (ν₁.prod Spec.unitLaw).map (sampleOf D data w L) = (ν₂.prod Spec.unitLaw).map (sampleOf D data w L)) :
    mom ν₁ i j 2 2 = mom ν₂ i j 2 2 := by
  have hi : ∀ ν : Measure (Fin d → ℝ), IsProbabilityMeasure ν → (∀ᵐ x ∂ν, ∀ i, |x i| ≤ 1) →
      ∀ a ∈ Finset.range 3, ∀ b ∈ Finset.range 3, Integrable (fun x : Fin d → ℝ => x i ^ a * x j ^ b) ν := by
    intro ν _ hb a _ b _
    refine (integrable_const (1:ℝ)).mono' (by fun_prop) ?_
    filter_upwards [hb] with x hx
    rw [Real.norm_eq_abs, abs_mul, abs_pow, abs_pow]
    exact mul_le_one₀ (pow_le_one₀ (abs_nonneg _) (hx i)) (by positivity) (pow_le_one₀ (abs_nonneg _) (hx j))
  refine fourth_of_law D hne hw hL (hi ν₁ inferInstance b₁) (hi ν₂ inferInstance b₂) ?_ he
  obtain ⟨a1, a2, a3, a4, a5, a6⟩ := mom_low n₁ hij
  obtain ⟨c1, c2, c3, c4, c5, c6⟩ := mom_low n₂ hij
  intro a ha b hb hab
  rw [Finset.mem_range] at ha hb
  interval_cases a <;> interval_cases b
  · rw [a1, c1]
  · rw [a2, c2]
  · rw [a6, c6]
  · rw [a3, c3]
  · rw [a4, c4]
  · rw [mom_swap, t₁, mom_swap, t₂]
  · rw [a5, c5]
  · rw [t₁, t₂]
  · simp at hab

/-! ### Noise with the density of the box -/

lemma box_prob (hd : 0 < d) : IsProbabilityMeasure (volume.withDensity (noiseDensity .box d)) := by
  constructor
  rw [withDensity_apply _ MeasurableSet.univ, Measure.restrict_univ]
  simp only [noiseDensity]
  rw [← ofReal_integral_eq_lintegral_ofReal ((integrable_shape hd .box).div_const _)
    (ae_of_all _ fun x => div_nonneg (shape_nonneg' _ _) (Dist.box.norm_pos d hd).le), integral_div, integral_shape hd,
    div_self (Dist.box.norm_pos d hd).ne', ENNReal.ofReal_one]

lemma box_bounded : ∀ᵐ x ∂(volume.withDensity (noiseDensity .box d)), ∀ i, |x i| ≤ 1 := by
  rw [ae_withDensity_iff (measurable_noiseDensity .box)]
  refine ae_of_all _ fun x hx i => ?_
  have : x ⬝ᵥ x ≤ 1 := by
    by_contra h
    refine hx ?_
    simp [noiseDensity, Spec.shape, h]
  exact abs_le_one_iff_mul_self_le_one.mpr (by have := sq_le_dot x i; nlinarith)

lemma box_third (hd : 0 < d) (i j : Fin d) : mom (volume.withDensity (noiseDensity .box d)) i j 2 1 = 0 := by
  rw [mom, integral_noise hd]
  simp only [pow_one, integral_radial3, zero_div]

lemma box_fourth (hd : 0 < d) {i j : Fin d} (hij : i ≠ j) :
    mom (volume.withDensity (noiseDensity .box d)) i j 2 2 = 1 / ((d + 2) * (d + 4)) := by
  have hint : Integrable fun x : Fin d → ℝ => (x ⬝ᵥ x) ^ 2 * Spec.shape .box (x ⬝ᵥ x) := by
    refine (integrable_shape hd .box).mono' ?_ (ae_of_all _ fun x => ?_)
    · exact (measurable_dot (φ := fun s => s ^ 2 * Spec.shape .box s)
        ((measurable_id.pow_const 2).mul (measurable_shape .box))).aestronglyMeasurable
    · have h0 := dot_nonneg x
      by_cases h : x ⬝ᵥ x ≤ 1
      · rw [Real.norm_eq_abs, abs_of_nonneg (mul_nonneg (sq_nonneg _) (shape_nonneg' _ _))]
        exact mul_le_of_le_one_left (shape_nonneg' _ _) (pow_le_one₀ h0 h)
      · simp [Spec.shape, h]
  rw [mom, integral_noise hd, integral_radial4 (measurable_shape .box) (shape_nonneg' _) hint hij]
  have hr : ∫ x : Fin d → ℝ, (x ⬝ᵥ x) ^ 2 * Spec.shape .box (x ⬝ᵥ x) = d * Dist.nballVol d * (1 / (d + 4)) := by
    rw [integral_radial hd fun s => s ^ 2 * Spec.shape .box s]
    congr 1
    have e : ∀ r : ℝ, r ^ (d - 1) * ((r ^ 2) ^ 2 * Spec.shape .box (r ^ 2))
        = r ^ (d + 3) * (if r ^ 2 ≤ 1 then 1 else 0) := by
      intro r
      rw [← mul_assoc, ← pow_mul, ← pow_add, show d - 1 + 2 * 2 = d + 3 by omega]
      rfl
    simp only [e]
    rw [integral_Ioi_cut (d + 3) fun _ => 1]
    simp only [mul_one, integral_pow, one_pow, zero_pow (Nat.succ_ne_zero _), sub_zero]
    push_cast
    ring
  have hv : Dist.box.norm d = Dist.nballVol d := rfl
  have hv0 := Dist.box.norm_pos d hd
  rw [hr, hv]
  rw [hv] at hv0
  have hd' : (d:ℝ) ≠ 0 := by positivity
  field_simp

/-! ### Noise of the sampler -/

/-- The law of the noise of the box kernel in several dimensions. -/
lemma noiseLaw_box (h1 : d ≠ 1) : noiseLaw .box d = ((Measure.pi fun _ : Fin d => gaussianReal 0 1).prod
    (Measure.pi fun _ : Fin d => Spec.unitLaw)).map fun p => dirNoise (fun u => u ^ (1 / (d : ℝ))) p.1 p.2 := by
  have h := (MeasurePreserving.id (Measure.pi fun _ : Fin d => gaussianReal 0 1)).prod
    (measurePreserving_fst (μ := Measure.pi fun _ : Fin d => Spec.unitLaw)
    (ν := (Measure.pi fun _ : Fin d => Spec.symLaw).prod
      (Measure.pi fun _ : Fin d => Spec.symLaw.prod (Spec.symLaw.prod Spec.symLaw))))
  have hR : Measurable fun u : ℝ => u ^ (1 / (d : ℝ)) := by fun_prop
  rw [← h.map_eq, Measure.map_map _ h.measurable, noiseLaw]
  · congr 1
    funext t
    simp only [noiseFn, if_neg h1]
    rfl
  · refine measurable_pi_lambda _ fun i => Measurable.div (Measurable.mul (hR.comp ?_) ?_)
      (measurable_rad.comp measurable_fst) <;> fun_prop

lemma measurable_dirNoise {R : ℝ → ℝ} (hR : Measurable R) :
    Measurable fun p : (Fin d → ℝ) × (Fin d → ℝ) => dirNoise R p.1 p.2 := by
  refine measurable_pi_lambda _ fun i => Measurable.div (Measurable.mul (hR.comp ?_) ?_)
    (measurable_rad.comp measurable_fst) <;> fun_prop

lemma box_sample_bounded (h1 : d ≠ 1) : ∀ᵐ x ∂(noiseLaw .box d), ∀ i, |x i| ≤ 1 := by
  have hR : Measurable fun u : ℝ => u ^ (1 / (d : ℝ)) := by fun_prop
  rw [noiseLaw_box h1, ae_map_iff (measurable_dirNoise hR).aemeasurable (by measurability)]
  have hu := Measure.quasiMeasurePreserving_snd (μ := Measure.pi fun _ : Fin d => gaussianReal 0 1) |>.ae (ae_unit (d := d))
  filter_upwards [hu] with p hp i
  have hr : 0 ≤ rad p.1 := Real.sqrt_nonneg _
  have h2 : |p.1 i| ≤ rad p.1 := by
    refine Real.abs_le_sqrt ?_
    exact Finset.single_le_sum (f := fun i => p.1 i ^ 2) (fun j _ => sq_nonneg _) (Finset.mem_univ i)
  have h3 : (0:ℝ) ≤ p.2 i ^ (1 / (d:ℝ)) := Real.rpow_nonneg (hp i).1 _
  have h4 : p.2 i ^ (1 / (d:ℝ)) ≤ 1 := Real.rpow_le_one (hp i).1 (hp i).2.le (by positivity)
  rw [dirNoise, abs_div, abs_mul, abs_of_nonneg h3, abs_of_nonneg hr]
  refine div_le_one_of_le₀ ?_ hr
  exact (mul_le_of_le_one_left (abs_nonneg _) h4).trans h2

lemma mom_dirNoise {R : ℝ → ℝ} (hR : Measurable R) (i j : Fin d) (a b : ℕ) :
    mom (((Measure.pi fun _ : Fin d => gaussianReal 0 1).prod (Measure.pi fun _ : Fin d => Spec.unitLaw)).map
      fun p => dirNoise R p.1 p.2) i j a b
    = (∫ g, g i ^ a * g j ^ b / rad g ^ (a + b) ∂(Measure.pi fun _ : Fin d => gaussianReal 0 1))
      * ∫ u, R (u i) ^ a * R (u j) ^ b ∂(Measure.pi fun _ : Fin d => Spec.unitLaw) := by
  rw [mom, integral_map (measurable_dirNoise hR).aemeasurable (by fun_prop), ← integral_prod_mul]
  refine integral_congr_ae (ae_of_all _ fun p => ?_)
  simp only [dirNoise, div_pow, mul_pow, pow_add]
  ring

lemma box_sample_third (h1 : d ≠ 1) (hd : 0 < d) (i j : Fin d) : mom (noiseLaw .box d) i j 2 1 = 0 := by
  rw [noiseLaw_box h1, mom_dirNoise (by fun_prop), gaussian_noise, integral_noise hd]
  have := integral_radial3 (d := d) (fun s => Spec.shape .gaussian s / Real.sqrt s ^ 3) i j
  have e : ∀ x : Fin d → ℝ, x i ^ 2 * x j ^ 1 / rad x ^ (2 + 1) * Spec.shape .gaussian (x ⬝ᵥ x)
      = x i ^ 2 * x j * (Spec.shape .gaussian (x ⬝ᵥ x) / Real.sqrt (x ⬝ᵥ x) ^ 3) := by
    intro x; rw [rad_eq]; ring
  simp only [e, this, zero_div, zero_mul]

lemma box_sample_fourth (h1 : d ≠ 1) (hd : 0 < d) {i j : Fin d} (hij : i ≠ j) :
    mom (noiseLaw .box d) i j 2 2 = d / (d + 2) ^ 3 := by
  have hd' : (d:ℝ) ≠ 0 := by positivity
  have hn := Dist.gaussian.norm_pos d hd
  have hR : Measurable fun u : ℝ => u ^ (1 / (d : ℝ)) := by fun_prop
  have hae : ∀ᵐ g : Fin d → ℝ, g ⬝ᵥ g ≠ 0 := by
    have hne : Nonempty (Fin d) := ⟨⟨0, hd⟩⟩
    filter_upwards [Measure.ae_ne (volume : Measure (Fin d → ℝ)) 0] with g hg h
    rw [dotProduct_self_eq_zero] at h
    exact hg h
  have hcong : (fun x : Fin d → ℝ => (x ⬝ᵥ x) ^ 2 * (Spec.shape .gaussian (x ⬝ᵥ x) / (x ⬝ᵥ x) ^ 2))
      =ᵐ[volume] fun x : Fin d → ℝ => Spec.shape .gaussian (x ⬝ᵥ x) := by
    filter_upwards [hae] with g hg
    field_simp
  have hg4 : ∫ g, g i ^ 2 * g j ^ 2 / rad g ^ (2 + 2) ∂(Measure.pi fun _ : Fin d => gaussianReal 0 1)
      = 1 / (d * (d + 2)) := by
    rw [gaussian_noise, integral_noise hd]
    have h4 := integral_radial4 (φ := fun s => Spec.shape .gaussian s / s ^ 2)
      ((measurable_shape .gaussian).div (measurable_id.pow_const 2))
      (fun s => div_nonneg (shape_nonneg' _ _) (sq_nonneg _)) ((integrable_shape hd .gaussian).congr hcong.symm) hij
    have e : ∀ x : Fin d → ℝ, x i ^ 2 * x j ^ 2 / rad x ^ (2 + 2) * Spec.shape .gaussian (x ⬝ᵥ x)
        = x i ^ 2 * x j ^ 2 * (Spec.shape .gaussian (x ⬝ᵥ x) / (x ⬝ᵥ x) ^ 2) := by
      intro x
      rw [← rad_mul_self, ← sq, ← pow_mul]
      ring
    simp only [e]
    rw [h4, integral_congr_ae hcong, integral_shape hd]
    field_simp
  have hind : IndepFun (fun u : Fin d → ℝ => (u i ^ (1 / (d : ℝ))) ^ 2) (fun u : Fin d → ℝ => (u j ^ (1 / (d : ℝ))) ^ 2)
      (Measure.pi fun _ : Fin d => Spec.unitLaw) :=
    (iIndepFun_pi (X := fun _ t => (t ^ (1 / (d : ℝ))) ^ 2) (μ := fun _ : Fin d => Spec.unitLaw)
      fun _ => (hR.pow_const 2).aemeasurable).indepFun hij
  have hm : ∀ i : Fin d, Measurable fun u : Fin d → ℝ => (u i ^ (1 / (d : ℝ))) ^ 2 := fun i => by fun_prop
  have hr : ∀ i : Fin d, ∫ u : Fin d → ℝ, (u i ^ (1 / (d : ℝ))) ^ 2 ∂(Measure.pi fun _ : Fin d => Spec.unitLaw) = d / (d + 2) := by
    intro i
    rw [integral_comp_eval (μ := fun _ : Fin d => Spec.unitLaw) (f := fun t : ℝ => (t ^ (1 / (d : ℝ))) ^ 2)
      (hR.pow_const 2).aestronglyMeasurable, ← box_radius hd]
    simp only [sq]
  rw [noiseLaw_box h1, mom_dirNoise hR, hg4, hind.integral_fun_mul_eq_mul_integral (hm i).aestronglyMeasurable
    (hm j).aestronglyMeasurable, hr, hr]
  field_simp

/-- The noise of the sampler and the noise with the density of the box lead to different samples. -/
theorem box_law_ne (hd : 2 ≤ d) {data : List (Fin d → ℝ)} (hne : data ≠ []) {w : Option (List ℝ)}
    (hw : OkW data.length w) {L : Matrix (Fin d) (Fin d) ℝ} (hL : IsUnit L.det) :
    ((noiseLaw .box d).prod Spec.unitLaw).map (sampleOf .box data w L)
      ≠ ((volume.withDensity (noiseDensity .box d)).prod Spec.unitLaw).map (sampleOf .box data w L) := by
  intro he
  have hd0 : 0 < d := by omega
  have h1 : d ≠ 1 := by omega
  have hp := box_prob hd0
  obtain ⟨v, hv, n1⟩ := noise_moments hd0 .box
  have hij : (⟨0, by omega⟩ : Fin d) ≠ ⟨1, by omega⟩ := by simp
  have h := fourth_of_law' .box hne hw hL hij n1 (by rw [hv]; exact density_moments hd0 .box) (box_sample_bounded h1)
    box_bounded (box_sample_third h1 hd0) (box_third hd0) he
  rw [box_sample_fourth h1 hd0 hij, box_fourth hd0 hij, div_eq_div_iff (by positivity) (by positivity)] at h
  have : (0:ℝ) < d := by exact_mod_cast hd0
  nlinarith [h]

end Kalepy
