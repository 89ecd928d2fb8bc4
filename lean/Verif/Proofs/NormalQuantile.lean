import Mathlib.Probability.Distributions.Gaussian.Real
import Mathlib.Probability.CDF

/-!
# Quantiles of the standard normal distribution
-/

namespace Kalepy

open MeasureTheory ProbabilityTheory Set

/-- `f` gives the quantiles of the standard normal distribution: the value below `f p` with probability `p`. -/
def Spec.IsNormalQuantile (f : ℝ → ℝ) : Prop :=
  ∀ p, 0 < p → p < 1 → (gaussianReal 0 1).real (Iic (f p)) = p

lemma normal_noAtoms (x : ℝ) : gaussianReal 0 1 {x} = 0 := by
  have := nullSingletonClass_gaussianReal (μ := 0) (v := 1) one_ne_zero
  exact measure_singleton x

lemma normal_half : (gaussianReal 0 1).real (Iic 0) = 1 / 2 := by
  have h1 : (gaussianReal 0 1).real (Iic 0) = (gaussianReal 0 1).real (Ici 0) := by
    have := gaussianReal_map_neg (μ := 0) (v := 1)
    rw [neg_zero] at this
    conv_lhs => rw [← this]
    rw [measureReal_def, Measure.map_apply measurable_neg measurableSet_Iic, measureReal_def]
    congr 2
    ext x
    simp
  have h2 : (gaussianReal 0 1).real (Ici 0) = (gaussianReal 0 1).real (Ioi 0) := by
    have := nullSingletonClass_gaussianReal (μ := 0) (v := 1) one_ne_zero
    rw [measureReal_def, measureReal_def, measure_congr Ioi_ae_eq_Ici]
  have h3 := probReal_compl_eq_one_sub (μ := gaussianReal 0 1) (measurableSet_Iic (a := (0 : ℝ)))
  rw [compl_Iic] at h3
  linarith

lemma normal_strictMono : StrictMono fun x => (gaussianReal 0 1).real (Iic x) := by
  intro x y hxy
  have hpos : 0 < (gaussianReal 0 1).real (Ioc x y) := by
    rw [measureReal_def, ENNReal.toReal_pos_iff]
    refine ⟨pos_iff_ne_zero.mpr fun h => ?_, measure_lt_top _ _⟩
    have := gaussianReal_absolutelyContinuous' 0 (v := 1) one_ne_zero h
    rw [Real.volume_Ioc, ENNReal.ofReal_eq_zero] at this
    linarith
  have hu : Iic y = Iic x ∪ Ioc x y := (Iic_union_Ioc_eq_Iic hxy.le).symm
  show (gaussianReal 0 1).real (Iic x) < (gaussianReal 0 1).real (Iic y)
  have hd : Disjoint (Iic x) (Ioc x y) := Set.disjoint_left.mpr fun z hz hz' => absurd hz'.1 (not_lt.mpr hz)
  rw [hu, measureReal_union hd measurableSet_Ioc]
  linarith

lemma quantile_neg {f : ℝ → ℝ} (hf : Spec.IsNormalQuantile f) {p : ℝ} (h0 : 0 < p) (h1 : p < 1 / 2) : f p < 0 := by
  by_contra h
  have := normal_strictMono.monotone (not_lt.mp h)
  simp only [normal_half, hf p h0 (by linarith)] at this
  linarith

lemma quantile_nonneg {f : ℝ → ℝ} (hf : Spec.IsNormalQuantile f) {p : ℝ} (h0 : 1 / 2 ≤ p) (h1 : p < 1) : 0 ≤ f p := by
  by_contra h
  have := normal_strictMono (not_le.mp h)
  simp only [normal_half, hf p (by linarith) h1] at this
  linarith

/-- The interval from -1 to 0 has a probability above 1/18. -/
lemma normal_unit : 1 / 18 < (gaussianReal 0 1).real (Ioc (-1) 0) := by
  have hlow : ∀ x ∈ Ioc (-1 : ℝ) 0, (1 / 10 : ℝ) ≤ gaussianPDFReal 0 1 x := by
    intro x hx
    rw [gaussianPDFReal]
    have h1 : Real.sqrt (2 * Real.pi * ((1 : NNReal) : ℝ)) ≤ 4 := by
      rw [Real.sqrt_le_left (by norm_num)]
      have := Real.pi_le_four
      push_cast
      linarith
    have h0 : 0 < Real.sqrt (2 * Real.pi * ((1 : NNReal) : ℝ)) := Real.sqrt_pos.mpr (by have := Real.pi_pos; push_cast; linarith)
    have h2 : (1 / 4 : ℝ) ≤ (Real.sqrt (2 * Real.pi * ((1 : NNReal) : ℝ)))⁻¹ := by
      rw [one_div]
      exact inv_anti₀ h0 h1
    have h3 : (1 / 2 : ℝ) ≤ Real.exp (-(x - 0) ^ 2 / (2 * ((1 : NNReal) : ℝ))) := by
      refine le_trans ?_ (Real.add_one_le_exp _)
      have : x ^ 2 ≤ 1 := by nlinarith [hx.1, hx.2]
      push_cast
      linarith [this, sub_zero x, show -(x - 0) ^ 2 / (2 * 1) = - (x ^ 2) / 2 by ring]
    calc (1 / 10 : ℝ) ≤ 1 / 4 * (1 / 2) := by norm_num
      _ ≤ _ := mul_le_mul h2 h3 (by norm_num) (by positivity)
  have h1 : ENNReal.ofReal (1 / 10) ≤ gaussianReal 0 1 (Ioc (-1) 0) := by
    rw [gaussianReal_apply _ one_ne_zero]
    calc ENNReal.ofReal (1 / 10) = ∫⁻ _ in Ioc (-1 : ℝ) 0, ENNReal.ofReal (1 / 10) := by
          rw [setLIntegral_const, Real.volume_Ioc]
          norm_num
      _ ≤ _ := setLIntegral_mono (measurable_gaussianPDF 0 1) fun x hx => ENNReal.ofReal_le_ofReal (hlow x hx)
  rw [measureReal_def]
  have h2 := ENNReal.toReal_mono (measure_ne_top _ _) h1
  rw [ENNReal.toReal_ofReal (by norm_num)] at h2
  linarith

lemma quantile_gt {f : ℝ → ℝ} (hf : Spec.IsNormalQuantile f) : -1 < f (4 / 9) := by
  by_contra h
  have h1 := normal_strictMono.monotone (not_lt.mp h)
  simp only [hf (4 / 9) (by norm_num) (by norm_num)] at h1
  have hu : Iic (0 : ℝ) = Iic (-1) ∪ Ioc (-1) 0 := (Iic_union_Ioc_eq_Iic (by norm_num)).symm
  have hd : Disjoint (Iic (-1 : ℝ)) (Ioc (-1) 0) := Set.disjoint_left.mpr fun z hz hz' => absurd hz'.1 (not_lt.mpr hz)
  have h2 := normal_half
  rw [hu, measureReal_union hd measurableSet_Ioc] at h2
  have := normal_unit
  linarith

lemma exists_quantile : ∃ f, Spec.IsNormalQuantile f := by
  have hc : Continuous (cdf (gaussianReal 0 1)) := by
    rw [continuous_iff_continuousAt]
    intro x
    rw [(cdf (gaussianReal 0 1)).mono.continuousAt_iff_leftLim_eq_rightLim, StieltjesFunction.rightLim_eq]
    have h := StieltjesFunction.measure_singleton (cdf (gaussianReal 0 1)) x
    rw [measure_cdf, normal_noAtoms] at h
    have h1 := ENNReal.ofReal_eq_zero.mp h.symm
    have h2 := (cdf (gaussianReal 0 1)).mono.leftLim_le (le_refl x)
    linarith
  have key : ∀ p : ℝ, 0 < p ∧ p < 1 → ∃ x, (gaussianReal 0 1).real (Iic x) = p := by
    rintro p ⟨h0, h1⟩
    obtain ⟨a, ha⟩ := ((tendsto_cdf_atBot (gaussianReal 0 1)).eventually (gt_mem_nhds h0)).exists
    obtain ⟨b, hb⟩ := ((tendsto_cdf_atTop (gaussianReal 0 1)).eventually (lt_mem_nhds h1)).exists
    obtain ⟨x, hx⟩ := mem_range_of_exists_le_of_exists_ge hc ⟨a, ha.le⟩ ⟨b, hb.le⟩
    exact ⟨x, by rw [← cdf_eq_real]; exact hx⟩
  classical
  refine ⟨fun p => if h : 0 < p ∧ p < 1 then (key p h).choose else 0, fun p h0 h1 => ?_⟩
  simp only [dif_pos (And.intro h0 h1)]
  exact (key p ⟨h0, h1⟩).choose_spec

end Kalepy
