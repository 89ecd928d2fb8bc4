import Mathlib.MeasureTheory.Function.LpSpace.DomAct.Continuous
import Mathlib.MeasureTheory.Function.L1Space.AEEqFun
import Verif.Proofs.Consistency

/-!
# Smoothing an integrable function with narrow kernels changes it little
-/

namespace Kalepy

open MeasureTheory Filter Topology Matrix

variable {d : ℕ}

/-- Integrable functions change little under small shifts. -/
lemma translate_tendsto {f : (Fin d → ℝ) → ℝ} (hf : Integrable f) :
    Tendsto (fun u : Fin d → ℝ => ∫⁻ x, ‖f (u + x) - f x‖ₑ) (𝓝 0) (𝓝 0) := by
  have hm : MemLp f 1 := memLp_one_iff_integrable.mpr hf
  have : Fact (1 ≤ (1 : ENNReal)) := ⟨le_rfl⟩
  have : Fact ((1 : ENNReal) ≠ ⊤) := ⟨ENNReal.one_ne_top⟩
  have hc : Continuous fun u : Fin d → ℝ => DomAddAct.mk u +ᵥ hm.toLp f := by fun_prop
  have h1 : Tendsto (fun u : Fin d → ℝ => edist (DomAddAct.mk u +ᵥ hm.toLp f) (hm.toLp f)) (𝓝 0) (𝓝 0) := by
    have := (hc.tendsto 0).edist (tendsto_const_nhds (x := hm.toLp f))
    simpa using this
  refine h1.congr fun u => ?_
  rw [DomAddAct.mk_vadd_toLp, Lp.edist_toLp_toLp, eLpNorm_one_eq_lintegral_enorm]
  rfl

/-- The smoothed function tends to the function itself, on average over all of space. -/
lemma kernel_L1_tendsto (hd : 0 < d) (D : Dist) {M : Matrix (Fin d) (Fin d) ℝ} (hM : M.PosDef) {f : (Fin d → ℝ) → ℝ}
    (hf : Integrable f) (hfm : Measurable f) {h : ℕ → ℝ} (hh : ∀ n, 0 < h n) (h0 : Tendsto h atTop (𝓝 0)) :
    Tendsto (fun n => ∫⁻ x, ‖(∫ y, unitKernel D ((h n ^ 2) • M) (x - y) * f y) - f x‖ₑ) atTop (𝓝 0) := by
  have hKm := measurable_unitKernel D M
  have hKi : Integrable fun v => unitKernel D M v := by
    simpa [unitKernel] using (integrable_shape_dist2 hd D hM 0).div_const (Real.sqrt M.det * D.norm d)
  have hK1 := unitKernel_integral hd D hM
  have hlim : Tendsto (fun n => ∫⁻ v, ‖unitKernel D M v‖ₑ * ∫⁻ x, ‖f (-(h n • v) + x) - f x‖ₑ) atTop (𝓝 0) := by
    have hfin : ∫⁻ x, ‖f x‖ₑ ≠ ⊤ := hf.2.ne
    rw [← lintegral_zero (μ := (volume : Measure (Fin d → ℝ)))]
    refine tendsto_lintegral_of_dominated_convergence (fun v => ‖unitKernel D M v‖ₑ * (2 * ∫⁻ x, ‖f x‖ₑ)) (fun n => ?_)
      (fun n => Eventually.of_forall fun v => ?_) ?_ (Eventually.of_forall fun v => ?_)
    · refine hKm.enorm.mul (Measurable.lintegral_prod_right' (f := fun p : (Fin d → ℝ) × (Fin d → ℝ) =>
        ‖f (-(h n • p.1) + p.2) - f p.2‖ₑ) ?_)
      exact ((hfm.comp (by fun_prop)).sub (hfm.comp measurable_snd)).enorm
    · refine mul_le_mul_right ?_ _
      calc ∫⁻ x, ‖f (-(h n • v) + x) - f x‖ₑ ≤ ∫⁻ x, (‖f (-(h n • v) + x)‖ₑ + ‖f x‖ₑ) :=
            lintegral_mono fun x => enorm_sub_le
        _ = 2 * ∫⁻ x, ‖f x‖ₑ := by
            rw [lintegral_add_right _ hfm.enorm, lintegral_add_left_eq_self (fun x => ‖f x‖ₑ), two_mul]
    · rw [lintegral_mul_const _ hKm.enorm]
      exact ENNReal.mul_ne_top hKi.2.ne (ENNReal.mul_ne_top ENNReal.ofNat_ne_top hfin)
    · have h1 : Tendsto (fun n => -(h n • v)) atTop (𝓝 0) := by
        have := (h0.smul_const v).neg
        simpa using this
      have h2 := ENNReal.Tendsto.const_mul ((translate_tendsto hf).comp h1) (a := ‖unitKernel D M v‖ₑ) (Or.inr (by simp))
      simpa using h2
  refine tendsto_of_tendsto_of_tendsto_of_le_of_le tendsto_const_nhds hlim (fun _ => zero_le) fun n => ?_
  have hp := hh n
  have hrep : ∀ᵐ x, (∫ y, unitKernel D ((h n ^ 2) • M) (x - y) * f y) - f x
      = ∫ v, unitKernel D M v * (f (-(h n • v) + x) - f x) := by
    refine Eventually.of_forall fun x => ?_
    have hMn : ((h n ^ 2) • M).PosDef := hM.smul (pow_pos hp 2)
    have hI : Integrable fun y => unitKernel D ((h n ^ 2) • M) (x - y) * f y := by
      refine hf.bdd_mul (((measurable_unitKernel D _).comp (by fun_prop)).aestronglyMeasurable)
        (Eventually.of_forall fun y => ?_) (c := 1 / (Real.sqrt ((h n ^ 2) • M).det * D.norm d))
      rw [Real.norm_eq_abs, abs_of_nonneg (unitKernel_nonneg hd D hMn _)]
      exact unitKernel_le hd D hMn _
    have hg : ∀ v, unitKernel D ((h n ^ 2) • M) (x - (x - h n • v)) * f (x - h n • v)
        = (h n)⁻¹ ^ d * (unitKernel D M v * f (-(h n • v) + x)) := by
      intro v
      rw [unitKernel_scale D M hp, sub_sub_cancel, inv_smul_smul₀ hp.ne', mul_assoc]
      congr 3
      abel
    -- the change of variables `y = x - h v`
    have hI1 : Integrable fun z => unitKernel D ((h n ^ 2) • M) (x - (x - z)) * f (x - z) := hI.comp_sub_left x
    have hI2 : Integrable fun v => unitKernel D ((h n ^ 2) • M) (x - (x - h n • v)) * f (x - h n • v) :=
      hI1.comp_smul hp.ne'
    have hI3 : Integrable fun v => unitKernel D M v * f (-(h n • v) + x) := by
      have : (fun v => unitKernel D M v * f (-(h n • v) + x))
          = fun v => h n ^ d * (unitKernel D ((h n ^ 2) • M) (x - (x - h n • v)) * f (x - h n • v)) := by
        funext v
        rw [hg, ← mul_assoc, ← mul_pow, mul_inv_cancel₀ hp.ne', one_pow, one_mul]
      rw [this]
      exact hI2.const_mul _
    have e1 : ∫ y, unitKernel D ((h n ^ 2) • M) (x - y) * f y = ∫ v, unitKernel D M v * f (-(h n • v) + x) := by
      rw [← integral_sub_left_eq_self (fun y => unitKernel D ((h n ^ 2) • M) (x - y) * f y) volume x]
      have := Measure.integral_comp_smul (volume : Measure (Fin d → ℝ))
        (fun z => unitKernel D ((h n ^ 2) • M) (x - (x - z)) * f (x - z)) (h n)
      simp only [hg] at this
      rw [integral_const_mul, Module.finrank_fintype_fun_eq_card, Fintype.card_fin, abs_of_nonneg (by positivity), smul_eq_mul,
        ← inv_pow] at this
      exact (mul_left_cancel₀ (by positivity) this).symm
    have e2 : f x = ∫ v, unitKernel D M v * f x := by rw [integral_mul_const, hK1, one_mul]
    have e3 : (∫ v, unitKernel D M v * f (-(h n • v) + x)) - ∫ v, unitKernel D M v * f x
        = ∫ v, (unitKernel D M v * f (-(h n • v) + x) - unitKernel D M v * f x) := (integral_sub hI3 (hKi.mul_const _)).symm
    rw [← e2] at e3
    rw [e1, e3]
    refine integral_congr_ae (Eventually.of_forall fun v => ?_)
    simp only
    ring
  have hmeas : Measurable fun p : (Fin d → ℝ) × (Fin d → ℝ) => ‖unitKernel D M p.2‖ₑ * ‖f (-(h n • p.2) + p.1) - f p.1‖ₑ :=
    (hKm.comp measurable_snd).enorm.mul ((hfm.comp (by fun_prop)).sub (hfm.comp measurable_fst)).enorm
  calc ∫⁻ x, ‖(∫ y, unitKernel D ((h n ^ 2) • M) (x - y) * f y) - f x‖ₑ
      ≤ ∫⁻ x, ∫⁻ v, ‖unitKernel D M v‖ₑ * ‖f (-(h n • v) + x) - f x‖ₑ := by
        refine lintegral_mono_ae ?_
        filter_upwards [hrep] with x hx
        rw [hx]
        refine (enorm_integral_le_lintegral_enorm _).trans (lintegral_mono fun v => ?_)
        rw [enorm_mul]
    _ = ∫⁻ v, ∫⁻ x, ‖unitKernel D M v‖ₑ * ‖f (-(h n • v) + x) - f x‖ₑ := lintegral_lintegral_swap hmeas.aemeasurable
    _ = _ := by
        refine lintegral_congr fun v => ?_
        rw [lintegral_const_mul]
        exact ((hfm.comp (by fun_prop)).sub hfm).enorm

end Kalepy
