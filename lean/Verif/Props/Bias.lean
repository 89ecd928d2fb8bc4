import Verif.Props.Regularity
import Verif.Proofs.Moments

/-!
# C151: how far the pdf of independent data is from the density of the data

C123 says that the estimates tend to the density, and C133 how far an estimate is from its mean.  Here: how far the mean is
from the density, for a given bandwidth.
-/

namespace Kalepy

open MeasureTheory ProbabilityTheory Filter Topology Matrix

variable {d : ℕ} {Ω : Type*} [MeasurableSpace Ω] {P : Measure Ω} [IsProbabilityMeasure P]

/-! ## Specification -/

/-- Specification: `f` differs from its tangent plane at `x`, of slope `g`, by at most `B / 2` times the squared length of the
step; for a twice differentiable `f`, `B` bounds the second derivatives along all directions. -/
def Spec.NearTangent (f : (Fin d → ℝ) → ℝ) (x g : Fin d → ℝ) (B : ℝ) : Prop :=
  ∀ u, |f (x + u) - (f x + ∑ i, g i * u i)| ≤ B / 2 * ∑ i, u i ^ 2

/-- Specification: between `x` and any other point, `f` changes by at most `L` times their Euclidean distance. -/
def Spec.LipschitzAt (f : (Fin d → ℝ) → ℝ) (x : Fin d → ℝ) (L : ℝ) : Prop :=
  ∀ u, |f (x + u) - f x| ≤ L * Real.sqrt (∑ i, u i ^ 2)

/-- The specification is met by twice differentiable functions: if along every line through `x` the first derivative at `x` is
`g` times the direction and the second derivative is at most `B` times its squared length, `f` is near its tangent plane. -/
theorem C151_nearTangent {f : (Fin d → ℝ) → ℝ} {x g : Fin d → ℝ} {B : ℝ} {f' f'' : (Fin d → ℝ) → ℝ → ℝ}
    (h1 : ∀ u t, HasDerivAt (fun t : ℝ => f (x + t • u)) (f' u t) t) (h2 : ∀ u t, HasDerivAt (f' u) (f'' u t) t)
    (hg : ∀ u, f' u 0 = ∑ i, g i * u i) (hB : ∀ u t, |f'' u t| ≤ B * ∑ i, u i ^ 2) : Spec.NearTangent f x g B := by
  intro u
  obtain ⟨b, hb⟩ : ∃ b, b = B * ∑ i, u i ^ 2 := ⟨_, rfl⟩
  have hd : ∀ t ∈ Set.Icc (0 : ℝ) 1, ‖f' u t - f' u 0‖ ≤ b * (t - 0) := by
    refine norm_image_sub_le_of_norm_deriv_le_segment' (f' := f'' u) (fun t _ => (h2 u t).hasDerivWithinAt) fun t _ => ?_
    rw [Real.norm_eq_abs, hb]
    exact hB u t
  have := image_norm_le_of_norm_deriv_right_le_deriv_boundary' (a := (0 : ℝ)) (b := 1)
    (f := fun t => f (x + t • u) - (f x + t * f' u 0)) (f' := fun t => f' u t - f' u 0)
    (B := fun t => b * t ^ 2 / 2) (B' := fun t => b * t)
    (HasDerivAt.continuousOn fun t _ => (h1 u t).sub (((hasDerivAt_id t).mul_const (f' u 0)).const_add (f x)))
    (fun t _ => by
      have := ((h1 u t).sub (((hasDerivAt_id t).mul_const (f' u 0)).const_add (f x))).hasDerivWithinAt (s := Set.Ici t)
      simp only [one_mul] at this
      exact this)
    (by simp)
    (by fun_prop)
    (fun t _ => by
      have := (((hasDerivAt_pow 2 t).const_mul b).div_const 2).hasDerivWithinAt (s := Set.Ici t)
      have e : b * (((2 : ℕ) : ℝ) * t ^ (2 - 1)) / 2 = b * t := by
        simp
        ring
      rw [e] at this
      exact this)
    (fun t ht => by simpa using hd t ⟨ht.1, ht.2.le⟩)
    (x := 1) (by simp)
  simp only [one_smul, one_mul, Real.norm_eq_abs, one_pow, mul_one, hg, hb] at this
  exact this.trans (le_of_eq (by ring))

/-! ## The smoothed density -/

/-- The density smoothed by a kernel differs from the density by at most `α + β` times the trace of the covariance of the
kernel, if the density differs from a plane by at most `α + β u²`. -/
lemma smoothed_bias (hd : 0 < d) (D : Dist) {M : Matrix (Fin d) (Fin d) ℝ} (hM : M.PosDef) {f : (Fin d → ℝ) → ℝ}
    (hf : Integrable f) {x g : Fin d → ℝ} {α β : ℝ}
    (h : ∀ u, |f (x + u) - (f x + ∑ i, g i * u i)| ≤ α + β * ∑ i, u i ^ 2) :
    |(∫ y, Spec.kernelAt D M (x - y) * f y) - f x| ≤ α + β * (Spec.kernelVar D d * ∑ i, M i i) := by
  rw [kernelAt_eq hd D hM]
  have hN : 0 < Real.sqrt M.det * D.norm d := mul_pos (Real.sqrt_pos.mpr hM.det_pos) (D.norm_pos d hd)
  have hK0 := unitKernel_nonneg hd D hM
  have hKi : Integrable (unitKernel D M) := by
    have := (integrable_shape_dist2 hd D hM 0).div_const (Real.sqrt M.det * D.norm d)
    simp only [sub_zero] at this
    exact this
  have hKm := measurable_unitKernel D M
  have h1i : ∀ i, Integrable fun u : Fin d → ℝ => u i * unitKernel D M u := fun i => by
    refine ((kernel_moments hd D hM i i).1.div_const (Real.sqrt M.det * D.norm d)).congr (Eventually.of_forall fun u => ?_)
    simp only [unitKernel, mul_div_assoc]
  have h1 : ∀ i, ∫ u : Fin d → ℝ, u i * unitKernel D M u = 0 := fun i => by
    have := congrArg (· / (Real.sqrt M.det * D.norm d)) (kernel_moments hd D hM i i).2.1
    simp only [zero_div] at this
    rw [← this, ← integral_div]
    simp only [unitKernel, mul_div_assoc]
  have h2i : ∀ i, Integrable fun u : Fin d → ℝ => u i ^ 2 * unitKernel D M u := fun i => by
    refine ((kernel_moments hd D hM i i).2.2.1.div_const (Real.sqrt M.det * D.norm d)).congr
      (Eventually.of_forall fun u => ?_)
    simp only [unitKernel, mul_div_assoc, sq]
  have h2 : ∀ i, ∫ u : Fin d → ℝ, u i ^ 2 * unitKernel D M u = Spec.kernelVar D d * M i i := fun i => by
    have := congrArg (· / (Real.sqrt M.det * D.norm d)) (kernel_moments hd D hM i i).2.2.2
    simp only [mul_div_cancel_left₀ _ hN.ne'] at this
    rw [← this, ← integral_div]
    simp only [unitKernel, mul_div_assoc, sq]
  have hsym : ∀ u, unitKernel D M (-u) = unitKernel D M u := fun u => by
    simp [unitKernel, Spec.dist2, mulVec_neg]
  -- the integral over the steps `u = y - x`
  have hch : ∫ y, unitKernel D M (x - y) * f y = ∫ u, unitKernel D M u * f (x + u) := by
    rw [← integral_add_left_eq_self (fun y => unitKernel D M (x - y) * f y) x]
    refine integral_congr_ae (Eventually.of_forall fun u => ?_)
    simp only
    rw [show x - (x + u) = -u by abel, hsym]
  have hfi : Integrable fun u => unitKernel D M u * f (x + u) := by
    refine (hf.comp_add_left x).bdd_mul hKm.aestronglyMeasurable (c := 1 / (Real.sqrt M.det * D.norm d))
      (Eventually.of_forall fun u => ?_)
    rw [Real.norm_of_nonneg (hK0 u)]
    exact unitKernel_le hd D hM u
  have hpl : Integrable fun u => (f x + ∑ i, g i * u i) * unitKernel D M u := by
    have : Integrable fun u : Fin d → ℝ => f x * unitKernel D M u + ∑ i, g i * (u i * unitKernel D M u) :=
      (hKi.const_mul _).add (integrable_finsetSum _ fun i _ => (h1i i).const_mul _)
    refine this.congr (Eventually.of_forall fun u => ?_)
    simp only [add_mul, Finset.sum_mul, mul_assoc]
  have hplv : ∫ u, (f x + ∑ i, g i * u i) * unitKernel D M u = f x := by
    have e : (fun u : Fin d → ℝ => (f x + ∑ i, g i * u i) * unitKernel D M u)
        = fun u => f x * unitKernel D M u + ∑ i, g i * (u i * unitKernel D M u) := by
      funext u
      simp only [add_mul, Finset.sum_mul, mul_assoc]
    rw [e, integral_add (hKi.const_mul _) (integrable_finsetSum _ fun i _ => (h1i i).const_mul _),
      integral_finsetSum _ fun i _ => (h1i i).const_mul _, integral_const_mul, unitKernel_integral hd D hM]
    simp [integral_const_mul, h1]
  have hbd : Integrable fun u : Fin d → ℝ => α * unitKernel D M u + β * ∑ i, u i ^ 2 * unitKernel D M u :=
    (hKi.const_mul _).add ((integrable_finsetSum _ fun i _ => h2i i).const_mul _)
  have hbdv : ∫ u : Fin d → ℝ, α * unitKernel D M u + β * ∑ i, u i ^ 2 * unitKernel D M u
      = α + β * (Spec.kernelVar D d * ∑ i, M i i) := by
    rw [integral_add (hKi.const_mul _) ((integrable_finsetSum _ fun i _ => h2i i).const_mul _), integral_const_mul,
      integral_const_mul, integral_finsetSum _ fun i _ => h2i i, unitKernel_integral hd D hM]
    simp only [h2, Finset.mul_sum, mul_one]
  rw [hch, ← hbdv]
  calc |(∫ u, unitKernel D M u * f (x + u)) - f x|
      = |∫ u, (unitKernel D M u * f (x + u) - (f x + ∑ i, g i * u i) * unitKernel D M u)| := by
        rw [integral_sub hfi hpl, hplv]
    _ ≤ ∫ u, |unitKernel D M u * f (x + u) - (f x + ∑ i, g i * u i) * unitKernel D M u| := abs_integral_le_integral_abs
    _ ≤ _ := by
        refine integral_mono (hfi.sub hpl).abs hbd fun u => ?_
        simp only
        rw [show unitKernel D M u * f (x + u) - (f x + ∑ i, g i * u i) * unitKernel D M u
            = (f (x + u) - (f x + ∑ i, g i * u i)) * unitKernel D M u by ring, abs_mul, abs_of_nonneg (hK0 u)]
        refine (mul_le_mul_of_nonneg_right (h u) (hK0 u)).trans (le_of_eq ?_)
        rw [add_mul, mul_assoc, Finset.sum_mul]

/-! ## The theorems -/

/-- **C151 (bias).** For independent data with density `f`, a given covariance `C` and a fixed bandwidth `b`: where `f`
differs from a tangent plane by at most `B u² / 2`, the mean of the pdf differs from `f` by at most `B b² / 2` times the trace
of the covariance `κ C` of the kernel, whatever the number of data; and the pdf is further than this plus `ε` from `f` with
a probability of at most `2 exp(-2 n ε² / K(0)²)`. -/
theorem C151_bias (hd : 0 < d) {X : ℕ → Ω → Fin d → ℝ} {f : (Fin d → ℝ) → ℝ} (hX : Spec.DrawnFrom P X f) (D : Dist)
    (E : Ext) (srt : List ℝ → List ℕ) (C : Matrix (Fin d) (Fin d) ℝ) (hC : C.PosDef) {b : ℝ} (hb : 0 < b) {n : ℕ}
    (hn : 1 < n) :
    ∃ F : Ω → (Fin d → ℝ) → ℝ,
      (∀ ω, ∃ k, KDE.init E { dataset := List.ofFn fun i : Fin n => X i ω
                              kernel := .cls D
                              bandwidth := .val (.num b)
                              covariance := some C } = .ok k ∧ Spec.Reports E srt k (F ω)) ∧
      ∀ x g B, Spec.NearTangent f x g B →
        |∫ ω, F ω x ∂P - f x| ≤ B / 2 * (b ^ 2 * Spec.kernelVar D d * C.trace) ∧
        ∀ ε > 0, P.real {ω | ε + B / 2 * (b ^ 2 * Spec.kernelVar D d * C.trace) ≤ |F ω x - f x|} ≤
          2 * Real.exp (-2 * n * (ε / Spec.kernelAt D ((b ^ 2) • C) 0) ^ 2) := by
  have hM : ((b ^ 2) • C).PosDef := hC.smul (by positivity)
  obtain ⟨F, h1, h2⟩ := C133_deviation hd hX D E srt C hC hb hn
  refine ⟨F, h1, fun x g B hg => ?_⟩
  obtain ⟨-, hm, hdev⟩ := h2 x
  have hbias := smoothed_bias hd D hM (density_integrable hX) (x := x) (g := g) (α := 0) (β := B / 2)
    (fun u => by simpa using hg u)
  have e : (0 : ℝ) + B / 2 * (Spec.kernelVar D d * ∑ i, ((b ^ 2) • C) i i)
      = B / 2 * (b ^ 2 * Spec.kernelVar D d * C.trace) := by
    simp only [Matrix.smul_apply, smul_eq_mul, Matrix.trace, Matrix.diag, ← Finset.mul_sum]
    ring
  rw [e] at hbias
  refine ⟨by rw [hm]; exact hbias, fun ε hε => le_trans (measureReal_mono fun ω hω => ?_) (hdev ε hε)⟩
  simp only [Set.mem_ofPred_eq] at hω ⊢
  have := abs_sub_le (F ω x) (∫ y, Spec.kernelAt D ((b ^ 2) • C) (x - y) * f y) (f x)
  linarith

/-- **C151 (bias, Lipschitz).** The same for densities that need not be differentiable: where `f` changes by at most `L` times
the distance, the mean of the pdf differs from `f` by at most `L b` times the root of the trace of `κ C`. -/
theorem C151_lipschitz (hd : 0 < d) {X : ℕ → Ω → Fin d → ℝ} {f : (Fin d → ℝ) → ℝ} (hX : Spec.DrawnFrom P X f) (D : Dist)
    (E : Ext) (srt : List ℝ → List ℕ) (C : Matrix (Fin d) (Fin d) ℝ) (hC : C.PosDef) {b : ℝ} (hb : 0 < b) {n : ℕ}
    (hn : 1 < n) :
    ∃ F : Ω → (Fin d → ℝ) → ℝ,
      (∀ ω, ∃ k, KDE.init E { dataset := List.ofFn fun i : Fin n => X i ω
                              kernel := .cls D
                              bandwidth := .val (.num b)
                              covariance := some C } = .ok k ∧ Spec.Reports E srt k (F ω)) ∧
      ∀ x L, 0 ≤ L → Spec.LipschitzAt f x L →
        |∫ ω, F ω x ∂P - f x| ≤ L * (b * Real.sqrt (Spec.kernelVar D d * C.trace)) ∧
        ∀ ε > 0, P.real {ω | ε + L * (b * Real.sqrt (Spec.kernelVar D d * C.trace)) ≤ |F ω x - f x|} ≤
          2 * Real.exp (-2 * n * (ε / Spec.kernelAt D ((b ^ 2) • C) 0) ^ 2) := by
  have hM : ((b ^ 2) • C).PosDef := hC.smul (by positivity)
  obtain ⟨F, h1, h2⟩ := C133_deviation hd hX D E srt C hC hb hn
  refine ⟨F, h1, fun x L hL hlip => ?_⟩
  obtain ⟨-, hm, hdev⟩ := h2 x
  have : Nonempty (Fin d) := ⟨⟨0, hd⟩⟩
  have htr : 0 < C.trace := hC.trace_pos
  have hv := kernelVar_pos D d
  have hs : 0 < Real.sqrt (Spec.kernelVar D d * C.trace) := Real.sqrt_pos.mpr (mul_pos hv htr)
  have hsq : Real.sqrt (Spec.kernelVar D d * C.trace) ^ 2 = Spec.kernelVar D d * C.trace :=
    Real.sq_sqrt (mul_pos hv htr).le
  obtain ⟨s, hsdef⟩ : ∃ s, s = b * Real.sqrt (Spec.kernelVar D d * C.trace) := ⟨_, rfl⟩
  have hs0 : 0 < s := hsdef ▸ mul_pos hb hs
  have hbias := smoothed_bias hd D hM (density_integrable hX) (x := x) (g := 0) (α := L * s / 2) (β := L / (2 * s))
    (fun u => by
      have h3 := hlip u
      obtain ⟨t, ht⟩ : ∃ t, t = Real.sqrt (∑ i, u i ^ 2) := ⟨_, rfl⟩
      have ht2 : ∑ i, u i ^ 2 = t ^ 2 := by rw [ht, Real.sq_sqrt (Finset.sum_nonneg fun i _ => sq_nonneg _)]
      rw [← ht] at h3
      simp only [Pi.zero_apply, zero_mul, Finset.sum_const_zero, add_zero]
      rw [ht2]
      refine h3.trans ?_
      have : L * s / 2 + L / (2 * s) * t ^ 2 - L * t = L / (2 * s) * (s - t) ^ 2 := by
        field_simp
        ring
      have : 0 ≤ L / (2 * s) * (s - t) ^ 2 := by positivity
      linarith)
  have e : L * s / 2 + L / (2 * s) * (Spec.kernelVar D d * ∑ i, ((b ^ 2) • C) i i) = L * s := by
    have : Spec.kernelVar D d * ∑ i, ((b ^ 2) • C) i i = s ^ 2 := by
      rw [hsdef, mul_pow, hsq]
      simp only [Matrix.smul_apply, smul_eq_mul, Matrix.trace, Matrix.diag, ← Finset.mul_sum]
      ring
    rw [this]
    field_simp
    ring
  rw [e] at hbias
  rw [← hsdef]
  refine ⟨by rw [hm]; exact hbias, fun ε hε => le_trans (measureReal_mono fun ω hω => ?_) (hdev ε hε)⟩
  simp only [Set.mem_ofPred_eq] at hω ⊢
  have := abs_sub_le (F ω x) (∫ y, Spec.kernelAt D ((b ^ 2) • C) (x - y) * f y) (f x)
  linarith

/-! ## Concrete cases -/

/-- The uniform density of the unit square near its centre. -/
lemma uniform_nearTangent :
    (Set.Icc (0 : Fin 2 → ℝ) 1).indicator 1 (fun _ => (1 / 2 : ℝ)) = (1 : ℝ) ∧
    Spec.NearTangent ((Set.Icc (0 : Fin 2 → ℝ) 1).indicator 1) (fun _ => 1 / 2) 0 8 := by
  have hx : (Set.Icc (0 : Fin 2 → ℝ) 1).indicator 1 (fun _ => (1 / 2 : ℝ)) = (1 : ℝ) := by
    rw [Set.indicator_of_mem]
    · rfl
    · constructor <;> intro i <;> norm_num
  have ht : Spec.NearTangent ((Set.Icc (0 : Fin 2 → ℝ) 1).indicator 1) (fun _ => 1 / 2) 0 8 := by
    intro u
    rw [hx]
    simp only [Pi.zero_apply, zero_mul, Finset.sum_const_zero, add_zero, Fin.sum_univ_two]
    by_cases hu : ((fun _ => 1 / 2 : Fin 2 → ℝ) + u) ∈ Set.Icc (0 : Fin 2 → ℝ) 1
    · rw [Set.indicator_of_mem hu]
      simp only [Pi.one_apply, sub_self, abs_zero]
      positivity
    · rw [Set.indicator_of_notMem hu, zero_sub, abs_neg, abs_one]
      by_contra hc
      push Not at hc
      apply hu
      have h0 : |u 0| ≤ 1 / 2 := abs_le_of_sq_le_sq (by nlinarith [sq_nonneg (u 1)]) (by norm_num)
      have h1 : |u 1| ≤ 1 / 2 := abs_le_of_sq_le_sq (by nlinarith [sq_nonneg (u 0)]) (by norm_num)
      rw [abs_le] at h0 h1
      constructor <;> intro i <;> fin_cases i <;> simp <;> linarith
  exact ⟨hx, ht⟩

/-- Concrete case of `C151_bias`: data that are uniform in the unit square, at its centre; there, with a thousand data, the
mean of the pdf differs from 1 by at most 8 percent for the Gaussian kernel of bandwidth 0.1. -/
example (E : Ext) (srt : List ℝ → List ℕ) :
    ∃ (Ω : Type) (_ : MeasurableSpace Ω) (P : Measure Ω) (_ : IsProbabilityMeasure P) (X : ℕ → Ω → Fin 2 → ℝ),
      ∃ F : Ω → (Fin 2 → ℝ) → ℝ,
      (∀ ω, ∃ k, KDE.init E { dataset := List.ofFn fun i : Fin 1000 => X i ω
                              kernel := .cls .gaussian
                              bandwidth := .val (.num (1 / 10))
                              covariance := some 1 } = .ok k ∧ Spec.Reports E srt k (F ω)) ∧
      |∫ ω, F ω (fun _ => 1 / 2) ∂P - 1| ≤ 8 / 100 := by
  obtain ⟨Ω, mΩ, P, hP, X, hX, -, -⟩ := exists_uniform_data 2
  obtain ⟨F, h1, h2⟩ := C151_bias two_pos hX .gaussian E srt 1 PosDef.one (b := 1 / 10) (by norm_num) (n := 1000)
    (by norm_num)
  refine ⟨Ω, mΩ, P, hP, X, F, h1, ?_⟩
  obtain ⟨hx, ht⟩ := uniform_nearTangent
  have := (h2 _ 0 8 ht).1
  rw [hx] at this
  refine this.trans (le_of_eq ?_)
  simp [Spec.kernelVar]
  norm_num

end Kalepy
