import Mathlib.Analysis.Real.Pi.Bounds
import Mathlib.Probability.Moments.Variance
import Verif.Props.Bias

/-!
# C155: variance and mean squared error of the pdf
-/

namespace Kalepy

open MeasureTheory ProbabilityTheory Filter Topology Matrix

variable {d : ℕ} {Ω : Type*} [MeasurableSpace Ω] {P : Measure Ω} [IsProbabilityMeasure P]

/-- The average of a bounded function of independent data. -/
lemma average_variance {X : ℕ → Ω → Fin d → ℝ} {f : (Fin d → ℝ) → ℝ} (hX : Spec.DrawnFrom P X f) {g : (Fin d → ℝ) → ℝ}
    (hg : Measurable g) {B : ℝ} (hB : ∀ y, 0 ≤ g y ∧ g y ≤ B) {n : ℕ} (hn : 0 < n) (c : ℝ) :
    Integrable (fun ω => ((∑ i ∈ Finset.range n, g (X i ω)) / n - c) ^ 2) P ∧
    ∫ ω, ((∑ i ∈ Finset.range n, g (X i ω)) / n - c) ^ 2 ∂P =
      ((∫ y, g y ^ 2 * f y) - (∫ y, g y * f y) ^ 2) / n + ((∫ y, g y * f y) - c) ^ 2 := by
  have hnr : (0 : ℝ) < n := by exact_mod_cast hn
  have hid : ∀ i, P.map (X i) = P.map (X 0) := fun i => by rw [hX.law, hX.law]
  have hmem : ∀ i, MemLp (fun ω => g (X i ω)) 2 P := fun i =>
    memLp_of_bounded (a := 0) (b := B) (Eventually.of_forall fun ω => ⟨(hB _).1, (hB _).2⟩)
      (hg.comp (hX.measurable i)).aestronglyMeasurable 2
  have hmean : ∀ (h : (Fin d → ℝ) → ℝ), Measurable h → ∀ i, ∫ ω, h (X i ω) ∂P = ∫ y, h y * f y := by
    intro h hh i
    rw [← mean_density hX h hh, ← integral_map (hX.measurable i).aemeasurable hh.aestronglyMeasurable, hid i,
      integral_map (hX.measurable 0).aemeasurable hh.aestronglyMeasurable]
  obtain ⟨S, hS⟩ : ∃ S : Ω → ℝ, S = ∑ i ∈ Finset.range n, fun ω => g (X i ω) := ⟨_, rfl⟩
  have hSmem : MemLp S 2 P := by rw [hS]; exact memLp_finset_sum' _ fun i _ => hmem i
  have hvar : Var[S; P] = n * ((∫ y, g y ^ 2 * f y) - (∫ y, g y * f y) ^ 2) := by
    rw [hS, IndepFun.variance_sum (fun i _ => hmem i)]
    · have : ∀ i ∈ Finset.range n, Var[fun ω => g (X i ω); P] = (∫ y, g y ^ 2 * f y) - (∫ y, g y * f y) ^ 2 := by
        intro i _
        rw [variance_eq_sub (hmem i), ← hmean _ (hg.pow_const 2) i, ← hmean _ hg i]
        rfl
      rw [Finset.sum_congr rfl this, Finset.sum_const, Finset.card_range, nsmul_eq_mul]
    · intro i _ j _ hij
      exact (hX.indep.indepFun hij).comp hg hg
  have hSint : Integrable S P := hSmem.integrable (by norm_num)
  have hSmean : ∫ ω, S ω ∂P = n * ∫ y, g y * f y := by
    rw [hS]
    simp only [Finset.sum_apply]
    rw [integral_finsetSum _ fun i _ => (hmem i).integrable (by norm_num)]
    simp only [hmean _ hg, Finset.sum_const, Finset.card_range, nsmul_eq_mul]
  have hSsq : ∫ ω, S ω ^ 2 ∂P = n * ((∫ y, g y ^ 2 * f y) - (∫ y, g y * f y) ^ 2) + (n * ∫ y, g y * f y) ^ 2 := by
    have h1 := variance_eq_sub hSmem
    rw [hvar, hSmean] at h1
    have h2 : ∫ ω, (S ^ 2) ω ∂P = ∫ ω, S ω ^ 2 ∂P := rfl
    rw [h2] at h1
    linarith
  have hexp : (fun ω => ((∑ i ∈ Finset.range n, g (X i ω)) / n - c) ^ 2)
      = fun ω => (1 / (n : ℝ) ^ 2 * S ω ^ 2 + -(2 * c / n) * S ω) + c ^ 2 := by
    funext ω
    have : S ω = ∑ i ∈ Finset.range n, g (X i ω) := by rw [hS]; simp
    rw [← this]
    field_simp
    ring
  have i1 : Integrable (fun ω => 1 / (n : ℝ) ^ 2 * S ω ^ 2) P := hSmem.integrable_sq.const_mul _
  have i2 : Integrable (fun ω => -(2 * c / n) * S ω) P := hSint.const_mul _
  have i12 : Integrable (fun ω => 1 / (n : ℝ) ^ 2 * S ω ^ 2 + -(2 * c / n) * S ω) P := i1.add i2
  rw [hexp]
  refine ⟨i12.add (integrable_const _), ?_⟩
  rw [integral_add i12 (integrable_const _), integral_add i1 i2, integral_const_mul, integral_const_mul, hSsq, hSmean]
  simp only [integral_const, probReal_univ, smul_eq_mul, one_mul]
  field_simp
  ring

/-- **C155 (variance).** For independent data with density `f`, a given covariance and a fixed bandwidth `b`, exactly and for every number `n > 1` of data, at every point `x`:
the mean squared deviation of the pdf from its mean is `(∫ K(x-y)² f(y) dy - (∫ K(x-y) f(y) dy)²) / n`; it is at most the peak of the kernel times the mean of the pdf, divided
by `n`; and the mean squared deviation from the density `f(x)` is this plus the squared difference of the mean and `f(x)`. -/
theorem C155_variance (hd : 0 < d) {X : ℕ → Ω → Fin d → ℝ} {f : (Fin d → ℝ) → ℝ} (hX : Spec.DrawnFrom P X f) (D : Dist)
    (E : Ext) (srt : List ℝ → List ℕ) (C : Matrix (Fin d) (Fin d) ℝ) (hC : C.PosDef) {b : ℝ} (hb : 0 < b) {n : ℕ}
    (hn : 1 < n) :
    ∃ F : Ω → (Fin d → ℝ) → ℝ,
      (∀ ω, ∃ k, KDE.init E { dataset := List.ofFn fun i : Fin n => X i ω
                              kernel := .cls D
                              bandwidth := .val (.num b)
                              covariance := some C } = .ok k ∧ Spec.Reports E srt k (F ω)) ∧
      ∀ x m v, m = ∫ y, Spec.kernelAt D ((b ^ 2) • C) (x - y) * f y →
        v = ((∫ y, Spec.kernelAt D ((b ^ 2) • C) (x - y) ^ 2 * f y) - m ^ 2) / n →
        (∀ c, Integrable (fun ω => (F ω x - c) ^ 2) P) ∧
        ∫ ω, F ω x ∂P = m ∧ ∫ ω, (F ω x - m) ^ 2 ∂P = v ∧ v ≤ Spec.kernelAt D ((b ^ 2) • C) 0 * m / n ∧
        ∫ ω, (F ω x - f x) ^ 2 ∂P = v + (m - f x) ^ 2 := by
  have hM : ((b ^ 2) • C).PosDef := hC.smul (by positivity)
  have hnr : (0 : ℝ) < n := by positivity
  refine ⟨fun ω => estimate D ((b ^ 2) • C) n fun i => X i ω, fun ω => ?_, fun x m v hm hv => ?_⟩
  · obtain ⟨k, hk, hrep, -⟩ := iid_reports E srt hd D hn (fun i => X i ω) (some C) (by rintro c ⟨⟩; exact hC)
      (.val (.num b)) b hb (by simp [bwMatrix, computeBw, Except.map]) hC
    exact ⟨k, hk, hrep⟩
  · have hbd := kernelAt_bounds hd D hM
    obtain ⟨g, hg⟩ : ∃ g : (Fin d → ℝ) → ℝ, g = fun y => Spec.kernelAt D ((b ^ 2) • C) (x - y) := ⟨_, rfl⟩
    have hgm : Measurable g := by
      rw [hg, kernelAt_eq hd D hM]
      exact (measurable_unitKernel _ _).comp (by fun_prop)
    have hgB : ∀ y, 0 ≤ g y ∧ g y ≤ Spec.kernelAt D ((b ^ 2) • C) 0 := fun y => by rw [hg]; exact hbd _
    have hest : ∀ ω, estimate D ((b ^ 2) • C) n (fun i => X i ω) x = (∑ i ∈ Finset.range n, g (X i ω)) / n := by
      intro ω
      rw [hg, kernelAt_eq hd D hM]
      rfl
    have hm' : m = ∫ y, g y * f y := by rw [hm, hg]
    have hv' : v = ((∫ y, g y ^ 2 * f y) - (∫ y, g y * f y) ^ 2) / n := by rw [hv, hm, hg]
    have key := average_variance hX hgm hgB (by omega : 0 < n)
    have hfi := density_integrable hX
    have hgf : Integrable fun y => g y * f y :=
      hfi.bdd_mul hgm.aestronglyMeasurable (c := Spec.kernelAt D ((b ^ 2) • C) 0) (Eventually.of_forall fun y => by
        rw [Real.norm_of_nonneg (hgB y).1]; exact (hgB y).2)
    have hg2f : Integrable fun y => g y ^ 2 * f y :=
      hfi.bdd_mul (hgm.pow_const 2).aestronglyMeasurable (c := Spec.kernelAt D ((b ^ 2) • C) 0 ^ 2) (Eventually.of_forall fun y => by
        rw [Real.norm_of_nonneg (sq_nonneg _)]; exact pow_le_pow_left₀ (hgB y).1 (hgB y).2 2)
    simp only [hest]
    refine ⟨fun c => (key c).1, ?_, ?_, ?_, ?_⟩
    · have hgi : ∀ i, Integrable (fun ω => g (X i ω)) P := fun i =>
        Integrable.of_mem_Icc 0 _ (hgm.comp (hX.measurable i)).aemeasurable (Eventually.of_forall fun ω => hgB _)
      have hgmean : ∀ i, ∫ ω, g (X i ω) ∂P = ∫ y, g y * f y := by
        intro i
        rw [← mean_density hX g hgm, ← integral_map (hX.measurable i).aemeasurable hgm.aestronglyMeasurable, hX.law i, ← hX.law 0,
          integral_map (hX.measurable 0).aemeasurable hgm.aestronglyMeasurable]
      rw [integral_div, integral_finsetSum _ fun i _ => hgi i]
      simp only [hgmean, Finset.sum_const, Finset.card_range, nsmul_eq_mul]
      rw [mul_div_cancel_left₀ _ hnr.ne', hm']
    · rw [(key m).2, hv', ← hm', sub_self]
      simp
    · rw [hv', ← hm']
      apply div_le_div_of_nonneg_right _ hnr.le
      have : ∫ y, g y ^ 2 * f y ≤ Spec.kernelAt D ((b ^ 2) • C) 0 * m := by
        rw [hm', ← integral_const_mul]
        refine integral_mono hg2f (hgf.const_mul _) fun y => ?_
        simp only
        rw [sq, mul_assoc]
        exact mul_le_mul_of_nonneg_right (hgB y).2 (mul_nonneg (hgB y).1 (hX.nonneg y))
      linarith [sq_nonneg m]
    · rw [(key (f x)).2, hv', hm']

/-- **C155 (mean squared error).** Where the density differs from a tangent plane by at most `B u² / 2`, the mean squared error of the pdf is at most
`K(0) (f(x) + β) / n + β²` with `β = B b² κ tr(C) / 2`, where `K(0)` is proportional to `b^-d`.  So it tends to zero if `b → 0` and `n b^d → ∞`. -/
theorem C155_error (hd : 0 < d) {X : ℕ → Ω → Fin d → ℝ} {f : (Fin d → ℝ) → ℝ} (hX : Spec.DrawnFrom P X f) (D : Dist)
    (E : Ext) (srt : List ℝ → List ℕ) (C : Matrix (Fin d) (Fin d) ℝ) (hC : C.PosDef) {b : ℝ} (hb : 0 < b) {n : ℕ}
    (hn : 1 < n) :
    ∃ F : Ω → (Fin d → ℝ) → ℝ,
      (∀ ω, ∃ k, KDE.init E { dataset := List.ofFn fun i : Fin n => X i ω
                              kernel := .cls D
                              bandwidth := .val (.num b)
                              covariance := some C } = .ok k ∧ Spec.Reports E srt k (F ω)) ∧
      ∀ x g B β, Spec.NearTangent f x g B → β = B / 2 * (b ^ 2 * Spec.kernelVar D d * C.trace) →
        ∫ ω, (F ω x - f x) ^ 2 ∂P ≤ Spec.kernelAt D C 0 / b ^ d * (f x + β) / n + β ^ 2 := by
  have hM : ((b ^ 2) • C).PosDef := hC.smul (by positivity)
  have hnr : (0 : ℝ) < n := by positivity
  obtain ⟨F, h1, h2⟩ := C155_variance hd hX D E srt C hC hb hn
  refine ⟨F, h1, fun x g B β hg hβ => ?_⟩
  obtain ⟨-, -, -, h5, h6⟩ := h2 x _ _ rfl rfl
  have hbias := smoothed_bias hd D hM (density_integrable hX) (x := x) (g := g) (α := 0) (β := B / 2)
    (fun u => by simpa using hg u)
  have e : (0 : ℝ) + B / 2 * (Spec.kernelVar D d * ∑ i, ((b ^ 2) • C) i i) = β := by
    simp only [hβ, Matrix.smul_apply, smul_eq_mul, Matrix.trace, Matrix.diag, ← Finset.mul_sum]
    ring
  rw [e] at hbias
  have hK : Spec.kernelAt D ((b ^ 2) • C) 0 = Spec.kernelAt D C 0 / b ^ d := by
    rw [kernelAt_zero hd D hM, kernelAt_zero hd D hC, Matrix.det_smul, Fintype.card_fin, Real.sqrt_mul (by positivity), ← pow_mul, mul_comm 2 d, pow_mul,
      Real.sqrt_sq (by positivity)]
    field_simp
  have hK0 : 0 ≤ Spec.kernelAt D ((b ^ 2) • C) 0 := (kernelAt_bounds hd D hM 0).1
  rw [h6, ← hK]
  have hb1 := abs_le.mp hbias
  apply add_le_add
  · refine h5.trans (div_le_div_of_nonneg_right (mul_le_mul_of_nonneg_left ?_ hK0) hnr.le)
    linarith
  · rw [← sq_abs]
    exact pow_le_pow_left₀ (abs_nonneg _) hbias 2

/-! ## Concrete case -/

/-- Concrete case of `C155_error`: a thousand data that are uniform in the unit square, at its centre; the mean squared error
of the pdf with the Gaussian kernel of bandwidth 0.1 is at most 0.03. -/
example (E : Ext) (srt : List ℝ → List ℕ) :
    ∃ (Ω : Type) (_ : MeasurableSpace Ω) (P : Measure Ω) (_ : IsProbabilityMeasure P) (X : ℕ → Ω → Fin 2 → ℝ),
      ∃ F : Ω → (Fin 2 → ℝ) → ℝ,
      (∀ ω, ∃ k, KDE.init E { dataset := List.ofFn fun i : Fin 1000 => X i ω
                              kernel := .cls .gaussian
                              bandwidth := .val (.num (1 / 10))
                              covariance := some 1 } = .ok k ∧ Spec.Reports E srt k (F ω)) ∧
      ∫ ω, (F ω (fun _ => 1 / 2) - 1) ^ 2 ∂P ≤ 3 / 100 := by
  obtain ⟨Ω, mΩ, P, hP, X, hX, -, -⟩ := exists_uniform_data 2
  obtain ⟨F, h1, h2⟩ := C155_error two_pos hX .gaussian E srt 1 PosDef.one (b := 1 / 10) (by norm_num) (n := 1000)
    (by norm_num)
  refine ⟨Ω, mΩ, P, hP, X, F, h1, ?_⟩
  obtain ⟨hx, ht⟩ := uniform_nearTangent
  have h := h2 _ 0 8 _ ht rfl
  rw [hx, kernelAt_zero two_pos _ PosDef.one] at h
  refine h.trans ?_
  have hpi : (3 : ℝ) < Real.pi := Real.pi_gt_three
  have e : Dist.gaussian.norm 2 = 2 * Real.pi := by simp [Dist.norm]
  have h3 : 1 / (2 * Real.pi) ≤ 1 / 6 := one_div_le_one_div_of_le (by norm_num) (by linarith)
  rw [e]
  simp only [Spec.kernelVar, det_one, Real.sqrt_one, one_mul, trace_one, Fintype.card_fin]
  obtain ⟨q, hq⟩ : ∃ q, q = 1 / (2 * Real.pi) := ⟨_, rfl⟩
  rw [← hq] at h3 ⊢
  push_cast
  norm_num
  linarith

end Kalepy
