import Mathlib.Probability.Distributions.Gaussian.Real
import Mathlib.MeasureTheory.Integral.IntervalIntegral.IntegrationByParts
import Verif.Model.ExampleData

/-!
# C159: one-dimensional example data and their density
-/

namespace Kalepy

open MeasureTheory ProbabilityTheory Set

/-- **C159 (bimodal).** `_random_data_1d_01(num)` gives `num // 2` normal numbers of mean 4 followed by lognormal numbers, `num`
altogether; a negative number is an error. -/
theorem C159_bimodal (z₁ z₂ : ℕ → ℝ) (num : ℤ) :
    (num < 0 → exampleBimodal z₁ z₂ num = .error .valueError) ∧
    (0 ≤ num → ∃ a b : List ℝ, exampleBimodal z₁ z₂ num = .ok (a ++ b) ∧ (a.length : ℤ) = num / 2 ∧
      (a.length + b.length : ℤ) = num ∧ (∀ i (h : i < a.length), a[i] = 4 + z₁ i) ∧
      (∀ i (h : i < b.length), b[i] = Real.exp (z₂ i / 2))) := by
  constructor
  · intro h
    have : num / 2 < 0 := by omega
    simp [exampleBimodal, npNormal, this, bind, Except.bind]
  · intro h
    have h1 : ¬ num / 2 < 0 := by omega
    have h2 : ¬ num - ((num / 2).toNat : ℤ) < 0 := by omega
    refine ⟨(stream z₁ (num / 2).toNat).map fun t => 4 + 1 * t,
      (stream z₂ (num - ((num / 2).toNat : ℤ)).toNat).map fun t => Real.exp (0 + 1 / 2 * t), ?_, ?_, ?_, ?_, ?_⟩
    · have h1' : ¬ (num / 2 < 0 ∨ (1 : ℝ) < 0) := by norm_num; omega
      have h2' : ¬ (num - ((num / 2).toNat : ℤ) < 0 ∨ (1 / 2 : ℝ) < 0) := by norm_num; omega
      have h3 : npNormal 4 1 z₁ (num / 2) = .ok ((stream z₁ (num / 2).toNat).map fun t => 4 + 1 * t) := if_neg h1'
      have h4 : npLognormal 0 (1 / 2) z₂ (num - ((num / 2).toNat : ℤ))
          = .ok ((stream z₂ (num - ((num / 2).toNat : ℤ)).toNat).map fun t => Real.exp (0 + 1 / 2 * t)) := if_neg h2'
      have h5 : (((stream z₁ (num / 2).toNat).map fun t => 4 + 1 * t).length : ℤ) = ((num / 2).toNat : ℤ) := by simp [stream]
      simp only [exampleBimodal, bind, Except.bind, h3, h5, h4, pure, Except.pure]
    · simp [stream]; omega
    · simp [stream]; omega
    · intro i h; simp [stream]
    · intro i h
      simp only [stream, List.getElem_map, List.getElem_range]
      congr 1
      ring

/-- **C159 (edge).** `_random_data_1d_02(num)` gives `num // 2` normal numbers of mean 1 followed by numbers between 1 and 3, `num`
altogether; a negative number is an error. -/
theorem C159_edge (z u : ℕ → ℝ) (hu : ∀ i, 0 ≤ u i ∧ u i < 1) (num : ℤ) :
    (num < 0 → exampleEdge z u num = .error .valueError) ∧
    (0 ≤ num → ∃ a b : List ℝ, exampleEdge z u num = .ok (a ++ b) ∧ (a.length : ℤ) = num / 2 ∧
      (a.length + b.length : ℤ) = num ∧ (∀ i (h : i < a.length), a[i] = 1 + z i) ∧
      (∀ i (h : i < b.length), b[i] = 1 + 2 * u i) ∧ ∀ y ∈ b, 1 ≤ y ∧ y < 3) := by
  constructor
  · intro h
    have : num / 2 < 0 := by omega
    simp [exampleEdge, npNormal, this, bind, Except.bind]
  · intro h
    refine ⟨(stream z (num / 2).toNat).map fun t => 1 + 1 * t,
      (stream u (num - ((num / 2).toNat : ℤ)).toNat).map fun t => 1 + (3 - 1) * t, ?_, ?_, ?_, ?_, ?_, ?_⟩
    · have h1' : ¬ (num / 2 < 0 ∨ (1 : ℝ) < 0) := by norm_num; omega
      have h2' : ¬ (num - ((num / 2).toNat : ℤ) < 0) := by omega
      have h3 : npNormal 1 1 z (num / 2) = .ok ((stream z (num / 2).toNat).map fun t => 1 + 1 * t) := if_neg h1'
      have h4 : npUniform 1 3 u (num - ((num / 2).toNat : ℤ))
          = .ok ((stream u (num - ((num / 2).toNat : ℤ)).toNat).map fun t => 1 + (3 - 1) * t) := if_neg h2'
      have h5 : (((stream z (num / 2).toNat).map fun t => 1 + 1 * t).length : ℤ) = ((num / 2).toNat : ℤ) := by simp [stream]
      simp only [exampleEdge, bind, Except.bind, h3, h5, h4, pure, Except.pure]
    · simp [stream]; omega
    · simp [stream]; omega
    · intro i h; simp [stream]
    · intro i h
      simp only [stream, List.getElem_map, List.getElem_range]
      ring
    · intro y hy
      simp only [stream, List.map_map, List.mem_map, Function.comp] at hy
      obtain ⟨i, _, rfl⟩ := hy
      constructor <;> linarith [(hu i).1, (hu i).2]

/-- **C159 (reseeding).** Both functions set the seed of numpy's generator themselves: the result is the same in every state of the
generator, and so is the state afterwards, hence every random number drawn later by the program that called them. -/
theorem C159_reseeds {σ : Type*} (g : Gen σ) (num : ℤ) (s s' : σ) :
    exampleBimodalFrom g num s = exampleBimodalFrom g num s' ∧ exampleEdgeFrom g num s = exampleEdgeFrom g num s' := ⟨rfl, rfl⟩

/-- Specification: a generator that hands out the numbers of two streams one after the other, where `pos` is the position
in a state and the seed of the examples leads to position 0. -/
structure Spec.Sequential {σ : Type*} (g : Gen σ) (pos : σ → ℕ) (z u : ℕ → ℝ) : Prop where
  start : pos (g.seed 12345) = 0
  normals : ∀ s n, (∀ i, (g.normals s n).1 i = z (pos s + i)) ∧ pos (g.normals s n).2 = pos s + n
  uniforms : ∀ s n, (∀ i, (g.uniforms s n).1 i = u (pos s + i)) ∧ pos (g.uniforms s n).2 = pos s + n

/-- **C159 (own numbers).** With a generator that hands out its numbers one after the other, every value of the one-dimensional
example data is made from a random number of its own, counted from the seed, and exactly `num` of them are used. -/
theorem C159_sequential {σ : Type*} {g : Gen σ} {pos : σ → ℕ} {z u : ℕ → ℝ} (hg : Spec.Sequential g pos z u) (n : ℕ) (s : σ)
    (hu : ∀ i, u i ∈ Ico (0 : ℝ) 1) :
    (∃ data st, exampleBimodalFrom g n s = .ok ((data, exampleTruth), st) ∧ pos st = n ∧ data.length = n ∧
      ∀ i (h : i < data.length), data[i] = if i < n / 2 then 4 + z i else Real.exp (z i / 2)) ∧
    (∃ data st, exampleEdgeFrom g n s = .ok (data, st) ∧ pos st = n ∧ data.length = n ∧
      ∀ i (h : i < data.length), data[i] = if i < n / 2 then 1 + z i else 1 + 2 * u i) := by
  have hpos : (n / 2) + ((n : ℤ) - n / 2).toNat = n := by omega
  have hhalf : ((n : ℤ) / 2).toNat = n / 2 := by omega
  obtain ⟨n1, n2⟩ := hg.normals (g.seed 12345) (n / 2)
  rw [hg.start] at n2
  simp only [hg.start, zero_add] at n1 n2
  constructor
  · obtain ⟨m1, m2⟩ := hg.normals (g.normals (g.seed 12345) (n / 2)).2 ((n : ℤ) - n / 2).toNat
    rw [n2] at m2
    simp only [n2] at m1
    obtain ⟨a, b, h1, h2, h3, h4, h5⟩ := (C159_bimodal (g.normals (g.seed 12345) (n / 2)).1
      (g.normals (g.normals (g.seed 12345) (n / 2)).2 ((n : ℤ) - n / 2).toNat).1 n).2 (by omega)
    refine ⟨a ++ b, (g.normals (g.normals (g.seed 12345) (n / 2)).2 ((n : ℤ) - n / 2).toNat).2, ?_, by rw [m2, hpos],
      by rw [List.length_append]; omega, fun i h => ?_⟩
    · simp only [exampleBimodalFrom, hhalf, h1]
      rfl
    · have ha : a.length = n / 2 := by omega
      rw [List.getElem_append]
      split_ifs with h6 h7 h7
      · rw [h4, n1]
      · omega
      · omega
      · rw [h5, m1, show n / 2 + (i - a.length) = i by omega]
  · obtain ⟨m1, m2⟩ := hg.uniforms (g.normals (g.seed 12345) (n / 2)).2 ((n : ℤ) - n / 2).toNat
    rw [n2] at m2
    simp only [n2] at m1
    obtain ⟨a, b, h1, h2, h3, h4, h5, _⟩ := (C159_edge (g.normals (g.seed 12345) (n / 2)).1
      (g.uniforms (g.normals (g.seed 12345) (n / 2)).2 ((n : ℤ) - n / 2).toNat).1
      (fun i => by rw [m1]; exact hu _) n).2 (by omega)
    refine ⟨a ++ b, (g.uniforms (g.normals (g.seed 12345) (n / 2)).2 ((n : ℤ) - n / 2).toNat).2, ?_, by rw [m2, hpos],
      by rw [List.length_append]; omega, fun i h => ?_⟩
    · simp only [exampleEdgeFrom, hhalf, h1]
      rfl
    · have ha : a.length = n / 2 := by omega
      rw [List.getElem_append]
      split_ifs with h6 h7 h7
      · rw [h4, n1]
      · omega
      · omega
      · rw [h5, m1, show n / 2 + (i - a.length) = i by omega]

/-- Concrete case of the hypotheses of `C159_sequential`: a generator whose state is the position. -/
example : Spec.Sequential (⟨fun _ => 0, fun s n => (fun i => (s + i : ℕ), s + n), fun s n => (fun _ => 1 / 2, s + n)⟩ : Gen ℕ)
    id (fun i => i) (fun _ => 1 / 2) ∧ ∀ _ : ℕ, (1 / 2 : ℝ) ∈ Ico (0 : ℝ) 1 :=
  ⟨⟨rfl, fun _ _ => ⟨fun _ => rfl, rfl⟩, fun _ _ => ⟨fun _ => rfl, rfl⟩⟩, fun _ => by norm_num⟩

lemma integral_normal_part {a b : ℝ} (hab : a ≤ b) :
    ∫ x in a..b, Real.exp (-(x - 4) ^ 2 / 2) / Real.sqrt (2 * Real.pi)
      = ((gaussianReal 0 1).map fun z => 4 + z).real (Ioc a b) := by
  have e : ((gaussianReal 0 1).map fun z => 4 + z) = gaussianReal 4 1 := by
    have := gaussianReal_map_const_add (μ := 0) (v := 1) 4
    simpa using this
  rw [e, measureReal_def, gaussianReal_apply_eq_integral _ one_ne_zero, ENNReal.toReal_ofReal,
    intervalIntegral.integral_of_le hab]
  · refine setIntegral_congr_fun measurableSet_Ioc fun x _ => ?_
    simp only [gaussianPDFReal, NNReal.coe_one, mul_one]
    rw [div_eq_mul_inv, mul_comm]
  · exact setIntegral_nonneg measurableSet_Ioc fun x _ => gaussianPDFReal_nonneg _ _ _

lemma integral_lognormal_part {a b : ℝ} (ha : 0 < a) (hab : a ≤ b) :
    ∫ x in a..b, Real.exp (-(Real.log x) ^ 2 / (2 * (1 / 2) ^ 2)) / (1 / 2 * x * Real.sqrt (2 * Real.pi))
      = ((gaussianReal 0 1).map fun z => Real.exp (z / 2)).real (Ioc a b) := by
  have hb : 0 < b := ha.trans_le hab
  have hpos : ∀ x ∈ uIcc a b, 0 < x := fun x hx => by
    rw [uIcc_of_le hab] at hx
    exact ha.trans_le hx.1
  have h1 := intervalIntegral.integral_comp_mul_deriv (a := a) (b := b) (f := fun x => 2 * Real.log x) (f' := fun x => 2 * x⁻¹)
    (g := gaussianPDFReal 0 1) (fun x hx => ((Real.hasDerivAt_log (hpos x hx).ne').const_mul 2))
    (ContinuousOn.mul continuousOn_const (ContinuousOn.inv₀ continuousOn_id fun x hx => (hpos x hx).ne'))
    (by unfold gaussianPDFReal; fun_prop)
  have h2 : ∫ x in a..b, Real.exp (-(Real.log x) ^ 2 / (2 * (1 / 2) ^ 2)) / (1 / 2 * x * Real.sqrt (2 * Real.pi))
      = ∫ x in a..b, (gaussianPDFReal 0 1 ∘ fun x => 2 * Real.log x) x * (2 * x⁻¹) := by
    refine intervalIntegral.integral_congr fun x hx => ?_
    have hx0 := hpos x hx
    simp only [Function.comp, gaussianPDFReal, NNReal.coe_one, mul_one, sub_zero]
    rw [show -(Real.log x) ^ 2 / (2 * (1 / 2) ^ 2) = -(2 * Real.log x) ^ 2 / 2 by ring]
    have : Real.sqrt (2 * Real.pi) ≠ 0 := by positivity
    field_simp
  rw [h2, h1, measureReal_def, Measure.map_apply (by fun_prop) measurableSet_Ioc]
  have e : (fun z : ℝ => Real.exp (z / 2)) ⁻¹' Ioc a b = Ioc (2 * Real.log a) (2 * Real.log b) := by
    ext z
    simp only [mem_preimage, mem_Ioc]
    rw [← Real.log_lt_iff_lt_exp ha, ← Real.le_log_iff_exp_le hb]
    constructor <;> rintro ⟨h, h'⟩ <;> constructor <;> linarith
  rw [e, gaussianReal_apply_eq_integral _ one_ne_zero, ENNReal.toReal_ofReal,
    intervalIntegral.integral_of_le (by linarith [Real.log_le_log ha hab])]
  exact setIntegral_nonneg measurableSet_Ioc fun x _ => gaussianPDFReal_nonneg _ _ _

/-- **C159 (truth).** The density that comes with the data is the one of the data: over every interval of positive numbers its integral is
the mean of the probabilities that a number of the first kind, `4 + z`, and a number of the second kind, `exp (z / 2)`, lie there, `z`
being a standard normal number. -/
theorem C159_truth {a b : ℝ} (ha : 0 < a) (hab : a ≤ b) :
    ∫ x in a..b, exampleDensity x
      = (((gaussianReal 0 1).map fun z => 4 + z).real (Ioc a b)
          + ((gaussianReal 0 1).map fun z => Real.exp (z / 2)).real (Ioc a b)) / 2 := by
  rw [← integral_normal_part hab, ← integral_lognormal_part ha hab]
  have hpos : ∀ x ∈ uIcc a b, 0 < x := fun x hx => by
    rw [uIcc_of_le hab] at hx
    exact ha.trans_le hx.1
  have c1 : IntervalIntegrable (fun x : ℝ => Real.exp (-(x - 4) ^ 2 / 2) / Real.sqrt (2 * Real.pi)) volume a b := by
    apply Continuous.intervalIntegrable
    fun_prop
  have c2 : IntervalIntegrable (fun x : ℝ => Real.exp (-(Real.log x) ^ 2 / (2 * (1 / 2) ^ 2)) / (1 / 2 * x * Real.sqrt (2 * Real.pi)))
      volume a b := by
    apply ContinuousOn.intervalIntegrable
    refine ContinuousOn.div ?_ (by fun_prop) fun x hx => ?_
    · refine Real.continuous_exp.comp_continuousOn (ContinuousOn.div_const (ContinuousOn.neg (ContinuousOn.pow ?_ 2)) _)
      exact Real.continuousOn_log.mono fun x hx => (hpos x hx).ne'
    · have := hpos x hx
      positivity
  rw [← intervalIntegral.integral_add c1 c2, ← intervalIntegral.integral_div]
  refine intervalIntegral.integral_congr fun x _ => ?_
  simp only [exampleDensity]
  ring

/-- **C159 (points).** The density is given at the 199 points `7 i / 199`. -/
theorem C159_points : exampleTruth.1.length = 199 ∧ exampleTruth.2.length = 199 ∧
    ∀ i (h : i < exampleTruth.1.length) (h' : i < exampleTruth.2.length),
      exampleTruth.1[i] = 7 * (i + 1) / 199 ∧ exampleTruth.2[i] = exampleDensity (7 * (i + 1) / 199) ∧ 0 < exampleTruth.2[i] := by
  refine ⟨by simp [exampleTruth], by simp [exampleTruth], fun i h h' => ?_⟩
  have e : ((i : ℝ) + 1) * (7 / 199) = 7 * (i + 1) / 199 := by ring
  refine ⟨by simp [exampleTruth, e], by simp [exampleTruth, e], ?_⟩
  simp only [exampleTruth, List.getElem_map, List.getElem_tail, List.getElem_range, exampleDensity]
  positivity

/-- Five numbers: two of the first kind and three of the second one. -/
example (z₁ z₂ : ℕ → ℝ) : ∃ a b : List ℝ, exampleBimodal z₁ z₂ 5 = .ok (a ++ b) ∧ a.length = 2 ∧ b.length = 3 := by
  obtain ⟨a, b, h, h1, h2, _⟩ := (C159_bimodal z₁ z₂ 5).2 (by norm_num)
  exact ⟨a, b, h, by omega, by omega⟩

end Kalepy
