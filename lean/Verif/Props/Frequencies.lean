import Mathlib.Probability.Moments.SubGaussian
import Verif.Props.SampleMoments
import Verif.Props.Normal
import Verif.Props.Nonneg

/-!
# C112: frequencies of samples

The fraction of the samples that fall into a region approximates the probability of the region, with Hoeffding's bound on
the probability of a deviation.
-/

namespace Kalepy

open MeasureTheory ProbabilityTheory Matrix

variable {d : ℕ}

open Classical in
/-- Specification: the fraction of the points that lie in the region `A`. -/
noncomputable def Spec.fraction {V : Type*} (l : List V) (A : Set V) : ℝ :=
  (l.countP fun x => decide (x ∈ A) : ℝ) / l.length

/-- Specification: the fraction of the samples that lie in the region `A`. -/
noncomputable def Spec.fractionIn (s : Samples d) (A : Set (Fin d → ℝ)) : ℝ := Spec.fraction s.points A

/-- Hoeffding's bound for the number of independent points that fall into a set. -/
lemma hoeffding_one {Ω V : Type*} [MeasurableSpace Ω] [MeasurableSpace V] {μ : Measure Ω} [IsProbabilityMeasure μ]
    {n : ℕ} {X : Fin n → Ω → V} {P : Measure V} (hX : ∀ j, HasLaw (X j) P μ) (hi : iIndepFun X μ)
    {f : V → ℝ} (hf : Measurable f) (h01 : ∀ x, f x ∈ Set.Icc (0:ℝ) 1) {ε : ℝ} (hε : 0 ≤ ε) :
    μ.real {ω | n * ε ≤ ∑ j, (f (X j ω) - ∫ x, f x ∂P)} ≤ Real.exp (-2 * n * ε ^ 2) := by
  have hint : ∀ j, ∫ ω, f (X j ω) ∂μ = ∫ x, f x ∂P := fun j => (hX j).integral_comp hf.aestronglyMeasurable
  have hsub : ∀ j ∈ (Finset.univ : Finset (Fin n)), HasSubgaussianMGF (fun ω => f (X j ω) - ∫ x, f x ∂P)
      ((‖(1:ℝ) - 0‖₊ / 2) ^ 2) μ := by
    intro j _
    have := hasSubgaussianMGF_of_mem_Icc (μ := μ) (a := 0) (b := 1) (hf.comp_aemeasurable (hX j).aemeasurable)
      (Filter.Eventually.of_forall fun ω => h01 (X j ω))
    simp only [Function.comp_apply, hint] at this
    exact this
  have hind : iIndepFun (fun (j : Fin n) ω => f (X j ω) - ∫ x, f x ∂P) μ :=
    hi.comp (fun _ x => f x - ∫ x, f x ∂P) fun _ => hf.sub_const _
  refine (HasSubgaussianMGF.measure_sum_ge_le_of_iIndepFun hind hsub (by positivity)).trans (le_of_eq ?_)
  congr 1
  rcases Nat.eq_zero_or_pos n with rfl | hn
  · simp
  · have : (0:ℝ) < n := by exact_mod_cast hn
    simp only [sub_zero, nnnorm_one, Finset.sum_const, Finset.card_univ, Fintype.card_fin, nsmul_eq_mul, NNReal.coe_mul,
      NNReal.coe_natCast, NNReal.coe_pow, NNReal.coe_div, NNReal.coe_one, NNReal.coe_ofNat]
    field_simp

/-- The number of points in a set as a sum. -/
lemma countP_ofFn {V R : Type*} [Semiring R] {n : ℕ} (X : Fin n → V) (p : V → Bool) :
    ((List.ofFn X).countP p : R) = ∑ j, if p (X j) then 1 else 0 := by
  have e : (List.ofFn fun j => if p (X j) then (1:R) else 0) = (List.ofFn X).map fun x => if p x then (1:R) else 0 := by
    rw [List.map_ofFn]
    rfl
  rw [List.countP_eq_length_filter, ← List.sum_ofFn, e]
  induction List.ofFn X with
  | nil => simp
  | cons x l ih => by_cases hx : p x = true <;> simp [hx, ← ih, add_comm]

/-- Independent samples with law `P`: the fraction of them in `A` differs by `ε` or more from the probability of `A` with
probability at most `2 exp(-2 n ε²)`. -/
lemma fraction_bound_list {Ω V : Type*} [MeasurableSpace Ω] [MeasurableSpace V] {μ : Measure Ω} [IsProbabilityMeasure μ]
    {n : ℕ} {X : Fin n → Ω → V} {P : Measure V} (hX : ∀ j, HasLaw (X j) P μ) (hi : iIndepFun X μ)
    {A : Set V} (hA : MeasurableSet A) {good : Ω → List V → Prop}
    (hr : ∀ᵐ ω ∂μ, ∃ l, good ω l ∧ l.Perm (List.ofFn fun j => X j ω)) {ε : ℝ} (hε : 0 < ε) :
    μ.real {ω | ¬ ∃ l, good ω l ∧ |Spec.fraction l A - P.real A| < ε} ≤ 2 * Real.exp (-2 * n * ε ^ 2) := by
  classical
  rcases Nat.eq_zero_or_pos n with rfl | hn
  · simp only [CharP.cast_eq_zero, mul_zero, zero_mul, Real.exp_zero, mul_one]
    exact measureReal_le_one.trans one_le_two
  have hn' : (0:ℝ) < n := by exact_mod_cast hn
  have hP : IsProbabilityMeasure P := ((hX ⟨0, hn⟩).isProbabilityMeasure_iff).mp inferInstance
  set f : V → ℝ := A.indicator fun _ => 1 with hf
  have hfm : Measurable f := measurable_const.indicator hA
  have hf01 : ∀ x, f x ∈ Set.Icc (0:ℝ) 1 := by
    intro x
    simp only [hf, Set.indicator_apply]
    split_ifs <;> simp
  have hfP : ∫ x, f x ∂P = P.real A := by rw [hf, integral_indicator_const _ hA]; simp
  have h1 := hoeffding_one hX hi hfm hf01 hε.le
  have h2 := hoeffding_one (f := fun x => 1 - f x) hX hi (measurable_const.sub hfm)
    (fun x => ⟨sub_nonneg.mpr (hf01 x).2, sub_le_self _ (hf01 x).1⟩) hε.le
  have hfi : Integrable f P := (integrable_const (1:ℝ)).indicator hA
  rw [integral_sub (integrable_const _) hfi] at h2
  simp only [integral_const, probReal_univ, smul_eq_mul, mul_one, hfP] at h1 h2
  have hsub : {ω | ¬ ∃ l, good ω l ∧ |Spec.fraction l A - P.real A| < ε} ⊆
      {ω | ¬ ∃ l, good ω l ∧ l.Perm (List.ofFn fun j => X j ω)} ∪
      ({ω | n * ε ≤ ∑ j, (f (X j ω) - P.real A)} ∪ {ω | n * ε ≤ ∑ j, (1 - f (X j ω) - (1 - P.real A))}) := by
    intro ω hω
    by_cases hg : ∃ l, good ω l ∧ l.Perm (List.ofFn fun j => X j ω)
    swap
    · exact Or.inl hg
    obtain ⟨s, hs, hp⟩ := hg
    refine Or.inr ?_
    have hge : ε ≤ |Spec.fraction s A - P.real A| := by
      by_contra hlt
      exact hω ⟨s, hs, not_le.mp hlt⟩
    have hfr : Spec.fraction s A = (∑ j, f (X j ω)) / n := by
      rw [Spec.fraction, hp.countP_eq, hp.length_eq, countP_ofFn, List.length_ofFn]
      congr 1
      refine Finset.sum_congr rfl fun j _ => ?_
      simp [hf, Set.indicator_apply]
    rw [hfr] at hge
    have e1 : ∑ j, (f (X j ω) - P.real A) = n * ((∑ j, f (X j ω)) / n - P.real A) := by
      rw [Finset.sum_sub_distrib]
      simp only [Finset.sum_const, Finset.card_univ, Fintype.card_fin, nsmul_eq_mul]
      field_simp
    have e2 : ∑ j, (1 - f (X j ω) - (1 - P.real A)) = -(n * ((∑ j, f (X j ω)) / n - P.real A)) := by
      rw [← e1, ← Finset.sum_neg_distrib]
      exact Finset.sum_congr rfl fun j _ => by ring
    rcases le_abs.mp hge with h | h
    · left
      show n * ε ≤ _
      rw [e1]
      exact mul_le_mul_of_nonneg_left h hn'.le
    · right
      show n * ε ≤ _
      rw [e2, ← mul_neg]
      exact mul_le_mul_of_nonneg_left h hn'.le
  have h0 : μ.real {ω | ¬ ∃ l, good ω l ∧ l.Perm (List.ofFn fun j => X j ω)} = 0 := by
    rw [measureReal_def, ae_iff.mp hr, ENNReal.toReal_zero]
  calc _ ≤ _ := measureReal_mono hsub
    _ ≤ _ := measureReal_union_le _ _
    _ ≤ 0 + (_ + _) := add_le_add h0.le (measureReal_union_le _ _)
    _ ≤ _ := by linarith

lemma fraction_bound {Ω : Type} [MeasurableSpace Ω] {μ : Measure Ω} [IsProbabilityMeasure μ] {n : ℕ}
    {X : Fin n → Ω → Fin d → ℝ} {P : Measure (Fin d → ℝ)} (hX : ∀ j, HasLaw (X j) P μ) (hi : iIndepFun X μ)
    {A : Set (Fin d → ℝ)} (hA : MeasurableSet A) {r : Ω → Res (Samples d)}
    (hr : ∀ᵐ ω ∂μ, ∃ s, r ω = .ok s ∧ s.points = List.ofFn fun j => X j ω) {ε : ℝ} (hε : 0 < ε) :
    μ.real {ω | ¬ ∃ s, r ω = .ok s ∧ |Spec.fractionIn s A - P.real A| < ε} ≤ 2 * Real.exp (-2 * n * ε ^ 2) := by
  have h := fraction_bound_list hX hi hA (good := fun ω l => ∃ s, r ω = .ok s ∧ s.points = l)
    (hr.mono fun ω ⟨s, h1, h2⟩ => ⟨_, ⟨s, h1, rfl⟩, h2 ▸ List.Perm.refl _⟩) hε
  refine le_trans (measureReal_mono fun ω hω => ?_) h
  rintro ⟨l, ⟨s, h1, rfl⟩, h2⟩
  exact hω ⟨s, h1, h2⟩

/-- **C112**, for all kernels: without boundaries there is one probability distribution `P` such that for every region, the
fraction of the samples in the region is within `ε` of the probability of the region, except with a probability of at most
`2 exp(-2 size ε²)`.  Failing calls count as exceptions. -/
theorem C112_frequencies {E : Ext} {a : KDEArgs d} {k : KDE d} (h : KDE.init E a = .ok k) (hd : 0 < d)
    (hr : a.reflect = .none) (hM : (Spec.kernelMatrix k.covariance k.bandwidth).PosDef) :
    ∃ P : Measure (Fin d → ℝ), IsProbabilityMeasure P ∧
      ∀ {Ω : Type} [MeasurableSpace Ω] (μ : Measure Ω) (rnd : Ω → ℕ → ℕ → Draw d), Spec.RandomNumbers μ rnd →
        ∀ (size : ℕ) (squeeze : Bool) (A : Set (Fin d → ℝ)), MeasurableSet A → ∀ ε > 0,
          μ.real {ω | ¬ ∃ s, k.resample (some size) .none .none squeeze (rnd ω) = .ok s ∧
            |Spec.fractionIn s A - P.real A| < ε} ≤ 2 * Real.exp (-2 * size * ε ^ 2) := by
  obtain ⟨P, hP, hs⟩ := C84_iid h hd hr hM
  refine ⟨P, hP, fun μ rnd hrnd size squeeze A hA ε hε => ?_⟩
  obtain ⟨X, hX, hlaw, hi⟩ := hs μ rnd hrnd size squeeze
  have hprob : IsProbabilityMeasure μ := (hrnd.law 0 0).isProbabilityMeasure
  exact fraction_bound hlaw hi hA hX hε

/-- The density is integrable and not negative. -/
lemma pdf_facts {E : Ext} {a : KDEArgs d} {k : KDE d} (h : KDE.init E a = .ok k) (srt : List ℝ → List ℕ)
    (hd : 0 < d) (hr : a.reflect = .none) (hM : (Spec.kernelMatrix k.covariance k.bandwidth).PosDef)
    {F : (Fin d → ℝ) → ℝ}
    (hF : ∀ pts : List (Fin d → ℝ), (k.pdf E srt (some (.rows (Spec.rowsOf pts))) .none .none false).1
        = .ok (.rows (Spec.rowsOf pts), ⟨[pts.length], pts.map F⟩)) : Integrable F ∧ ∀ x, 0 ≤ F x := by
  obtain ⟨G, hG, hi, _⟩ := C07_normalised h srt hd hr hM
  have hGF : G = F := by
    funext x
    have h1 := hF [x]
    rw [← List.foldl_nil (f := fun k c => (Spec.call E srt k c).2) (b := k), hG [] [x]] at h1
    simpa using h1
  refine ⟨hGF ▸ hi, fun x => ?_⟩
  have := C05_kde_all h srt hd [] _ _ _ _ _ _ _ (hF [x])
  exact this (F x) (by simp)

/-- The probability of a region under the law with density `F`. -/
lemma withDensity_real {F : (Fin d → ℝ) → ℝ} (hF : Integrable F) (h0 : ∀ x, 0 ≤ F x) {A : Set (Fin d → ℝ)}
    (hA : MeasurableSet A) : (volume.withDensity fun x => ENNReal.ofReal (F x)) A = ENNReal.ofReal (∫ x in A, F x) := by
  rw [withDensity_apply _ hA, ofReal_integral_eq_lintegral_ofReal hF.integrableOn (Filter.Eventually.of_forall h0)]

/-- Specification: for every region, the fraction of the samples in the region is within `ε` of the integral of `F` over
the region, except with a probability of at most `2 exp(-2 size ε²)`; a call that fails counts as an exception. -/
def Spec.FrequenciesFollow {Ω : Type} [MeasurableSpace Ω] (k : KDE d) (F : (Fin d → ℝ) → ℝ) (μ : Measure Ω)
    (rnd : Ω → ℕ → ℕ → Draw d) (size : ℕ) (squeeze : Bool) : Prop :=
  ∀ A : Set (Fin d → ℝ), MeasurableSet A → ∀ ε > 0,
    μ.real {ω | ¬ ∃ s, k.resample (some size) .none .none squeeze (rnd ω) = .ok s ∧
      |Spec.fractionIn s A - ∫ x in A, F x| < ε} ≤ 2 * Real.exp (-2 * size * ε ^ 2)

/-- **C112** for the kernels whose samples follow the density (the Gaussian one in all dimensions, the box and parabola
kernels in one dimension): the fraction of the samples in a region is within `ε` of the integral of the density that `pdf`
returns over the region, except with a probability of at most `2 exp(-2 size ε²)`. The full claim is the same for all
kernels; it is false (`C112_iff`). -/
theorem C112_partial {E : Ext} {a : KDEArgs d} {k : KDE d} (h : KDE.init E a = .ok k) (srt : List ℝ → List ℕ)
    (hd : 0 < d) (hr : a.reflect = .none) (hM : (Spec.kernelMatrix k.covariance k.bandwidth).PosDef)
    (hD : Spec.ExactSampler k.kernel.dist d) :
    ∃ F : (Fin d → ℝ) → ℝ,
      (∀ pts : List (Fin d → ℝ), (k.pdf E srt (some (.rows (Spec.rowsOf pts))) .none .none false).1
        = .ok (.rows (Spec.rowsOf pts), ⟨[pts.length], pts.map F⟩)) ∧
      ∀ {Ω : Type} [MeasurableSpace Ω] (μ : Measure Ω) (rnd : Ω → ℕ → ℕ → Draw d), Spec.RandomNumbers μ rnd →
        ∀ (size : ℕ) (squeeze : Bool), Spec.FrequenciesFollow k F μ rnd size squeeze := by
  obtain ⟨F, hF, hs⟩ := C84_partial h srt hd hr hM hD
  refine ⟨F, hF, fun μ rnd hrnd size squeeze A hA ε hε => ?_⟩
  obtain ⟨X, hX, hlaw, hi⟩ := hs μ rnd hrnd size squeeze
  have hprob : IsProbabilityMeasure μ := (hrnd.law 0 0).isProbabilityMeasure
  obtain ⟨hFi, hF0⟩ := pdf_facts h srt hd hr hM hF
  have e : (volume.withDensity fun x => ENNReal.ofReal (F x)).real A = ∫ x in A, F x := by
    rw [measureReal_def, withDensity_real hFi hF0 hA, ENNReal.toReal_ofReal (integral_nonneg hF0)]
  rw [← e]
  exact fraction_bound hlaw hi hA hX hε

/-- **C112**, exactly: whatever the data, weights and bandwidth are, the frequencies of the samples follow the density that
`pdf` returns if and only if the kernel is the Gaussian, or there is one parameter and the kernel is the box or the
parabola. With the other kernels the deviation does not vanish, however many samples are drawn. -/
theorem C112_iff {E : Ext} {a : KDEArgs d} {k : KDE d} (h : KDE.init E a = .ok k) (srt : List ℝ → List ℕ)
    (hd : 0 < d) (hr : a.reflect = .none) (hM : (Spec.kernelMatrix k.covariance k.bandwidth).PosDef)
    {F : (Fin d → ℝ) → ℝ}
    (hF : ∀ pts : List (Fin d → ℝ), (k.pdf E srt (some (.rows (Spec.rowsOf pts))) .none .none false).1
        = .ok (.rows (Spec.rowsOf pts), ⟨[pts.length], pts.map F⟩))
    {Ω : Type} [MeasurableSpace Ω] (μ : Measure Ω) (rnd : Ω → ℕ → ℕ → Draw d) (hrnd : Spec.RandomNumbers μ rnd)
    (squeeze : Bool) :
    (∀ size, Spec.FrequenciesFollow k F μ rnd size squeeze) ↔
      k.kernel.dist = .gaussian ∨ d = 1 ∧ (k.kernel.dist = .box ∨ k.kernel.dist = .parabola) := by
  constructor
  swap
  · intro hD
    obtain ⟨G, hG, hs⟩ := C112_partial h srt hd hr hM hD
    have : G = F := by
      funext x
      have h1 := hF [x]
      rw [hG [x]] at h1
      simpa using h1
    subst this
    exact fun size => hs μ rnd hrnd size squeeze
  intro hall
  have hprob : IsProbabilityMeasure μ := (hrnd.law 0 0).isProbabilityMeasure
  obtain ⟨P, hP, hs⟩ := C84_iid h hd hr hM
  obtain ⟨hFi, hF0⟩ := pdf_facts h srt hd hr hM hF
  refine (C84_iff h srt hd hr hM hF μ rnd hrnd 1 one_pos squeeze).mp ?_
  have hPF : P = volume.withDensity fun x => ENNReal.ofReal (F x) := by
    refine Measure.ext fun A hA => ?_
    rw [withDensity_real hFi hF0 hA, ← ofReal_measureReal]
    congr 1
    by_contra hne
    set ε := |P.real A - ∫ x in A, F x| / 2 with hε
    have hpos : 0 < ε := half_pos (abs_pos.mpr (sub_ne_zero.mpr hne))
    obtain ⟨n, hn⟩ := exists_nat_gt (1 / ε ^ 2)
    have hn2 : 1 < n * ε ^ 2 := by rwa [div_lt_iff₀ (by positivity)] at hn
    have hlt : 2 * Real.exp (-2 * n * ε ^ 2) < 1 / 2 := by
      have h1 : Real.exp (-2 * n * ε ^ 2) ≤ Real.exp (-2) := Real.exp_le_exp.mpr (by linarith)
      have h2 : Real.exp (-2) < 1 / 4 := by
        have h3 := Real.add_one_lt_exp (one_ne_zero (α := ℝ))
        rw [Real.exp_neg, show (2:ℝ) = 1 + 1 by norm_num, Real.exp_add, inv_lt_comm₀ (by positivity) (by norm_num)]
        nlinarith
      linarith
    obtain ⟨X, hX, hlaw, hi⟩ := hs μ rnd hrnd n squeeze
    have b1 := fraction_bound hlaw hi hA hX hpos
    have b2 := hall n A hA ε hpos
    have hun := measureReal_union_le (μ := μ) {ω | ¬ ∃ s, k.resample (some n) .none .none squeeze (rnd ω) = .ok s ∧
      |Spec.fractionIn s A - P.real A| < ε} {ω | ¬ ∃ s, k.resample (some n) .none .none squeeze (rnd ω) = .ok s ∧
      |Spec.fractionIn s A - ∫ x in A, F x| < ε}
    have hex : ∃ ω, ω ∉ {ω | ¬ ∃ s, k.resample (some n) .none .none squeeze (rnd ω) = .ok s ∧
      |Spec.fractionIn s A - P.real A| < ε} ∪ {ω | ¬ ∃ s, k.resample (some n) .none .none squeeze (rnd ω) = .ok s ∧
      |Spec.fractionIn s A - ∫ x in A, F x| < ε} := by
      by_contra hcon
      rw [Set.eq_univ_iff_forall.mpr fun ω => by_contra fun hh => hcon ⟨ω, hh⟩, probReal_univ] at hun
      linarith
    obtain ⟨ω, hω⟩ := hex
    simp only [Set.mem_union, Set.mem_ofPred_eq, not_or, not_not] at hω
    obtain ⟨⟨s, hs1, hs2⟩, t, ht1, ht2⟩ := hω
    rw [hs1, Except.ok.injEq] at ht1
    subst ht1
    have : |P.real A - ∫ x in A, F x| < 2 * ε := by
      rw [abs_lt] at hs2 ht2 ⊢
      constructor <;> linarith
    rw [hε] at this
    linarith
  obtain ⟨X, hX, hlaw, hi⟩ := hs μ rnd hrnd 1 squeeze
  exact ⟨X, hX, fun j => hPF ▸ hlaw j, hi⟩

/-- The full claim of C112: the frequencies of the samples follow the density that `pdf` returns, for all kernels. -/
def C112_Claim : Prop :=
  ∀ (d : ℕ) (E : Ext) (a : KDEArgs d) (k : KDE d) (srt : List ℝ → List ℕ) (F : (Fin d → ℝ) → ℝ),
    KDE.init E a = .ok k → 0 < d → a.reflect = .none → (Spec.kernelMatrix k.covariance k.bandwidth).PosDef →
    (∀ pts : List (Fin d → ℝ), (k.pdf E srt (some (.rows (Spec.rowsOf pts))) .none .none false).1
      = .ok (.rows (Spec.rowsOf pts), ⟨[pts.length], pts.map F⟩)) →
    ∀ (Ω : Type) [MeasurableSpace Ω] (μ : Measure Ω) (rnd : Ω → ℕ → ℕ → Draw d), Spec.RandomNumbers μ rnd →
      ∀ (size : ℕ) (squeeze : Bool), Spec.FrequenciesFollow k F μ rnd size squeeze

/-- **C112** fails in general. -/
theorem C112_refuted : ¬ C112_Claim := by
  intro hC
  obtain ⟨k, hk, hw, hD, hM⟩ := unit_init (d := 2) ⟨fun A => A, id⟩ [0] (by simp) [1] (by simp [Spec.ValidW])
    .triweight rfl
  have hpd : (Spec.kernelMatrix k.covariance k.bandwidth).PosDef := by rw [hM]; exact PosDef.one
  obtain ⟨F, hF, _⟩ := C07_normalised hk (fun _ => []) two_pos rfl hpd
  have hrnd := exists_randomNumbers 2
  have := (C112_iff hk _ two_pos rfl hpd (hF []) _ _ hrnd false).mp fun size =>
    hC 2 _ _ k _ F hk two_pos rfl hpd (hF []) _ _ _ hrnd size false
  rw [hD] at this
  simp at this

/-- Concrete case: three weighted data, parabola kernel, and random numbers as promised. -/
example : ∃ (a : KDEArgs 1) (k : KDE 1), KDE.init ⟨fun A => A, id⟩ a = .ok k ∧ a.reflect = .none ∧
    (Spec.kernelMatrix k.covariance k.bandwidth).PosDef ∧ Spec.ExactSampler k.kernel.dist 1 ∧
    ∃ F, Spec.FrequenciesFollow k F (Measure.infinitePi fun _ : ℕ × ℕ => Spec.drawLaw 1)
      (fun ω r c => Spec.drawOf (ω (r, c))) 1000 true := by
  obtain ⟨k, hk, hw, hD, hM⟩ := unit_init (d := 1) ⟨fun A => A, id⟩ [![0], ![1], ![3]] (by simp) [1, 2, 1]
    (by norm_num [Spec.ValidW]) .parabola rfl
  have hpd : (Spec.kernelMatrix k.covariance k.bandwidth).PosDef := by rw [hM]; exact PosDef.one
  have hex : Spec.ExactSampler k.kernel.dist 1 := by rw [hD]; exact Or.inr ⟨rfl, Or.inr rfl⟩
  obtain ⟨F, _, hF⟩ := C112_partial hk (fun _ => []) one_pos rfl hpd hex
  exact ⟨_, k, hk, rfl, hpd, hex, F, hF _ _ (exists_randomNumbers 1) 1000 true⟩

end Kalepy
