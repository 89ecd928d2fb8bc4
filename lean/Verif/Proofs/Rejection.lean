import Mathlib.MeasureTheory.Constructions.Pi
import Mathlib.Algebra.BigOperators.Group.Finset.Basic

/-!
# Rejection sampling, abstractly

Independent candidates with law `P`, and a rule which picks some of the accepted ones (those in `S`) looking only at which
candidates are accepted.  The picked ones are independent, with law `P` conditioned on `S`.
-/

namespace Kalepy

open MeasureTheory

variable {ι α : Type*}

/-- The candidates of pattern `ε` with the picked ones in `A`, as a box. -/
lemma patternSet_box {n : ℕ} (S : Set α) (ε : ι → Prop) (φ : Fin n → ι) (hφ : Function.Injective φ)
    (A : Fin n → Set α) :
    {y : ι → α | (∀ i, y i ∈ S ↔ ε i) ∧ ∀ j, y (φ j) ∈ A j}
      = Set.univ.pi fun i => {x | x ∈ S ↔ ε i} ∩ Function.extend φ A (fun _ => Set.univ) i := by
  ext y
  simp only [Set.mem_ofPred_eq, Set.mem_univ_pi, Set.mem_inter_iff]
  constructor
  · rintro ⟨h1, h2⟩ i
    refine ⟨h1 i, ?_⟩
    by_cases h : ∃ j, φ j = i
    · obtain ⟨j, rfl⟩ := h
      rw [hφ.extend_apply]; exact h2 j
    · rw [Function.extend_apply' _ _ _ h]; trivial
  · intro h
    refine ⟨fun i => (h i).1, fun j => ?_⟩
    have := (h (φ j)).2
    rwa [hφ.extend_apply] at this

lemma measurableSet_accept [MeasurableSpace α] {S : Set α} (hS : MeasurableSet S) (p : Prop) :
    MeasurableSet {x | x ∈ S ↔ p} := by
  by_cases hp : p
  · simpa [hp] using hS
  · have : {x | x ∈ S ↔ p} = Sᶜ := by ext x; simp [hp]
    rw [this]; exact hS.compl

lemma measurableSet_extend [MeasurableSpace α] {n : ℕ} (φ : Fin n → ι) (hφ : Function.Injective φ) {A : Fin n → Set α}
    (hA : ∀ j, MeasurableSet (A j)) (i : ι) : MeasurableSet (Function.extend φ A (fun _ => Set.univ) i) := by
  by_cases h : ∃ j, φ j = i
  · obtain ⟨j, rfl⟩ := h
    rw [hφ.extend_apply]; exact hA j
  · rw [Function.extend_apply' _ _ _ h]; exact MeasurableSet.univ

lemma measurable_patternBox [Fintype ι] [MeasurableSpace α] {n : ℕ} {S : Set α} (hS : MeasurableSet S) (ε : ι → Prop) (φ : Fin n → ι)
    (hφ : Function.Injective φ) {A : Fin n → Set α} (hA : ∀ j, MeasurableSet (A j)) :
    MeasurableSet {y : ι → α | (∀ i, y i ∈ S ↔ ε i) ∧ ∀ j, y (φ j) ∈ A j} := by
  rw [patternSet_box S ε φ hφ]
  exact MeasurableSet.univ_pi fun i => (measurableSet_accept hS _).inter (measurableSet_extend φ hφ hA i)

/-- One pattern. -/
lemma pi_pattern [Fintype ι] [MeasurableSpace α] (P : Measure α) [IsProbabilityMeasure P] {n : ℕ} {S : Set α}
    (ε : ι → Prop) (φ : Fin n → ι) (hφ : Function.Injective φ) (hε : ∀ j, ε (φ j)) (A : Fin n → Set α) :
    Measure.pi (fun _ : ι => P) {y | (∀ i, y i ∈ S ↔ ε i) ∧ ∀ j, y (φ j) ∈ A j}
      = Measure.pi (fun _ : ι => P) {y | ∀ i, y i ∈ S ↔ ε i} * ∏ j, P (A j ∩ S) / P S := by
  rw [patternSet_box S ε φ hφ, Measure.pi_pi]
  have h0 : {y : ι → α | ∀ i, y i ∈ S ↔ ε i} = Set.univ.pi fun i => {x | x ∈ S ↔ ε i} := by
    ext y; simp
  rw [h0, Measure.pi_pi]
  have h1 : ∀ i, P ({x | x ∈ S ↔ ε i} ∩ Function.extend φ A (fun _ => Set.univ) i)
      = P {x | x ∈ S ↔ ε i} * Function.extend φ (fun j => P (A j ∩ S) / P S) (fun _ => 1) i := by
    intro i
    by_cases h : ∃ j, φ j = i
    · obtain ⟨j, rfl⟩ := h
      rw [hφ.extend_apply, hφ.extend_apply]
      have e : {x | x ∈ S ↔ ε (φ j)} = S := by
        ext x; simp [hε j]
      rw [e, Set.inter_comm]
      by_cases hz : P S = 0
      · rw [hz, zero_mul]
        exact measure_mono_null Set.inter_subset_right hz
      · rw [ENNReal.mul_div_cancel hz (measure_ne_top P S)]
    · rw [Function.extend_apply' _ _ _ h, Function.extend_apply' _ _ _ h, Set.inter_univ, mul_one]
  simp only [h1]
  rw [Finset.prod_mul_distrib]
  congr 1
  exact (Fintype.prod_of_injective φ hφ _ _ (fun i hi => by
    rw [Function.extend_apply' _ _ _ (by simpa [Set.mem_range] using hi)]) fun j => (hφ.extend_apply _ _ j).symm).symm

/-- The event that the pattern is a good one and the picked candidates lie in `A`. -/
def pickedSet {n : ℕ} (S : Set α) (Good : (ι → Prop) → Prop) (φ : {ε // Good ε} → Fin n → ι) (A : Fin n → Set α) :
    Set (ι → α) := ⋃ ε : {ε : ι → Prop // Good ε}, {y | (∀ i, y i ∈ S ↔ ε.1 i) ∧ ∀ j, y (φ ε j) ∈ A j}

lemma measurableSet_picked [Fintype ι] [MeasurableSpace α] {n : ℕ} {S : Set α} (hS : MeasurableSet S) {Good : (ι → Prop) → Prop}
    {φ : {ε // Good ε} → Fin n → ι} (hφ : ∀ ε, Function.Injective (φ ε))
    {A : Fin n → Set α} (hA : ∀ j, MeasurableSet (A j)) : MeasurableSet (pickedSet S Good φ A) := by
  classical
  exact MeasurableSet.iUnion fun ε => measurable_patternBox hS _ _ (hφ ε) hA

/-- **Rejection sampling.** -/
lemma pi_picked [Fintype ι] [MeasurableSpace α] (P : Measure α) [IsProbabilityMeasure P] {n : ℕ} {S : Set α} (hS : MeasurableSet S)
    {Good : (ι → Prop) → Prop} {φ : {ε // Good ε} → Fin n → ι} (hφ : ∀ ε, Function.Injective (φ ε))
    (hε : ∀ (ε : {ε // Good ε}) j, ε.1 (φ ε j)) {A : Fin n → Set α} (hA : ∀ j, MeasurableSet (A j)) :
    Measure.pi (fun _ : ι => P) (pickedSet S Good φ A)
      = Measure.pi (fun _ : ι => P) (pickedSet S Good φ fun _ => Set.univ) * ∏ j, P (A j ∩ S) / P S := by
  classical
  have hdis : ∀ A : Fin n → Set α, Pairwise (Function.onFun Disjoint fun ε : {ε : ι → Prop // Good ε} =>
      {y : ι → α | (∀ i, y i ∈ S ↔ ε.1 i) ∧ ∀ j, y (φ ε j) ∈ A j}) := by
    intro A ε ε' hne
    rw [Function.onFun, Set.disjoint_left]
    rintro y ⟨h1, _⟩ ⟨h2, _⟩
    exact hne (Subtype.ext (funext fun i => propext ((h1 i).symm.trans (h2 i))))
  have hsum : ∀ A : Fin n → Set α, (∀ j, MeasurableSet (A j)) → Measure.pi (fun _ : ι => P) (pickedSet S Good φ A)
      = ∑ ε : {ε : ι → Prop // Good ε}, Measure.pi (fun _ : ι => P)
        {y : ι → α | (∀ i, y i ∈ S ↔ ε.1 i) ∧ ∀ j, y (φ ε j) ∈ A j} := by
    intro A hA
    rw [pickedSet, measure_iUnion (hdis A) fun ε => measurable_patternBox hS _ _ (hφ ε) hA,
      tsum_fintype]
  rw [hsum A hA, hsum _ fun _ => MeasurableSet.univ, Finset.sum_mul]
  refine Finset.sum_congr rfl fun ε _ => ?_
  rw [pi_pattern P ε.1 (φ ε) (hφ ε) (hε ε) A]
  congr 2
  ext y; simp

end Kalepy
