import Mathlib.Data.Fin.Tuple.Sort
import Mathlib.MeasureTheory.Constructions.Pi
import Mathlib.MeasureTheory.Measure.Prod
import Mathlib.Probability.HasLaw
import Mathlib.Probability.Independence.Basic
import Verif.Model.Np

/-!
# Sorting one component of independent pairs

When the first components of independent pairs are sorted and the second components are left in place, the new pairs are
a reordering of independent pairs with the same law.
-/

namespace Kalepy

open MeasureTheory ProbabilityTheory

variable {W : Type*} [MeasurableSpace W] {n : ℕ}

lemma measurableSet_sort (σ : Equiv.Perm (Fin n)) : MeasurableSet {u : Fin n → ℝ | Tuple.sort u = σ} := by
  have : {u : Fin n → ℝ | Tuple.sort u = σ} = (⋂ i, ⋂ j, {u : Fin n → ℝ | i ≤ j → u (σ i) ≤ u (σ j)})
      ∩ ⋂ i, ⋂ j, {u : Fin n → ℝ | i < j → u (σ i) = u (σ j) → σ i < σ j} := by
    ext u
    simp only [Set.mem_ofPred_eq, Set.mem_inter_iff, Set.mem_iInter]
    rw [eq_comm, Tuple.eq_sort_iff]
    rfl
  rw [this]
  refine MeasurableSet.inter (.iInter fun i => .iInter fun j => ?_) (.iInter fun i => .iInter fun j => ?_)
  · by_cases h : i ≤ j
    · simp only [h, true_imp_iff]
      exact measurableSet_le (measurable_pi_apply _) (measurable_pi_apply _)
    · simp [h]
  · by_cases h : i < j
    · by_cases h' : σ i < σ j
      · simp [h']
      · simp only [h, h', true_imp_iff, imp_false]
        exact (measurableSet_eq_fun (measurable_pi_apply (σ i)) (measurable_pi_apply (σ j))).compl
    · simp [h]

/-- The second components, moved to where sorting takes the first components from. -/
noncomputable def unsort (u : Fin n → ℝ) (l : Fin n → W) : Fin n → W := fun j => l ((Tuple.sort u).symm j)

lemma measurable_unsort : Measurable (Function.uncurry (unsort : (Fin n → ℝ) → (Fin n → W) → Fin n → W)) := by
  refine measurable_pi_iff.mpr fun j => fun s hs => ?_
  have : (fun p : (Fin n → ℝ) × (Fin n → W) => Function.uncurry unsort p j) ⁻¹' s
      = ⋃ σ : Equiv.Perm (Fin n), {p : (Fin n → ℝ) × (Fin n → W) | Tuple.sort p.1 = σ} ∩ {p | p.2 (σ.symm j) ∈ s} := by
    ext p
    simp [Function.uncurry, unsort]
  rw [this]
  refine .iUnion fun σ => .inter ?_ ?_
  · exact measurable_fst (measurableSet_sort σ)
  · exact ((measurable_pi_apply _).comp measurable_snd) hs

/-- Unsorting the second components preserves the product law. -/
lemma measurePreserving_unsort (U : Measure ℝ) [IsProbabilityMeasure U] (Q : Measure W) [IsProbabilityMeasure Q] :
    MeasurePreserving (fun p : (Fin n → ℝ) × (Fin n → W) => (p.1, unsort p.1 p.2))
      ((Measure.pi fun _ => U).prod (Measure.pi fun _ => Q)) ((Measure.pi fun _ => U).prod (Measure.pi fun _ => Q)) := by
  refine (MeasurePreserving.id _).skew_product measurable_unsort (Filter.Eventually.of_forall fun u => ?_)
  have h := (measurePreserving_piCongrLeft (fun _ : Fin n => Q) (Tuple.sort u)).map_eq
  refine Eq.trans ?_ h
  congr 1
  funext l j
  rw [MeasurableEquiv.coe_piCongrLeft, ← (Tuple.sort u).apply_symm_apply j, Equiv.piCongrLeft_apply_apply]
  simp [unsort]

/-- The pairs as independent points again. -/
lemma measurePreserving_resort (U : Measure ℝ) [IsProbabilityMeasure U] (Q : Measure W) [IsProbabilityMeasure Q] :
    MeasurePreserving (fun (p : Fin n → ℝ × W) j => ((p j).1, unsort (fun i => (p i).1) (fun i => (p i).2) j))
      (Measure.pi fun _ => U.prod Q) (Measure.pi fun _ => U.prod Q) := by
  have h1 := measurePreserving_arrowProdEquivProdArrow ℝ W (Fin n) (fun _ => U) (fun _ => Q)
  exact (h1.symm.comp (measurePreserving_unsort U Q)).comp h1

/-- Independent pairs whose first components are sorted: a reordering of independent points. -/
lemma sorted_iid {Ω V : Type*} [MeasurableSpace Ω] [MeasurableSpace V] {μ : Measure Ω} [IsProbabilityMeasure μ]
    {U : Measure ℝ} [IsProbabilityMeasure U] {Q : Measure W} [IsProbabilityMeasure Q] {u : Fin n → Ω → ℝ}
    {l : Fin n → Ω → W} (hlaw : ∀ j, HasLaw (fun ω => (u j ω, l j ω)) (U.prod Q) μ)
    (hind : iIndepFun (fun j ω => (u j ω, l j ω)) μ) {f : ℝ × W → V} (hf : Measurable f) :
    ∃ Z : Fin n → Ω → V, (∀ j, HasLaw (Z j) ((U.prod Q).map f) μ) ∧ iIndepFun Z μ ∧
      ∀ ω, (List.ofFn fun k => f (u (Tuple.sort (fun j => u j ω) k) ω, l k ω)).Perm (List.ofFn fun j => Z j ω) := by
  have hX : HasLaw (fun ω j => (u j ω, l j ω)) (Measure.pi fun _ : Fin n => U.prod Q) μ := by
    refine ⟨aemeasurable_pi_iff.mpr fun j => (hlaw j).aemeasurable, ?_⟩
    rw [(iIndepFun_iff_map_fun_eq_pi_map fun j => (hlaw j).aemeasurable).mp hind]
    congr 1
    funext j
    exact (hlaw j).map_eq
  have hY := (measurePreserving_resort U Q (n := n)).hasLaw.comp hX
  have hZ : HasLaw (fun ω j => f (u j ω, unsort (fun i => u i ω) (fun i => l i ω) j))
      (Measure.pi fun _ : Fin n => (U.prod Q).map f) μ := by
    have hp : IsProbabilityMeasure ((U.prod Q).map f) := Measure.isProbabilityMeasure_map hf.aemeasurable
    have h2 : MeasurePreserving (fun (p : Fin n → ℝ × W) j => f (p j)) (Measure.pi fun _ => U.prod Q)
        (Measure.pi fun _ => (U.prod Q).map f) := measurePreserving_pi _ _ fun _ => ⟨hf, rfl⟩
    exact h2.hasLaw.comp hY
  have hp : IsProbabilityMeasure ((U.prod Q).map f) := Measure.isProbabilityMeasure_map hf.aemeasurable
  have hZj : ∀ j, HasLaw (fun ω => f (u j ω, unsort (fun i => u i ω) (fun i => l i ω) j)) ((U.prod Q).map f) μ :=
    fun j => (measurePreserving_eval (fun _ : Fin n => (U.prod Q).map f) j).hasLaw.comp hZ
  refine ⟨fun j ω => f (u j ω, unsort (fun i => u i ω) (fun i => l i ω) j), hZj, ?_, fun ω => ?_⟩
  · rw [iIndepFun_iff_map_fun_eq_pi_map fun j => (hZj j).aemeasurable, hZ.map_eq]
    congr 1
    funext j
    exact ((hZj j).map_eq).symm
  · have : (fun k => f (u (Tuple.sort (fun j => u j ω) k) ω, l k ω))
        = (fun j => f (u j ω, unsort (fun i => u i ω) (fun i => l i ω) j)) ∘ Tuple.sort (fun j => u j ω) := by
      funext k
      simp [unsort]
    rw [this]
    exact Equiv.Perm.ofFn_comp_perm _ _

/-- `np.sort` and the sorting permutation. -/
lemma npSort_ofFn (u : Fin n → ℝ) : npSort (List.ofFn u) = List.ofFn (u ∘ Tuple.sort u) := by
  refine List.Perm.eq_of_pairwise (le := (· ≤ ·)) (fun a b _ _ => le_antisymm) (List.pairwise_insertionSort _ _) ?_
    ((List.perm_insertionSort _ _).trans (Equiv.Perm.ofFn_comp_perm _ _).symm)
  rw [List.pairwise_ofFn]
  exact fun i j h => Tuple.monotone_sort u h.le

end Kalepy
