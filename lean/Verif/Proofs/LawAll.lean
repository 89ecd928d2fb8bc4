import Mathlib.MeasureTheory.Integral.Pi
import Mathlib.MeasureTheory.Integral.DominatedConvergence
import Verif.Proofs.Law

/-!
# Samples of all kernels as random variables
-/

namespace Kalepy

open MeasureTheory ProbabilityTheory Matrix

variable {d : ℕ}

/-! ### The noise as a function of the random numbers -/

/-- The radius looked up in the table; 0 where the look-up fails. -/
noncomputable def triRadius (u : ℝ) : ℝ := (triInverse u).toOption.getD 0

lemma searchLeft_mono (a : List ℝ) : Monotone (searchLeft a) := by
  intro u v h
  refine List.countP_mono_left fun x _ hx => ?_
  simp only [decide_eq_true_eq] at hx ⊢
  exact hx.trans_le h

attribute [local irreducible] triXs triYs in
lemma measurable_triRadius : Measurable triRadius := by
  have h : triRadius = fun u => if u < triYs.getD 0 0 ∨ triYs.getD (triYs.length - 1) 0 < u then 0 else
      (fun k : ℕ => (triXs.getD k 0 - triXs.getD (k - 1) 0) / (triYs.getD k 0 - triYs.getD (k - 1) 0))
        (min (max (searchLeft triYs u) 1) (triYs.length - 1))
        * (u - (fun k : ℕ => triYs.getD (k - 1) 0) (min (max (searchLeft triYs u) 1) (triYs.length - 1)))
      + (fun k : ℕ => triXs.getD (k - 1) 0) (min (max (searchLeft triYs u) 1) (triYs.length - 1)) := by
    funext u
    simp only [triRadius, triInverse, interp1d]
    split_ifs <;> rfl
  have hk : Measurable fun u => min (max (searchLeft triYs u) 1) (triYs.length - 1) :=
    ((searchLeft_mono triYs).measurable.max measurable_const).min measurable_const
  rw [h]
  refine Measurable.ite ?_ measurable_const ?_
  · exact measurableSet_Iio.union measurableSet_Ioi
  · have hA : ∀ f : ℕ → ℝ, Measurable fun u => f (min (max (searchLeft triYs u) 1) (triYs.length - 1)) :=
      fun f => measurable_from_top.comp hk
    have h1 := hA fun k => (triXs.getD k 0 - triXs.getD (k - 1) 0) / (triYs.getD k 0 - triYs.getD (k - 1) 0)
    have h2 := hA fun k => triYs.getD (k - 1) 0
    have h3 := hA fun k => triXs.getD (k - 1) 0
    exact (h1.mul (measurable_id.sub h2)).add h3

lemma triInverse_radius {u : ℝ} (h0 : 0 ≤ u) (h1 : u ≤ 1) :
    triInverse u = .ok (triRadius u) ∧ 0 ≤ triRadius u ∧ triRadius u ≤ 1 := by
  obtain ⟨x, hx, h2, h3, _⟩ := C63_inverse u h0 h1
  have : triRadius u = x := by rw [triRadius, hx]; rfl
  rw [this]
  exact ⟨hx, h2, h3⟩

/-- The random numbers of one sample without the choice of the data point. -/
abbrev NoiseTuple (d : ℕ) : Type := (Fin d → ℝ) × (Fin d → ℝ) × (Fin d → ℝ) × (Fin d → ℝ × ℝ × ℝ)

/-- Their law. -/
noncomputable def noiseTupleLaw (d : ℕ) : Measure (NoiseTuple d) :=
  (Measure.pi fun _ => gaussianReal 0 1).prod ((Measure.pi fun _ => Spec.unitLaw).prod ((Measure.pi fun _ => Spec.symLaw).prod
    (Measure.pi fun _ => Spec.symLaw.prod (Spec.symLaw.prod Spec.symLaw))))

instance (d : ℕ) : IsProbabilityMeasure (noiseTupleLaw d) := by unfold noiseTupleLaw; infer_instance

/-- The numbers of a sample without the choice of the data point. -/
def noiseTuple (t : DrawTuple d) : NoiseTuple d := (t.1, t.2.1, t.2.2.1, t.2.2.2.1)

/-- The noise of each kernel as a function of the random numbers. -/
noncomputable def noiseFn (D : Dist) (t : NoiseTuple d) : Fin d → ℝ :=
  match D with
  | .gaussian => t.1
  | .box => if d = 1 then t.2.2.1 else fun i => t.2.1 i ^ (1 / (d : ℝ)) * t.1 i / rad t.1
  | .parabola => fun i => median3 (t.2.2.2 i)
  | .triweight => fun i => triRadius (t.2.1 i) * t.1 i / rad t.1

lemma measurable_rad : Measurable (rad : (Fin d → ℝ) → ℝ) := by
  unfold rad
  fun_prop

lemma measurable_noiseFn (D : Dist) : Measurable (noiseFn D : NoiseTuple d → _) := by
  have hr := measurable_rad (d := d)
  cases D with
  | gaussian => exact measurable_fst
  | box =>
    by_cases h : d = 1
    · have : (noiseFn .box : NoiseTuple d → _) = fun t => t.2.2.1 := by funext t; simp only [noiseFn, if_pos h]
      rw [this]
      fun_prop
    · have : (noiseFn .box : NoiseTuple d → _) = fun t i => t.2.1 i ^ (1 / (d : ℝ)) * t.1 i / rad t.1 := by
        funext t; simp only [noiseFn, if_neg h]
      rw [this]
      refine measurable_pi_lambda _ fun i => Measurable.div (Measurable.mul ?_ ?_) (hr.comp measurable_fst) <;> fun_prop
  | parabola =>
    refine measurable_pi_lambda _ fun i => measurable_median3.comp ?_
    fun_prop
  | triweight =>
    refine measurable_pi_lambda _ fun i => Measurable.div (Measurable.mul (measurable_triRadius.comp ?_) ?_)
      (hr.comp measurable_fst) <;> fun_prop

lemma sample_noiseFn (D : Dist) {r : Draw d} (hu : ∀ i, 0 ≤ r.unif i ∧ r.unif i < 1) (hg : rad r.gauss ≠ 0) :
    D.sample r = .ok (noiseFn D (noiseTuple r.tuple)) := by
  cases D with
  | gaussian => rfl
  | box =>
    simp only [Dist.sample, if_neg hg, noiseFn, noiseTuple, Draw.tuple]
    split_ifs <;> rfl
  | parabola => rfl
  | triweight =>
    simp only [Dist.sample]
    rw [if_neg hg, finSeq_ok.mpr fun i => (triInverse_radius (hu i).1 (hu i).2.le).1]
    rfl

/-- The law of the noise. -/
noncomputable def noiseLaw (D : Dist) (d : ℕ) : Measure (Fin d → ℝ) := (noiseTupleLaw d).map (noiseFn D)

instance (D : Dist) (d : ℕ) : IsProbabilityMeasure (noiseLaw D d) :=
  Measure.isProbabilityMeasure_map (measurable_noiseFn D).aemeasurable

lemma split_law (d : ℕ) : MeasurePreserving (fun t : DrawTuple d => (noiseTuple t, t.2.2.2.2)) (Spec.drawLaw d)
    ((noiseTupleLaw d).prod Spec.unitLaw) := by
  unfold Spec.drawLaw noiseTupleLaw
  set α := Measure.pi fun _ : Fin d => gaussianReal 0 1
  set β := Measure.pi fun _ : Fin d => Spec.unitLaw
  set γ := Measure.pi fun _ : Fin d => Spec.symLaw
  set δ := Measure.pi fun _ : Fin d => Spec.symLaw.prod (Spec.symLaw.prod Spec.symLaw)
  have h1 := (measurePreserving_prodAssoc γ δ Spec.unitLaw).symm
  have h2 := (measurePreserving_prodAssoc β (γ.prod δ) Spec.unitLaw).symm
  have h3 := (measurePreserving_prodAssoc α (β.prod (γ.prod δ)) Spec.unitLaw).symm
  have h4 := (MeasurePreserving.id β).prod h1
  have h5 := (MeasurePreserving.id α).prod (h2.comp h4)
  exact h3.comp h5

/-- Noise and choice are independent. -/
lemma joint_law_all (D : Dist) : MeasurePreserving (fun t : DrawTuple d => (noiseFn D (noiseTuple t), t.2.2.2.2))
    (Spec.drawLaw d) ((noiseLaw D d).prod Spec.unitLaw) := by
  have h : MeasurePreserving (noiseFn D) (noiseTupleLaw d) (noiseLaw D d) := ⟨measurable_noiseFn D, rfl⟩
  exact (h.prod (MeasurePreserving.id Spec.unitLaw)).comp (split_law d)

lemma rad_eq_zero {g : Fin d → ℝ} : rad g = 0 ↔ g = 0 := by
  rw [rad, Real.sqrt_eq_zero (Finset.sum_nonneg fun i _ => sq_nonneg _), Finset.sum_eq_zero_iff_of_nonneg
    fun i _ => sq_nonneg _]
  simp [funext_iff]

lemma ae_rad (hd : 0 < d) : ∀ᵐ g ∂(Measure.pi fun _ : Fin d => gaussianReal 0 1), rad g ≠ 0 := by
  have hn : Nonempty (Fin d) := ⟨⟨0, hd⟩⟩
  have h : ∀ᵐ g : Fin d → ℝ, rad g ≠ 0 := by
    simp only [ne_eq, rad_eq_zero]
    exact Measure.ae_ne volume 0
  rw [gaussian_noise]
  exact (withDensity_absolutelyContinuous volume _).ae_le h

lemma ae_unit : ∀ᵐ u ∂(Measure.pi fun _ : Fin d => Spec.unitLaw), ∀ i, 0 ≤ u i ∧ u i < 1 := by
  rw [ae_all_iff]
  intro i
  have h1 : ∀ᵐ u ∂Spec.unitLaw, 0 ≤ u ∧ u < 1 := ae_restrict_mem measurableSet_Ico
  exact (measurePreserving_eval (fun _ : Fin d => Spec.unitLaw) i).quasiMeasurePreserving.ae h1

/-- With probability one the numbers are such that sampling succeeds. -/
lemma ae_good (hd : 0 < d) : ∀ᵐ t ∂Spec.drawLaw d,
    rad t.1 ≠ 0 ∧ (∀ i, 0 ≤ t.2.1 i ∧ t.2.1 i < 1) ∧ 0 ≤ t.2.2.2.2 ∧ t.2.2.2.2 < 1 := by
  have h1 : ∀ᵐ u ∂Spec.unitLaw, 0 ≤ u ∧ u < 1 := ae_restrict_mem measurableSet_Ico
  have a1 : ∀ᵐ t ∂Spec.drawLaw d, rad t.1 ≠ 0 := Measure.quasiMeasurePreserving_fst.ae (ae_rad hd)
  have q := (Measure.quasiMeasurePreserving_snd (μ := Measure.pi fun _ : Fin d => gaussianReal 0 1)
    (ν := (Measure.pi fun _ : Fin d => Spec.unitLaw).prod ((Measure.pi fun _ : Fin d => Spec.symLaw).prod
      ((Measure.pi fun _ : Fin d => Spec.symLaw.prod (Spec.symLaw.prod Spec.symLaw)).prod Spec.unitLaw))))
  have a2 : ∀ᵐ t ∂Spec.drawLaw d, ∀ i, 0 ≤ t.2.1 i ∧ t.2.1 i < 1 :=
    q.ae (Measure.quasiMeasurePreserving_fst.ae ae_unit)
  have a3 : ∀ᵐ t ∂Spec.drawLaw d, 0 ≤ t.2.2.2.2 ∧ t.2.2.2.2 < 1 :=
    q.ae (Measure.quasiMeasurePreserving_snd.ae (Measure.quasiMeasurePreserving_snd.ae
      (Measure.quasiMeasurePreserving_snd.ae h1)))
  filter_upwards [a1, a2, a3] with t h1 h2 h3
  exact ⟨h1, h2, h3⟩

/-! ### The choice -/

lemma choice_law {n : ℕ} (hn : 0 < n) {w : Option (List ℝ)} (hw : OkW n w) : Spec.unitLaw.map (choiceIndex n w)
    = ∑ j ∈ Finset.range n, ENNReal.ofReal (Spec.weightAt w j / totW n w) • Measure.dirac j := by
  refine Measure.ext_of_singleton fun j => ?_
  rw [choice_prob hn hw, Measure.finsetSum_apply]
  simp only [Measure.smul_apply, Measure.dirac_apply' _ (measurableSet_singleton j), smul_eq_mul, Set.indicator_apply,
    Set.mem_singleton_iff, Pi.one_apply, mul_ite, mul_one, mul_zero, Finset.sum_ite_eq', Finset.mem_range]

lemma weightAt_nonneg {n : ℕ} {w : Option (List ℝ)} (hw : OkW n w) (j : ℕ) : 0 ≤ Spec.weightAt w j / totW n w := by
  cases w with
  | none => simp only [Spec.weightAt, totW]; positivity
  | some l =>
    obtain ⟨_, v2, v3⟩ := hw l rfl
    simp only [Spec.weightAt, totW]
    refine div_nonneg ?_ v3.le
    rw [List.getD_eq_getElem?_getD]
    cases h : l[j]? with
    | none => simp
    | some x => exact v2 x (List.mem_of_getElem? h)

lemma integral_choice {n : ℕ} (hn : 0 < n) {w : Option (List ℝ)} (hw : OkW n w) (h : ℕ → ℝ) :
    Integrable (fun u => h (choiceIndex n w u)) Spec.unitLaw ∧
    ∫ u, h (choiceIndex n w u) ∂Spec.unitLaw = ∑ j ∈ Finset.range n, Spec.weightAt w j / totW n w * h j := by
  have hm : AEStronglyMeasurable h (Spec.unitLaw.map (choiceIndex n w)) := measurable_from_top.aestronglyMeasurable
  have hae := (measurable_choiceIndex n w).aemeasurable (μ := Spec.unitLaw)
  have hi : ∀ j ∈ Finset.range n, Integrable h (ENNReal.ofReal (Spec.weightAt w j / totW n w) • Measure.dirac j) :=
    fun j _ => (integrable_dirac (by simp)).smul_measure (by simp)
  constructor
  · have := (integrable_map_measure hm hae).mp (by
      rw [choice_law hn hw]
      exact integrable_finsetSum_measure.mpr hi)
    exact this
  · rw [← integral_map hae hm, choice_law hn hw, integral_finsetSum_measure hi]
    refine Finset.sum_congr rfl fun j _ => ?_
    rw [integral_smul_measure, integral_dirac, ENNReal.toReal_ofReal (weightAt_nonneg hw j), smul_eq_mul]

end Kalepy
