import Mathlib.MeasureTheory.Integral.Lebesgue.Countable
import Mathlib.MeasureTheory.Function.Floor
import Mathlib.MeasureTheory.Measure.Lebesgue.Basic
import Mathlib.MeasureTheory.Group.Integral
import Verif.Spec.Random
import Verif.Proofs.Integrals
import Verif.Props.ResampleLaw
import Verif.Props.Normal
import Verif.Props.Distribution

/-!
# The law of a mixture: choice of a data point plus coloured noise
-/

namespace Kalepy

open MeasureTheory ProbabilityTheory Matrix

variable {d : ℕ}

/-! ### The choice of the data point -/

lemma measurable_searchRight (a : List ℝ) : Measurable fun u : ℝ => searchRight a u := by
  unfold searchRight
  induction a with
  | nil => simp
  | cons b l ih =>
    have : (fun u : ℝ => List.countP (fun x => decide (x ≤ u)) (b :: l))
        = fun u => List.countP (fun x => decide (x ≤ u)) l + if b ≤ u then 1 else 0 := by
      funext u
      simp [List.countP_cons]
    rw [this]
    exact ih.add (Measurable.ite measurableSet_Ici measurable_const measurable_const)

lemma measurable_choiceIndex (n : ℕ) (w : Option (List ℝ)) : Measurable (choiceIndex n w) := by
  unfold choiceIndex
  cases w with
  | none => exact Nat.measurable_floor.comp (measurable_id.mul_const _)
  | some l => exact measurable_searchRight _

/-- Total weight of `n` data. -/
noncomputable def totW (n : ℕ) : Option (List ℝ) → ℝ
  | none => n
  | some l => l.sum

/-- Valid weights for `n` data. -/
def OkW (n : ℕ) (w : Option (List ℝ)) : Prop := ∀ l, w = some l → l.length = n ∧ (∀ x ∈ l, 0 ≤ x) ∧ 0 < l.sum

lemma choice_cuts {n : ℕ} (hn : 0 < n) {w : Option (List ℝ)} (hw : OkW n w) :
    ∃ c : ℕ → ℝ, (∀ j, j < n → 0 ≤ c j ∧ c (j + 1) ≤ 1 ∧ c (j + 1) - c j = Spec.weightAt w j / totW n w) ∧
      ∀ u, 0 ≤ u → u < 1 → ∀ j, choiceIndex n w u = j ↔ j < n ∧ c j ≤ u ∧ u < c (j + 1) := by
  cases w with
  | none =>
    have hn' : (0 : ℝ) < n := by exact_mod_cast hn
    refine ⟨fun j => j / n, fun j hj => ⟨by positivity, ?_, ?_⟩, fun u h0 h1 j => ?_⟩
    · rw [div_le_one hn']
      exact_mod_cast hj
    · simp only [Spec.weightAt, totW]
      push_cast
      ring
    · simp only [choiceIndex]
      rw [Nat.floor_eq_iff (by positivity), div_le_iff₀ hn', lt_div_iff₀ hn']
      push_cast
      constructor
      · intro h
        refine ⟨?_, h⟩
        have : (j : ℝ) < n := by nlinarith
        exact_mod_cast this
      · exact fun h => h.2
  | some l =>
    obtain ⟨v1, v2, v3⟩ := hw l rfl
    refine ⟨fun j => (l.take j).sum / l.sum, fun j hj => ⟨?_, ?_, ?_⟩, fun u h0 h1 j => ?_⟩
    · exact div_nonneg (List.sum_nonneg fun x hx => v2 x (List.mem_of_mem_take hx)) v3.le
    · rw [div_le_one v3]
      have := List.sum_take_add_sum_drop l (j + 1)
      have h2 : 0 ≤ (l.drop (j + 1)).sum := List.sum_nonneg fun x hx => v2 x (List.mem_of_mem_drop hx)
      linarith
    · simp only [Spec.weightAt, totW]
      rw [List.take_add_one, List.sum_append, List.getElem?_eq_getElem (by omega), List.getD_eq_getElem _ _ (by omega)]
      simp
      ring
    · rw [choiceIndex_iff l v2 v3 h0 h1 n j, v1]

lemma choice_prob {n : ℕ} (hn : 0 < n) {w : Option (List ℝ)} (hw : OkW n w) (j : ℕ) :
    (Spec.unitLaw.map (choiceIndex n w)) {j}
      = if j < n then ENNReal.ofReal (Spec.weightAt w j / totW n w) else 0 := by
  obtain ⟨c, h1, h2⟩ := choice_cuts hn hw
  rw [Measure.map_apply (measurable_choiceIndex n w) (measurableSet_singleton j), Spec.unitLaw,
    Measure.restrict_apply (measurable_choiceIndex n w (measurableSet_singleton j))]
  split_ifs with hj
  · have : choiceIndex n w ⁻¹' {j} ∩ Set.Ico 0 1 = Set.Ico (c j) (c (j + 1)) := by
      ext u
      simp only [Set.mem_inter_iff, Set.mem_preimage, Set.mem_singleton_iff, Set.mem_Ico]
      constructor
      · rintro ⟨h, h0, h1'⟩
        exact ((h2 u h0 h1' j).mp h).2
      · rintro ⟨h3, h4⟩
        have h0 : 0 ≤ u := (h1 j hj).1.trans h3
        have h1' : u < 1 := h4.trans_le (h1 j hj).2.1
        exact ⟨(h2 u h0 h1' j).mpr ⟨hj, h3, h4⟩, h0, h1'⟩
    rw [this, Real.volume_Ico, (h1 j hj).2.2]
  · have : choiceIndex n w ⁻¹' {j} ∩ Set.Ico 0 1 = ∅ := by
      ext u
      simp only [Set.mem_inter_iff, Set.mem_preimage, Set.mem_singleton_iff, Set.mem_Ico, Set.mem_empty_iff_false,
        iff_false]
      rintro ⟨h, h0, h1'⟩
      exact hj ((h2 u h0 h1' j).mp h).1
    rw [this, measure_empty]

lemma lintegral_choice {n : ℕ} (hn : 0 < n) {w : Option (List ℝ)} (hw : OkW n w) (h : ℕ → ENNReal) :
    ∫⁻ u, h (choiceIndex n w u) ∂Spec.unitLaw
      = ∑ j ∈ Finset.range n, ENNReal.ofReal (Spec.weightAt w j / totW n w) * h j := by
  rw [← lintegral_map (f := h) measurable_from_top (measurable_choiceIndex n w), lintegral_countable',
    tsum_eq_sum (s := Finset.range n)]
  · refine Finset.sum_congr rfl fun j hj => ?_
    rw [choice_prob hn hw, if_pos (Finset.mem_range.mp hj), mul_comm]
  · intro j hj
    rw [choice_prob hn hw, if_neg (by simpa using hj), mul_zero]

/-! ### Coloured noise -/

/-- The density of the noise. -/
noncomputable def noiseDensity (D : Dist) (d : ℕ) (u : Fin d → ℝ) : ENNReal := ENNReal.ofReal (Spec.shape D (u ⬝ᵥ u) / D.norm d)

lemma lintegral_comp_mulVec {A : Matrix (Fin d) (Fin d) ℝ} (hA : A.det ≠ 0) (f : (Fin d → ℝ) → ENNReal) :
    ∫⁻ x, f (A *ᵥ x) = ENNReal.ofReal |A.det|⁻¹ * ∫⁻ x, f x := by
  have hm := Real.map_matrix_volume_pi_eq_smul_volume_pi hA
  have hemb : MeasurableEmbedding (toLin' A) := by
    have hinj : Function.Injective (toLin' A) := by
      have := Matrix.mulVec_injective_iff_isUnit.mpr ((Matrix.isUnit_iff_isUnit_det A).mpr (isUnit_iff_ne_zero.mpr hA))
      intro x y h
      exact this (by simpa using h)
    exact (LinearMap.continuous_of_finiteDimensional (toLin' A)).measurableEmbedding hinj
  have : ∫⁻ x, f (toLin' A x) = ∫⁻ y, f y ∂(Measure.map (toLin' A) volume) := (hemb.lintegral_map f).symm
  simp only [toLin'_apply] at this
  rw [this, hm, lintegral_smul_measure, abs_inv]
  rfl

lemma measurable_shape (D : Dist) : Measurable (Spec.shape D) := by
  cases D
  · exact Real.measurable_exp.comp (measurable_id.neg.div_const 2)
  · exact Measurable.ite measurableSet_Iic measurable_const measurable_const
  · exact Measurable.ite measurableSet_Iic (measurable_const.sub measurable_id) measurable_const
  · exact Measurable.ite measurableSet_Iic ((measurable_const.sub measurable_id).pow_const 3) measurable_const

lemma measurable_noiseDensity (D : Dist) : Measurable (noiseDensity D d) := by
  unfold noiseDensity
  refine ENNReal.measurable_ofReal.comp (((measurable_shape D).comp ?_).div_const _)
  unfold dotProduct
  fun_prop

/-- A data point plus coloured noise has the kernel's density around the data point. -/
lemma noise_coloured (D : Dist) {M L : Matrix (Fin d) (Fin d) ℝ} (hM : M.PosDef) (hL : L * Lᵀ = M) (c : Fin d → ℝ)
    {s : Set (Fin d → ℝ)} (hs : MeasurableSet s) :
    (volume.withDensity (noiseDensity D d)) {u | c + L *ᵥ u ∈ s}
      = ∫⁻ x in s, ENNReal.ofReal (Spec.shape D (Spec.dist2 M (x - c)) / (Real.sqrt M.det * D.norm d)) := by
  have hdet : L.det ^ 2 = M.det := by rw [← hL, Matrix.det_mul, Matrix.det_transpose]; ring
  have hL0 : L.det ≠ 0 := by
    intro h0
    rw [h0] at hdet
    have := hM.det_pos
    norm_num at hdet
    linarith
  have habs : |L.det| = Real.sqrt M.det := by rw [← hdet, Real.sqrt_sq_eq_abs]
  have hmeas : Measurable fun u : Fin d → ℝ => c + L *ᵥ u := by
    refine measurable_const.add ?_
    exact (LinearMap.continuous_of_finiteDimensional (toLin' L)).measurable
  have hs' : MeasurableSet {u : Fin d → ℝ | c + L *ᵥ u ∈ s} := hmeas hs
  rw [withDensity_apply _ hs', ← lintegral_indicator hs', ← lintegral_indicator hs]
  conv_rhs => rw [← lintegral_add_left_eq_self _ c]
  set g : (Fin d → ℝ) → ENNReal := fun y => s.indicator (fun x => ENNReal.ofReal (Spec.shape D (Spec.dist2 M (x - c))
    / (Real.sqrt M.det * D.norm d))) (c + y) with hg
  have hcv := lintegral_comp_mulVec hL0 g
  have hpos : 0 < Real.sqrt M.det := Real.sqrt_pos.mpr hM.det_pos
  have hmul : ∫⁻ y, g y = ENNReal.ofReal |L.det| * ∫⁻ u, g (L *ᵥ u) := by
    rw [hcv, ← mul_assoc, ← ENNReal.ofReal_mul (abs_nonneg _), mul_inv_cancel₀ (abs_ne_zero.mpr hL0),
      ENNReal.ofReal_one, one_mul]
  refine Eq.trans ?_ hmul.symm
  rw [← lintegral_const_mul' _ _ ENNReal.ofReal_ne_top]
  refine lintegral_congr fun u => ?_
  simp only [hg]
  by_cases hu : c + L *ᵥ u ∈ s
  · rw [Set.indicator_of_mem (show u ∈ {u | c + L *ᵥ u ∈ s} from hu), Set.indicator_of_mem hu, add_sub_cancel_left,
      dist2_coloured hM.det_pos.ne'.isUnit hL, ← ENNReal.ofReal_mul (abs_nonneg _), habs, noiseDensity]
    congr 1
    have : u ⬝ᵥ u = ∑ i, u i ^ 2 := by simp [dotProduct, sq]
    rw [this]
    field_simp
  · rw [Set.indicator_of_notMem (show u ∉ {u | c + L *ᵥ u ∈ s} from hu), Set.indicator_of_notMem hu, mul_zero]

/-! ### The laws of the noise -/

lemma lintegral_fin_prod : ∀ (n : ℕ) (f : Fin n → ℝ → ENNReal), (∀ i, Measurable (f i)) →
    ∫⁻ x : Fin n → ℝ, ∏ i, f i (x i) = ∏ i, ∫⁻ t, f i t := by
  intro n
  induction n with
  | zero => intro f _; simp [volume_pi]
  | succ n ih =>
    intro f hf
    have hp := volume_preserving_piFinSuccAbove (fun _ : Fin (n + 1) => ℝ) 0
    have : ∫⁻ x : Fin (n + 1) → ℝ, ∏ i, f i (x i)
        = ∫⁻ z : ℝ × (Fin n → ℝ), f 0 z.1 * ∏ i, f (Fin.succ i) (z.2 i) := by
      rw [← hp.lintegral_comp_emb (MeasurableEquiv.measurableEmbedding _)]
      refine lintegral_congr fun x => ?_
      rw [Fin.prod_univ_succ]
      rfl
    rw [this, Measure.volume_eq_prod, lintegral_prod_mul (g := fun y : Fin n → ℝ => ∏ i, f (Fin.succ i) (y i)) (hf 0).aemeasurable, ih _ fun i => hf _, Fin.prod_univ_succ]
    exact (Finset.measurable_prod _ fun i _ => (hf _).comp (measurable_pi_apply i)).aemeasurable

lemma pi_withDensity {f : ℝ → ENNReal} (hf : Measurable f) [SigmaFinite (volume.withDensity f)] :
    Measure.pi (fun _ : Fin d => volume.withDensity f) = volume.withDensity fun x => ∏ i, f (x i) := by
  refine Measure.pi_eq fun s hs => ?_
  rw [withDensity_apply _ (MeasurableSet.univ_pi hs), ← lintegral_indicator (MeasurableSet.univ_pi hs)]
  have : ∀ x : Fin d → ℝ, (Set.univ.pi s).indicator (fun x => ∏ i, f (x i)) x = ∏ i, (s i).indicator f (x i) := by
    intro x
    by_cases hx : x ∈ Set.univ.pi s
    · rw [Set.indicator_of_mem hx]
      exact Finset.prod_congr rfl fun i _ => (Set.indicator_of_mem (hx i trivial) f).symm
    · rw [Set.indicator_of_notMem hx]
      simp only [Set.mem_univ_pi, not_forall] at hx
      obtain ⟨i, hi⟩ := hx
      exact (Finset.prod_eq_zero (Finset.mem_univ i) (Set.indicator_of_notMem hi f)).symm
  simp only [this]
  rw [lintegral_fin_prod _ _ fun i => hf.indicator (hs i)]
  exact Finset.prod_congr rfl fun i _ => by rw [lintegral_indicator (hs i), withDensity_apply _ (hs i)]

lemma gaussian_noise : Measure.pi (fun _ : Fin d => gaussianReal 0 1) = volume.withDensity (noiseDensity .gaussian d) := by
  have h1 : gaussianReal 0 1 = volume.withDensity (gaussianPDF 0 1) := gaussianReal_of_var_ne_zero 0 one_ne_zero
  have : SigmaFinite (volume.withDensity (gaussianPDF 0 1)) := by rw [← h1]; infer_instance
  simp only [h1]
  rw [pi_withDensity (measurable_gaussianPDF 0 1)]
  congr 1
  funext x
  simp only [gaussianPDF, gaussianPDFReal, noiseDensity, Spec.shape, Dist.norm]
  rw [← ENNReal.ofReal_prod_of_nonneg fun i _ => by positivity, Finset.prod_mul_distrib, ← Real.exp_sum]
  congr 1
  have hpow : (2 * Real.pi) ^ ((d : ℝ) / 2) = Real.sqrt (2 * Real.pi) ^ d := by
    rw [Real.sqrt_eq_rpow, ← Real.rpow_natCast, ← Real.rpow_mul (by positivity)]
    congr 1
    ring
  have hsum : ∑ i, -(x i - 0) ^ 2 / (2 * ((1 : NNReal) : ℝ)) = -(x ⬝ᵥ x) / 2 := by
    simp only [dotProduct, NNReal.coe_one, mul_one, sub_zero, ← Finset.sum_div, Finset.sum_neg_distrib, sq]
  rw [hsum, hpow, Finset.prod_const, Finset.card_univ, Fintype.card_fin, NNReal.coe_one, mul_one, inv_pow]
  ring

/-- The density of the noise in one dimension, as a function of a number. -/
noncomputable def noiseDensity1 (D : Dist) (t : ℝ) : ENNReal := ENNReal.ofReal (Spec.shape D (t * t) / D.norm 1)

lemma measurable_noiseDensity1 (D : Dist) : Measurable (noiseDensity1 D) :=
  ENNReal.measurable_ofReal.comp (((measurable_shape D).comp (measurable_id.mul measurable_id)).div_const _)

lemma pi_noise1 (D : Dist) [SigmaFinite (volume.withDensity (noiseDensity1 D))] :
    Measure.pi (fun _ : Fin 1 => volume.withDensity (noiseDensity1 D)) = volume.withDensity (noiseDensity D 1) := by
  rw [pi_withDensity (measurable_noiseDensity1 D)]
  congr 1
  funext x
  simp [noiseDensity1, noiseDensity, dotProduct]

lemma box_noise1 : Spec.symLaw = volume.withDensity (noiseDensity1 .box) := by
  have : noiseDensity1 .box = (Set.Icc (-1) 1).indicator fun _ => (2 : ENNReal)⁻¹ := by
    funext t
    simp only [noiseDensity1, Spec.shape, Dist.norm, nballVol_one]
    have hiff : t * t ≤ 1 ↔ t ∈ Set.Icc (-1 : ℝ) 1 := by
      rw [Set.mem_Icc, ← abs_le, ← abs_le_one_iff_mul_self_le_one]
    by_cases h : t ∈ Set.Icc (-1 : ℝ) 1
    · rw [if_pos (hiff.mpr h), Set.indicator_of_mem h, one_div, ENNReal.ofReal_inv_of_pos two_pos, ENNReal.ofReal_ofNat]
    · rw [if_neg (fun h' => h (hiff.mp h')), Set.indicator_of_notMem h]
      simp
  rw [this, withDensity_indicator measurableSet_Icc, withDensity_const, Spec.symLaw, Measure.restrict_congr_set Ico_ae_eq_Icc]

lemma symLaw_Iic (x : ℝ) : Spec.symLaw (Set.Iic x) = ENNReal.ofReal ((max (-1) (min x 1) + 1) / 2) := by
  have hset : Set.Iic x ∩ Set.Icc (-1) 1 = Set.Icc (-1) (min x 1) := by
    ext t
    simp only [Set.mem_inter_iff, Set.mem_Iic, Set.mem_Icc, le_min_iff]
    tauto
  rw [Spec.symLaw, Measure.restrict_congr_set Ico_ae_eq_Icc, Measure.smul_apply, Measure.restrict_apply measurableSet_Iic, hset,
    Real.volume_Icc, smul_eq_mul]
  rw [show (2 : ENNReal)⁻¹ = ENNReal.ofReal 2⁻¹ by rw [ENNReal.ofReal_inv_of_pos two_pos, ENNReal.ofReal_ofNat],
    ← ENNReal.ofReal_mul (by norm_num)]
  rcases le_total (-1) (min x 1) with h | h
  · rw [max_eq_right h]
    congr 1
    ring
  · rw [max_eq_left h, ENNReal.ofReal_of_nonpos (by linarith)]
    norm_num

lemma measurable_median3 : Measurable median3 := by
  unfold median3
  fun_prop

lemma median3_le (t : ℝ × ℝ × ℝ) (x : ℝ) :
    median3 t ≤ x ↔ (t.1 ≤ x ∧ t.2.1 ≤ x) ∨ (t.1 ≤ x ∧ ¬ t.2.1 ≤ x ∧ t.2.2 ≤ x) ∨ (¬ t.1 ≤ x ∧ t.2.1 ≤ x ∧ t.2.2 ≤ x) := by
  simp only [median3, max_le_iff, min_le_iff]
  tauto

lemma median3_Iic (ν : Measure ℝ) [IsProbabilityMeasure ν] (x F : ℝ) (h0 : 0 ≤ F) (h1 : F ≤ 1)
    (hF : ν (Set.Iic x) = ENNReal.ofReal F) :
    ((ν.prod (ν.prod ν)).map median3) (Set.Iic x) = ENNReal.ofReal (3 * F ^ 2 - 2 * F ^ 3) := by
  rw [Measure.map_apply measurable_median3 measurableSet_Iic]
  have hset : median3 ⁻¹' Set.Iic x = (Set.Iic x ×ˢ (Set.Iic x ×ˢ Set.univ)) ∪ ((Set.Iic x ×ˢ ((Set.Iic x)ᶜ ×ˢ Set.Iic x))
      ∪ ((Set.Iic x)ᶜ ×ˢ (Set.Iic x ×ˢ Set.Iic x))) := by
    ext t
    simp only [Set.mem_preimage, Set.mem_Iic, median3_le, Set.mem_union, Set.mem_prod, Set.mem_univ, and_true,
      Set.mem_compl_iff]
  have hc : ν (Set.Iic x)ᶜ = ENNReal.ofReal (1 - F) := by
    rw [prob_compl_eq_one_sub measurableSet_Iic, hF, ENNReal.ofReal_sub _ h0, ENNReal.ofReal_one]
  have m := measurableSet_Iic (a := x)
  rw [hset, measure_union _ ((m.prod (m.compl.prod m)).union (m.compl.prod (m.prod m))),
    measure_union _ (m.compl.prod (m.prod m))]
  · simp only [Measure.prod_prod, hF, hc, measure_univ, mul_one]
    have h1' : 0 ≤ 1 - F := by linarith
    rw [← ENNReal.ofReal_mul h0, ← ENNReal.ofReal_mul h1', ← ENNReal.ofReal_mul h0, ← ENNReal.ofReal_mul h1',
      ← ENNReal.ofReal_add (by positivity) (by positivity), ← ENNReal.ofReal_add (by positivity) (by positivity)]
    congr 1
    ring
  · rw [Set.disjoint_left]
    rintro t ⟨h1, _⟩ ⟨h2, _⟩
    exact h2 h1
  · rw [Set.disjoint_left]
    rintro t ⟨h1, h2, _⟩ (⟨_, h3, _⟩ | ⟨h3, _⟩)
    · exact h3 h2
    · exact h3 h1

lemma parabola_Iic (x : ℝ) : (volume.withDensity (noiseDensity1 .parabola)) (Set.Iic x)
    = ENNReal.ofReal (3 * ((max (-1) (min x 1) + 1) / 2) ^ 2 - 2 * ((max (-1) (min x 1) + 1) / 2) ^ 3) := by
  set y := max (-1) (min x 1) with hy
  have hy1 : -1 ≤ y := le_max_left _ _
  have hy2 : y ≤ 1 := max_le (by norm_num) (min_le_right _ _)
  have hden : noiseDensity1 .parabola = (Set.Icc (-1) 1).indicator fun t => ENNReal.ofReal (3 / 4 * (1 - t ^ 2)) := by
    funext t
    simp only [noiseDensity1, Spec.shape, Dist.norm, nballVol_one]
    have hiff : t * t ≤ 1 ↔ t ∈ Set.Icc (-1 : ℝ) 1 := by
      rw [Set.mem_Icc, ← abs_le, ← abs_le_one_iff_mul_self_le_one]
    by_cases h : t ∈ Set.Icc (-1 : ℝ) 1
    · rw [if_pos (hiff.mpr h), Set.indicator_of_mem h]
      congr 1
      push_cast
      ring
    · rw [if_neg (fun h' => h (hiff.mp h')), Set.indicator_of_notMem h]
      simp
  rw [withDensity_apply _ measurableSet_Iic, hden, setLIntegral_indicator measurableSet_Icc]
  have hset : (Set.Icc (-1) 1 ∩ Set.Iic x : Set ℝ) =ᵐ[volume] Set.Ioc (-1) y := by
    have : (Set.Icc (-1) 1 ∩ Set.Iic x : Set ℝ) = Set.Icc (-1) (min x 1) := by
      ext t
      simp only [Set.mem_inter_iff, Set.mem_Iic, Set.mem_Icc, le_min_iff]
      tauto
    rw [this]
    refine Ioc_ae_eq_Icc.symm.trans ?_
    rcases le_total (-1) (min x 1) with h | h
    · rw [hy, max_eq_right h]; exact Filter.EventuallyEq.rfl
    · rw [hy, max_eq_left h, Set.Ioc_eq_empty (not_lt.mpr h), Set.Ioc_self]; exact Filter.EventuallyEq.rfl
  rw [setLIntegral_congr hset]
  have hcont : Continuous fun t : ℝ => 3 / 4 * (1 - t ^ 2) := by fun_prop
  rw [← ofReal_integral_eq_lintegral_ofReal]
  · rw [← intervalIntegral.integral_of_le hy1]
    congr 1
    have hd : ∀ t ∈ Set.uIcc (-1) y, HasDerivAt (fun t : ℝ => 3 / 4 * (t - t ^ 3 / 3)) (3 / 4 * (1 - t ^ 2)) t := by
      intro t _
      have := (((hasDerivAt_id t).sub ((hasDerivAt_pow 3 t).div_const 3)).const_mul (3 / 4 : ℝ))
      refine this.congr_deriv ?_
      norm_num
    rw [intervalIntegral.integral_eq_sub_of_hasDerivAt hd (hcont.intervalIntegrable _ _)]
    ring
  · exact (hcont.intervalIntegrable (-1) y).1
  · refine (ae_restrict_iff' measurableSet_Ioc).mpr (ae_of_all _ fun t ht => ?_)
    have h1 := ht.1
    have h2 := ht.2.trans hy2
    simp only [Pi.zero_apply]
    nlinarith

lemma parabola_noise1 : (Spec.symLaw.prod (Spec.symLaw.prod Spec.symLaw)).map median3
    = volume.withDensity (noiseDensity1 .parabola) := by
  have : IsProbabilityMeasure ((Spec.symLaw.prod (Spec.symLaw.prod Spec.symLaw)).map median3) :=
    Measure.isProbabilityMeasure_map measurable_median3.aemeasurable
  refine Measure.ext_of_Iic _ _ fun x => ?_
  have hy1 : -1 ≤ max (-1) (min x 1) := le_max_left _ _
  have hy2 : max (-1) (min x 1) ≤ 1 := max_le (by norm_num) (min_le_right _ _)
  rw [median3_Iic _ _ _ (by linarith) (by linarith) (symLaw_Iic x), parabola_Iic]

/-! ### Noise and choice together -/

/-- The kernels whose samples have exactly the kernel's density. -/
def Spec.ExactSampler (D : Dist) (d : ℕ) : Prop := D = .gaussian ∨ d = 1 ∧ (D = .box ∨ D = .parabola)

/-- The noise computed from the random numbers. -/
noncomputable def noiseOf (D : Dist) (t : DrawTuple d) : Fin d → ℝ :=
  match D with
  | .gaussian => t.1
  | .box => t.2.2.1
  | .parabola => fun i => median3 (t.2.2.2.1 i)
  | .triweight => 0

lemma sample_noiseOf {D : Dist} (hD : Spec.ExactSampler D d) (r : Draw d) : D.sample r = .ok (noiseOf D r.tuple) := by
  rcases hD with rfl | ⟨h1, rfl | rfl⟩
  · rfl
  · simp [Dist.sample, h1, noiseOf, Draw.tuple]
  · rfl

lemma joint_law {D : Dist} (hD : Spec.ExactSampler D d) :
    MeasurePreserving (fun t : DrawTuple d => (noiseOf D t, t.2.2.2.2)) (Spec.drawLaw d)
      ((volume.withDensity (noiseDensity D d)).prod Spec.unitLaw) := by
  unfold Spec.drawLaw
  rcases hD with rfl | ⟨rfl, rfl | rfl⟩
  · rw [← gaussian_noise]
    have h := (measurePreserving_snd (μ := Measure.pi fun _ : Fin d => Spec.symLaw.prod (Spec.symLaw.prod Spec.symLaw))
      (ν := Spec.unitLaw)).comp (measurePreserving_snd (μ := Measure.pi fun _ : Fin d => Spec.symLaw))
    have h := h.comp (measurePreserving_snd (μ := Measure.pi fun _ : Fin d => Spec.unitLaw))
    exact (MeasurePreserving.id (Measure.pi fun _ : Fin d => gaussianReal 0 1)).prod h
  · have : SigmaFinite (volume.withDensity (noiseDensity1 .box)) := by rw [← box_noise1]; infer_instance
    rw [← pi_noise1, ← box_noise1]
    have h := (MeasurePreserving.id (Measure.pi fun _ : Fin 1 => Spec.symLaw)).prod
      (measurePreserving_snd (μ := Measure.pi fun _ : Fin 1 => Spec.symLaw.prod (Spec.symLaw.prod Spec.symLaw))
        (ν := Spec.unitLaw))
    have h := h.comp (measurePreserving_snd (μ := Measure.pi fun _ : Fin 1 => Spec.unitLaw))
    exact h.comp (measurePreserving_snd (μ := Measure.pi fun _ : Fin 1 => gaussianReal 0 1))
  · have hp : IsProbabilityMeasure ((Spec.symLaw.prod (Spec.symLaw.prod Spec.symLaw)).map median3) :=
      Measure.isProbabilityMeasure_map measurable_median3.aemeasurable
    have : SigmaFinite (volume.withDensity (noiseDensity1 .parabola)) := by rw [← parabola_noise1]; infer_instance
    rw [← pi_noise1, ← parabola_noise1]
    have hm : MeasurePreserving (fun (t : Fin 1 → ℝ × ℝ × ℝ) i => median3 (t i))
        (Measure.pi fun _ : Fin 1 => Spec.symLaw.prod (Spec.symLaw.prod Spec.symLaw))
        (Measure.pi fun _ : Fin 1 => (Spec.symLaw.prod (Spec.symLaw.prod Spec.symLaw)).map median3) :=
      measurePreserving_pi _ _ fun _ => ⟨measurable_median3, rfl⟩
    have h := hm.prod (MeasurePreserving.id Spec.unitLaw)
    have h := h.comp (measurePreserving_snd (μ := Measure.pi fun _ : Fin 1 => Spec.symLaw))
    have h := h.comp (measurePreserving_snd (μ := Measure.pi fun _ : Fin 1 => Spec.unitLaw))
    exact h.comp (measurePreserving_snd (μ := Measure.pi fun _ : Fin 1 => gaussianReal 0 1))

lemma weighted_range (data : List (Fin d → ℝ)) {w : Option (List ℝ)} (hw : OkW data.length w) :
    Spec.weighted data w = (List.range data.length).map fun j => (data.getD j 0, Spec.weightAt w j) := by
  cases w with
  | none =>
    refine List.ext_getElem (by simp [Spec.weighted]) fun i h1 h2 => ?_
    simp only [List.length_map, List.length_range] at h2
    simp [Spec.weighted, Spec.weightAt, h2]
  | some l =>
    have hl := (hw l rfl).1
    refine List.ext_getElem (by simp [Spec.weighted, hl]) fun i h1 h2 => ?_
    simp only [List.length_map, List.length_range] at h2
    simp [Spec.weighted, Spec.weightAt, h2, hl]

lemma totW_eq (data : List (Fin d → ℝ)) {w : Option (List ℝ)} (hw : OkW data.length w) :
    totW data.length w = ((Spec.weighted data w).map Prod.snd).sum := by
  cases w with
  | none => simp [Spec.weighted, totW, Function.comp_def]
  | some l =>
    have hl := (hw l rfl).1
    simp only [totW, Spec.weighted]
    rw [List.map_snd_zip (by omega)]

/-- The sample computed from the random numbers. -/
noncomputable def sampleOf (D : Dist) (data : List (Fin d → ℝ)) (w : Option (List ℝ)) (L : Matrix (Fin d) (Fin d) ℝ)
    (p : (Fin d → ℝ) × ℝ) : Fin d → ℝ := data.getD (choiceIndex data.length w p.2) 0 + L *ᵥ p.1

lemma measurable_sampleOf (D : Dist) (data : List (Fin d → ℝ)) (w : Option (List ℝ)) (L : Matrix (Fin d) (Fin d) ℝ) :
    Measurable (sampleOf D data w L) := by
  refine Measurable.add ?_ ?_
  · exact (measurable_from_top (f := fun j : ℕ => data.getD j 0)).comp ((measurable_choiceIndex _ _).comp measurable_snd)
  · exact (LinearMap.continuous_of_finiteDimensional (toLin' L)).measurable.comp measurable_fst

lemma sum_map_range (f : ℕ → ℝ) (n : ℕ) : ((List.range n).map f).sum = ∑ j ∈ Finset.range n, f j := rfl

lemma measurable_kernelTerm (D : Dist) (M : Matrix (Fin d) (Fin d) ℝ) (c : Fin d → ℝ) :
    Measurable fun x : Fin d → ℝ =>
      ENNReal.ofReal (Spec.shape D (Spec.dist2 M (x - c)) / (Real.sqrt M.det * D.norm d)) := by
  refine ENNReal.measurable_ofReal.comp (((measurable_shape D).comp ?_).div_const _)
  unfold Spec.dist2 dotProduct mulVec dotProduct
  fun_prop

lemma sample_law (D : Dist) (hd : 0 < d) {data : List (Fin d → ℝ)} (hne : data ≠ []) {w : Option (List ℝ)}
    (hw : OkW data.length w) {M L : Matrix (Fin d) (Fin d) ℝ} (hM : M.PosDef) (hL : L * Lᵀ = M)
    [SFinite (volume.withDensity (noiseDensity D d))] :
    MeasurePreserving (sampleOf D data w L) ((volume.withDensity (noiseDensity D d)).prod Spec.unitLaw)
      (volume.withDensity fun x => ENNReal.ofReal (Spec.kernelSum D M (Spec.weighted data w) x
        / (Real.sqrt M.det * D.norm d) / ((Spec.weighted data w).map Prod.snd).sum)) := by
  have hn : 0 < data.length := List.length_pos_iff.mpr hne
  have hnorm := mul_pos (Real.sqrt_pos.mpr hM.det_pos) (D.norm_pos d hd)
  have hW : 0 < totW data.length w := by
    cases w with
    | none => simpa [totW] using hn
    | some l => exact (hw l rfl).2.2
  have hw0 : ∀ j, 0 ≤ Spec.weightAt w j := by
    intro j
    cases w with
    | none => simp [Spec.weightAt]
    | some l =>
      simp only [Spec.weightAt]
      by_cases hj : j < l.length
      · rw [List.getD_eq_getElem _ _ hj]; exact (hw l rfl).2.1 _ (List.getElem_mem hj)
      · rw [List.getD_eq_default _ _ (by omega)]
  refine ⟨measurable_sampleOf D data w L, Measure.ext fun s hs => ?_⟩
  rw [Measure.map_apply (measurable_sampleOf D data w L) hs,
    Measure.prod_apply_symm (measurable_sampleOf D data w L hs), withDensity_apply _ hs]
  have hset : ∀ u : ℝ, (fun x => (x, u)) ⁻¹' (sampleOf D data w L ⁻¹' s)
      = {z : Fin d → ℝ | data.getD (choiceIndex data.length w u) 0 + L *ᵥ z ∈ s} := fun u => rfl
  simp only [hset, noise_coloured D hM hL _ hs]
  rw [lintegral_choice hn hw fun j => ∫⁻ x in s, ENNReal.ofReal (Spec.shape D (Spec.dist2 M (x - data.getD j 0))
    / (Real.sqrt M.det * D.norm d))]
  have hmeas := fun c => measurable_kernelTerm D M c
  simp only [← lintegral_const_mul _ (hmeas _)]
  rw [← lintegral_finset_sum _ fun j _ => (hmeas _).const_mul _]
  refine lintegral_congr fun x => ?_
  simp only [← ENNReal.ofReal_mul (div_nonneg (hw0 _) hW.le)]
  rw [← ENNReal.ofReal_sum_of_nonneg fun j _ =>
    mul_nonneg (div_nonneg (hw0 _) hW.le) (div_nonneg (shape_nonneg' D _) hnorm.le), ← totW_eq data hw]
  congr 1
  rw [Spec.kernelSum, weighted_range data hw, List.map_map]
  rw [sum_map_range, Finset.sum_div, Finset.sum_div]
  refine Finset.sum_congr rfl fun j _ => ?_
  simp only [Function.comp_apply]
  ring

end Kalepy
