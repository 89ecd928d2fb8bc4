import Mathlib.MeasureTheory.Integral.Pi
import Mathlib.Analysis.SpecialFunctions.Integrals.Basic
import Verif.Spec.Grid
import Verif.Proofs.Grid

/-!
# C41: centroids
-/

namespace Kalepy

open MeasureTheory

variable {d : ℕ}

section algebra
variable {K : Type*} [Field K] [LinearOrder K] [IsStrictOrderedRing K]

lemma trapezoidCom_eq (x0 x1 y1 y2 : K) (hx : x0 ≠ x1) (hy : y1 + y2 ≠ 0) :
    trapezoidCom x0 x1 y1 y2 = x0 + (x1 - x0) * ((y1 + 2 * y2) / (3 * (y1 + y2))) := by
  have hdx : x1 - x0 ≠ 0 := sub_ne_zero.mpr hx.symm
  unfold trapezoidCom
  by_cases h : y1 ≤ y2
  · simp only [h, if_true, min_eq_left, max_eq_right]
    have e : (x1 - x0) * y1 + 1 / 2 * (x1 - x0) * (y2 - y1) = (x1 - x0) * (y1 + y2) / 2 := by ring
    rw [e, if_neg (by simp [hdx, hy])]
    field_simp
    push_cast
    ring
  · simp only [h, if_false, min_eq_right (not_le.mp h).le, max_eq_left (not_le.mp h).le]
    have e : (x1 - x0) * y2 + 1 / 2 * (x1 - x0) * (y1 - y2) = (x1 - x0) * (y1 + y2) / 2 := by ring
    rw [e, if_neg (by simp [hdx, hy])]
    simp only [one_ne_zero, if_false, Nat.cast_one]
    field_simp
    ring

lemma trapezoidCom_zero (x0 x1 : K) : trapezoidCom x0 x1 0 0 = x0 + (x1 - x0) * (7 / 12) := by
  unfold trapezoidCom
  simp
  ring

lemma trapezoidCom_mem (x0 x1 y1 y2 : K) (hx : x0 < x1) (h1 : 0 ≤ y1) (h2 : 0 ≤ y2) :
    x0 < trapezoidCom x0 x1 y1 y2 ∧ trapezoidCom x0 x1 y1 y2 < x1 := by
  have hdx : 0 < x1 - x0 := sub_pos.mpr hx
  by_cases hy : y1 + y2 = 0
  · obtain rfl : y1 = 0 := by linarith
    obtain rfl : y2 = 0 := by linarith
    rw [trapezoidCom_zero]
    constructor <;> nlinarith
  · have hpos : 0 < y1 + y2 := lt_of_le_of_ne (by linarith) (Ne.symm hy)
    rw [trapezoidCom_eq _ _ _ _ hx.ne hy]
    have ht0 : 0 < (y1 + 2 * y2) / (3 * (y1 + y2)) := by
      apply div_pos <;> linarith
    have ht1 : (y1 + 2 * y2) / (3 * (y1 + y2)) < 1 := by
      rw [div_lt_one (by linarith)]; linarith
    constructor <;> nlinarith

end algebra

/-- **C41.** For nonnegative densities and increasing edges the centroid of every cell is (strictly)
inside the cell, in every coordinate. -/
theorem C41_centroid_inside {K : Type*} [Field K] [LinearOrder K] [IsStrictOrderedRing K]
    (edges : List (List K)) (a : NDArr d K) (idx : Fin d → ℕ)
    (hidx : ∀ i, idx i + 1 < a.shape i)
    (ha : ∀ j, ValidIdx a.shape j → 0 ≤ a.get j) (i : Fin d)
    (he : edgeAt edges i (idx i) < edgeAt edges i (idx i + 1)) :
    edgeAt edges i (idx i) < centroid edges a idx i ∧
      centroid edges a idx i < edgeAt edges i (idx i + 1) := by
  have hs : ∀ s, 0 ≤ cornerSum a i idx s := fun s =>
    Finset.sum_nonneg fun c hc => ha _ fun j => by
      rw [Finset.mem_filter, mem_validIdx] at hc
      have h1 : c j < 2 := hc.1 j
      have := hidx j; omega
  exact trapezoidCom_mem _ _ _ _ he (hs 0) (hs 1)

/-! ### integrals of the multilinear interpolant -/

lemma integral_unitCell_prod (f : Fin d → ℝ → ℝ) :
    ∫ t in Spec.unitCell d, ∏ i, f i (t i) = ∏ i, ∫ x in Set.Icc (0:ℝ) 1, f i x := by
  rw [Spec.unitCell, volume_pi, Measure.restrict_pi_pi]
  exact integral_fintype_prod_eq_prod f

lemma integral_lin (s : Fin 2) : ∫ x in Set.Icc (0:ℝ) 1, (if s = 1 then x else 1 - x) = 1 / 2 := by
  rw [integral_Icc_eq_integral_Ioc, ← intervalIntegral.integral_of_le zero_le_one]
  fin_cases s
  · simp only [Fin.zero_eta, Fin.isValue, zero_ne_one, if_false]
    rw [intervalIntegral.integral_sub (by simp) (by simp)]
    simp; norm_num
  · simp

lemma integral_xlin (s : Fin 2) : ∫ x in Set.Icc (0:ℝ) 1, x * (if s = 1 then x else 1 - x)
    = if s = 1 then 1 / 3 else 1 / 6 := by
  rw [integral_Icc_eq_integral_Ioc, ← intervalIntegral.integral_of_le zero_le_one]
  fin_cases s
  · simp only [Fin.zero_eta, Fin.isValue, zero_ne_one, if_false]
    have : ∀ x : ℝ, x * (1 - x) = x - x ^ 2 := fun x => by ring
    simp only [this]
    rw [intervalIntegral.integral_sub (by simp) (by simp)]
    simp; norm_num
  · simp only [Fin.mk_one, if_true]
    have : ∀ x : ℝ, x * x = x ^ 2 := fun x => by ring
    simp only [this]
    simp; norm_num

lemma unitCell_isCompact : IsCompact (Spec.unitCell d) := isCompact_univ_pi fun _ => isCompact_Icc

lemma integrable_unitCell {f : (Fin d → ℝ) → ℝ} (hf : Continuous f) :
    Integrable f (volume.restrict (Spec.unitCell d)) :=
  hf.continuousOn.integrableOn_compact unitCell_isCompact

lemma continuous_cornerTerm (c : Fin d → Fin 2) :
    Continuous fun t : Fin d → ℝ => ∏ j, if c j = 1 then t j else 1 - t j := by
  refine continuous_finsetProd _ fun j _ => ?_
  split_ifs <;> fun_prop

lemma integral_multilinear (a : NDArr d ℝ) (idx : Fin d → ℕ) :
    ∫ t in Spec.unitCell d, Spec.multilinear a idx t
      = (∑ c : Fin d → Fin 2, a.get fun j => idx j + c j) * (1 / 2) ^ d := by
  unfold Spec.multilinear
  rw [integral_finsetSum, Finset.sum_mul]
  swap
  · exact fun c _ => integrable_unitCell (continuous_const.mul (continuous_cornerTerm c))
  refine Finset.sum_congr rfl fun c _ => ?_
  rw [integral_const_mul, integral_unitCell_prod fun j x => if c j = 1 then x else 1 - x]
  simp [integral_lin]

lemma integral_coord_multilinear (a : NDArr d ℝ) (idx : Fin d → ℕ) (i : Fin d) :
    ∫ t in Spec.unitCell d, t i * Spec.multilinear a idx t
      = (∑ c : Fin d → Fin 2, (a.get fun j => idx j + c j) * (if c i = 1 then 2 / 3 else 1 / 3))
        * (1 / 2) ^ d := by
  have key : ∀ t : Fin d → ℝ, t i * Spec.multilinear a idx t
      = ∑ c : Fin d → Fin 2, a.get (fun j => idx j + c j) *
          ∏ j, (if j = i then t j else 1) * (if c j = 1 then t j else 1 - t j) := by
    intro t
    rw [Spec.multilinear, Finset.mul_sum]
    refine Finset.sum_congr rfl fun c _ => ?_
    rw [Finset.prod_mul_distrib, Finset.prod_ite_eq' Finset.univ i (fun j => t j)]
    simp
    ring
  simp only [key]
  rw [integral_finsetSum]
  · rw [Finset.sum_mul]
    refine Finset.sum_congr rfl fun c _ => ?_
    rw [integral_const_mul,
      integral_unitCell_prod fun j x => (if j = i then x else 1) * (if c j = 1 then x else 1 - x)]
    have : ∀ j, ∫ x in Set.Icc (0:ℝ) 1, (if j = i then x else 1) * (if c j = 1 then x else 1 - x)
        = (if j = i then (if c j = 1 then 2 / 3 else 1 / 3) else 1) * (1 / 2) := by
      intro j
      by_cases hj : j = i
      · simp only [hj, if_true, integral_xlin]
        split_ifs <;> norm_num
      · simp only [hj, if_false, one_mul]
        exact integral_lin _
    rw [Finset.prod_congr rfl fun j _ => this j, Finset.prod_mul_distrib,
      Finset.prod_ite_eq' Finset.univ i (fun j => if c j = 1 then (2 / 3 : ℝ) else 1 / 3)]
    rw [if_pos (Finset.mem_univ _), Finset.prod_const, Finset.card_univ, Fintype.card_fin]
    ring
  · intro c _
    apply integrable_unitCell
    refine continuous_const.mul (continuous_finsetProd _ fun j _ => ?_)
    split_ifs <;> fun_prop

lemma cornerSum_eq (a : NDArr d ℝ) (i : Fin d) (idx : Fin d → ℕ) (s : Fin 2) :
    cornerSum a i idx s
      = ∑ c : Fin d → Fin 2, if c i = s then (a.get fun j => idx j + c j) else 0 := by
  rw [cornerSum, Finset.sum_filter, sum_corners_eq]
  refine Finset.sum_congr rfl fun c _ => ?_
  simp [Fin.ext_iff]

/-- **C41.** The centroid is the exact centre of mass: along each axis, it is the ratio of the
integrals over the cell of `x_i ρ` and `ρ`, where `ρ` is the multilinear interpolant of the densities at
the corners of the cell and `x_i` runs linearly from the lower to the upper edge. -/
theorem C41_centroid_exact (edges : List (List ℝ)) (a : NDArr d ℝ) (idx : Fin d → ℕ) (i : Fin d)
    (he : edgeAt edges i (idx i) < edgeAt edges i (idx i + 1))
    (hmass : ∫ t in Spec.unitCell d, Spec.multilinear a idx t ≠ 0) :
    centroid edges a idx i
      = (∫ t in Spec.unitCell d,
          (edgeAt edges i (idx i) + (edgeAt edges i (idx i + 1) - edgeAt edges i (idx i)) * t i)
            * Spec.multilinear a idx t)
        / ∫ t in Spec.unitCell d, Spec.multilinear a idx t := by
  set x0 := edgeAt edges i (idx i)
  set x1 := edgeAt edges i (idx i + 1)
  have hcont : Continuous (Spec.multilinear a idx) := by
    unfold Spec.multilinear
    exact continuous_finsetSum _ fun c _ => continuous_const.mul (continuous_cornerTerm c)
  have hsplit : ∫ t in Spec.unitCell d, (x0 + (x1 - x0) * t i) * Spec.multilinear a idx t
      = x0 * (∫ t in Spec.unitCell d, Spec.multilinear a idx t)
        + (x1 - x0) * ∫ t in Spec.unitCell d, t i * Spec.multilinear a idx t := by
    rw [← integral_const_mul, ← integral_const_mul, ← integral_add]
    · refine integral_congr_ae (Filter.Eventually.of_forall fun t => ?_)
      show (x0 + (x1 - x0) * t i) * _ = _
      ring
    · exact integrable_unitCell (by fun_prop)
    · exact integrable_unitCell (by fun_prop)
  have hpow : ((1:ℝ) / 2) ^ d ≠ 0 := by positivity
  have hy : cornerSum a i idx 0 + cornerSum a i idx 1 = ∑ c : Fin d → Fin 2, a.get fun j => idx j + c j := by
    have h0 := cornerSum_eq a i idx 0
    have h1 := cornerSum_eq a i idx 1
    simp only [Fin.val_zero, Fin.val_one] at h0 h1
    rw [h0, h1, ← Finset.sum_add_distrib]
    refine Finset.sum_congr rfl fun c _ => ?_
    have : c i = 0 ∨ c i = 1 := by omega
    rcases this with h | h <;> simp [h]
  have hm : (∑ c : Fin d → Fin 2, (a.get fun j => idx j + c j) * (if c i = 1 then (2:ℝ) / 3 else 1 / 3))
      = (cornerSum a i idx 0 + 2 * cornerSum a i idx 1) / 3 := by
    have h0 := cornerSum_eq a i idx 0
    have h1 := cornerSum_eq a i idx 1
    simp only [Fin.val_zero, Fin.val_one] at h0 h1
    rw [h0, h1, Finset.mul_sum, ← Finset.sum_add_distrib, Finset.sum_div]
    refine Finset.sum_congr rfl fun c _ => ?_
    have : c i = 0 ∨ c i = 1 := by omega
    rcases this with h | h
    · simp [h]; ring
    · simp [h]; ring
  rw [hsplit, integral_coord_multilinear, integral_multilinear, hm, ← hy]
  rw [integral_multilinear, ← hy] at hmass
  have hne : cornerSum a i idx 0 + cornerSum a i idx 1 ≠ 0 := fun h => hmass (by rw [h, zero_mul])
  rw [centroid, trapezoidCom_eq _ _ _ _ he.ne hne]
  field_simp

/-- A 2-D grid with uneven densities meets the hypotheses of both theorems. -/
def exGridR : NDArr 2 ℝ := ⟨![2, 3], fun idx => (idx 0 : ℝ) + 2 * idx 1⟩

def exEdgesR : List (List ℝ) := [[0, 1], [0, 1, 3]]

example : (∀ i, (![0, 1] : Fin 2 → ℕ) i + 1 < exGridR.shape i) ∧
    (∀ j, ValidIdx exGridR.shape j → 0 ≤ exGridR.get j) ∧
    edgeAt exEdgesR (1 : Fin 2) ((![0, 1] : Fin 2 → ℕ) 1)
      < edgeAt exEdgesR (1 : Fin 2) ((![0, 1] : Fin 2 → ℕ) 1 + 1) ∧
    ∫ t in Spec.unitCell 2, Spec.multilinear exGridR ![0, 1] t ≠ 0 := by
  refine ⟨by intro i; fin_cases i <;> decide, fun j _ => by simp only [exGridR]; positivity, ?_, ?_⟩
  · simp [edgeAt, exEdgesR]
  · rw [integral_multilinear]
    refine mul_ne_zero (ne_of_gt ?_) (by positivity)
    refine Finset.sum_pos (fun c _ => ?_) ⟨fun _ => 0, Finset.mem_univ _⟩
    simp only [exGridR]
    simp
    positivity

end Kalepy
