import Verif.Props.Rounding
import Verif.Props.Underflow
import Mathlib.Algebra.Order.Star.Real

/-!
# C158: the density with an inexact whitening matrix and norm

C135 and C156 take the whitening matrix and the norm as exact.  In `Kernel.density` they are the results of
`np.linalg.inv`, `scipy.linalg.cholesky` and `np.linalg.det`, which have errors of their own.
-/

namespace Kalepy

open Matrix Spec

variable {m : ℕ} {fl : ℝ → ℝ} {u r : ℝ}

/-! ### Specification -/

/-- The steepest slope of a kernel as a function of the squared distance. -/
noncomputable def Spec.slope : Dist → ℝ
  | .gaussian => 1 / 2
  | .box => 0
  | .parabola => 1
  | .triweight => 3

/-- The error due to the whitening matrix, whose square differs from the inverse of the bandwidth matrix by at most `δ` in each
entry, and due to a relative error `ν` of the norm. -/
noncomputable def Spec.matrixError (δ ν norm : ℝ) (D : Dist) (wdata : List ((Fin m → ℝ) × ℝ)) (x : Fin m → ℝ) : ℝ :=
  (wdata.map fun q => q.2 * (Spec.slope D * (δ * (∑ l, |x l - q.1 l|) ^ 2) + ν)).sum / norm

/-! ### Proofs -/

lemma shape_lipschitz {D : Dist} (hD : D ≠ .box) {a b : ℝ} (ha : 0 ≤ a) (hb : 0 ≤ b) :
    |Spec.shape D a - Spec.shape D b| ≤ Spec.slope D * |a - b| := by
  have cube : ∀ {s t : ℝ}, 0 ≤ s → s ≤ 1 → 0 ≤ t → t ≤ 1 → |s ^ 3 - t ^ 3| ≤ 3 * |s - t| := by
    intro s t hs hs1 ht ht1
    rw [show s ^ 3 - t ^ 3 = (s ^ 2 + s * t + t ^ 2) * (s - t) by ring, abs_mul]
    refine mul_le_mul_of_nonneg_right ?_ (abs_nonneg _)
    rw [abs_of_nonneg (by positivity)]
    nlinarith
  cases D with
  | box => exact absurd rfl hD
  | gaussian =>
    simp only [Spec.shape, Spec.slope]
    refine (abs_exp_sub_exp_le (by linarith) (by linarith)).trans (le_of_eq ?_)
    rw [show -a / 2 - -b / 2 = -((1 / 2) * (a - b)) by ring, abs_neg, abs_mul, abs_of_pos (by norm_num : (0 : ℝ) < 1 / 2)]
  | parabola =>
    rw [shape_parabola, shape_parabola]
    simp only [Spec.slope, one_mul]
    refine (abs_max_sub_max_le_abs _ _ _).trans (le_of_eq ?_)
    rw [show 1 - a - (1 - b) = -(a - b) by ring, abs_neg]
  | triweight =>
    have e : ∀ {s : ℝ}, Spec.shape .triweight s = (max (1 - s) 0) ^ 3 := by
      intro s
      simp only [Spec.shape]
      split_ifs with h
      · rw [max_eq_left (by linarith)]
      · rw [max_eq_right (by linarith)]; norm_num
    rw [e, e]
    simp only [Spec.slope]
    have h1 : ∀ {s : ℝ}, 0 ≤ s → max (1 - s) 0 ≤ 1 := fun h => max_le (by linarith) zero_le_one
    refine (cube (le_max_right _ _) (h1 ha) (le_max_right _ _) (h1 hb)).trans
      (mul_le_mul_of_nonneg_left ?_ (by norm_num))
    refine (abs_max_sub_max_le_abs _ _ _).trans (le_of_eq ?_)
    rw [show 1 - a - (1 - b) = -(a - b) by ring, abs_neg]

lemma shape_bounds (D : Dist) {a : ℝ} (ha : 0 ≤ a) : 0 ≤ Spec.shape D a ∧ Spec.shape D a ≤ 1 := by
  cases D with
  | box => simp only [Spec.shape]; split_ifs <;> norm_num
  | gaussian => exact ⟨(Real.exp_pos _).le, Real.exp_le_one_iff.mpr (by linarith)⟩
  | parabola =>
    rw [shape_parabola]
    exact ⟨le_max_right _ _, max_le (by linarith) zero_le_one⟩
  | triweight =>
    simp only [Spec.shape]
    split_ifs with h
    · have h0 : 0 ≤ 1 - a := by linarith
      exact ⟨by positivity, pow_le_one₀ h0 (by linarith)⟩
    · norm_num

/-- The squared distances by the whitening matrix and by the bandwidth matrix. -/
lemma whitened_close {white M : Matrix (Fin m) (Fin m) ℝ} {δ : ℝ}
    (hδ : ∀ i j, |(whiteᵀ * white) i j - M⁻¹ i j| ≤ δ) (x d : Fin m → ℝ) :
    |whitenedDist2 white x d - Spec.dist2 M (x - d)| ≤ δ * (∑ l, |x l - d l|) ^ 2 := by
  have h1 : whitenedDist2 white x d = (x - d) ⬝ᵥ ((whiteᵀ * white) *ᵥ (x - d)) := by
    have : whitenedDist2 white x d = (white *ᵥ (x - d)) ⬝ᵥ (white *ᵥ (x - d)) := by
      simp only [whitenedDist2, dotProduct, mulVec, Pi.sub_apply, mul_sub, Finset.sum_sub_distrib, pow_two]
    rw [this, ← mulVec_mulVec, dotProduct_mulVec (x - d), vecMul_transpose]
  have h2 : whitenedDist2 white x d - Spec.dist2 M (x - d)
      = ∑ i, ∑ j, (x i - d i) * (((whiteᵀ * white) i j - M⁻¹ i j) * (x j - d j)) := by
    rw [h1, Spec.dist2]
    simp only [dotProduct, mulVec, Pi.sub_apply, ← Finset.sum_sub_distrib, ← mul_sub, ← sub_mul, Finset.mul_sum]
  rw [h2, pow_two, Finset.sum_mul_sum, Finset.mul_sum]
  refine (Finset.abs_sum_le_sum_abs _ _).trans (Finset.sum_le_sum fun i _ => ?_)
  rw [Finset.mul_sum]
  refine (Finset.abs_sum_le_sum_abs _ _).trans (Finset.sum_le_sum fun j _ => ?_)
  rw [abs_mul, abs_mul]
  have := mul_le_mul_of_nonneg_right (hδ i j) (mul_nonneg (abs_nonneg (x i - d i)) (abs_nonneg (x j - d j)))
  nlinarith

/-- The exact sum of kernels with the inexact matrix and norm. -/
lemma kernelSum_close {D : Dist} (hD : D ≠ .box) {white M : Matrix (Fin m) (Fin m) ℝ} (hM : M.PosDef) {δ ν norm norm' : ℝ}
    (hδ : ∀ i j, |(whiteᵀ * white) i j - M⁻¹ i j| ≤ δ) (hn : 0 < norm) (hn' : 0 < norm') (hν : |norm' - norm| ≤ ν * norm)
    (l : List ((Fin m → ℝ) × ℝ)) (hl : ∀ q ∈ l, 0 ≤ q.2) (x : Fin m → ℝ) :
    |(l.map fun q => Spec.shape D (whitenedDist2 white x q.1) * q.2).sum / norm' - Spec.kernelSum D M l x / norm|
      ≤ Spec.matrixError δ ν norm' D l x := by
  have hslope : 0 ≤ Spec.slope D := by cases D <;> norm_num [Spec.slope]
  have hd2 : ∀ v, 0 ≤ Spec.dist2 M v := fun v => by
    have := (hM.inv.posSemidef).dotProduct_mulVec_nonneg v
    simpa [Spec.dist2] using this
  have hsum : ∀ l : List ((Fin m → ℝ) × ℝ), (∀ q ∈ l, 0 ≤ q.2) →
      |(l.map fun q => Spec.shape D (whitenedDist2 white x q.1) * q.2).sum - Spec.kernelSum D M l x|
        ≤ (l.map fun q => q.2 * (Spec.slope D * (δ * (∑ l, |x l - q.1 l|) ^ 2))).sum ∧
      0 ≤ Spec.kernelSum D M l x ∧ Spec.kernelSum D M l x ≤ (l.map fun q => q.2).sum := by
    intro l
    induction l with
    | nil => intro _; simp [Spec.kernelSum]
    | cons q l ih =>
      intro h
      obtain ⟨h1, h2, h3⟩ := ih fun q' hq' => h q' (by simp [hq'])
      have hq := h q (by simp)
      have hsh := shape_bounds D (hd2 (x - q.1))
      have e : Spec.kernelSum D M (q :: l) x = q.2 * Spec.shape D (Spec.dist2 M (x - q.1)) + Spec.kernelSum D M l x := by
        simp [Spec.kernelSum]
      rw [e]
      simp only [List.map_cons, List.sum_cons]
      refine ⟨?_, by nlinarith, by nlinarith⟩
      have h4 : |Spec.shape D (whitenedDist2 white x q.1) - Spec.shape D (Spec.dist2 M (x - q.1))|
          ≤ Spec.slope D * (δ * (∑ l, |x l - q.1 l|) ^ 2) :=
        (shape_lipschitz hD (Finset.sum_nonneg fun _ _ => sq_nonneg _) (hd2 _)).trans
          (mul_le_mul_of_nonneg_left (whitened_close hδ x q.1) hslope)
      rw [show ∀ a b c d : ℝ, a * q.2 + b - (q.2 * c + d) = q.2 * (a - c) + (b - d) by intros; ring]
      refine (abs_add_le _ _).trans (add_le_add ?_ h1)
      rw [abs_mul, abs_of_nonneg hq]
      exact mul_le_mul_of_nonneg_left h4 hq
  obtain ⟨h1, h2, h3⟩ := hsum l hl
  obtain ⟨A, hA⟩ : ∃ A, A = (l.map fun q => Spec.shape D (whitenedDist2 white x q.1) * q.2).sum := ⟨_, rfl⟩
  obtain ⟨B, hB⟩ : ∃ B, B = Spec.kernelSum D M l x := ⟨_, rfl⟩
  obtain ⟨W, hWd⟩ : ∃ W, W = (l.map fun q => q.2).sum := ⟨_, rfl⟩
  have hν0 : 0 ≤ ν := by
    by_contra hc
    push Not at hc
    have := (abs_nonneg _).trans hν
    nlinarith
  rw [← hA, ← hB] at h1 ⊢
  rw [← hB] at h2 h3
  rw [← hWd] at h3
  have e : Spec.matrixError δ ν norm' D l x
      = (l.map fun q => q.2 * (Spec.slope D * (δ * (∑ l, |x l - q.1 l|) ^ 2))).sum / norm' + ν * W / norm' := by
    rw [Spec.matrixError, ← add_div]
    congr 1
    rw [hWd, ← List.sum_map_mul_left, ← List.sum_map_add]
    congr 1
    refine List.map_congr_left fun q _ => ?_
    ring
  rw [e, show A / norm' - B / norm = (A - B) / norm' + B * (norm - norm') / (norm * norm') by field_simp; ring]
  refine (abs_add_le _ _).trans (add_le_add ?_ ?_)
  · rw [abs_div, abs_of_pos hn']
    exact div_le_div_of_nonneg_right h1 hn'.le
  · rw [abs_div, abs_of_pos (mul_pos hn hn'), abs_mul, abs_of_nonneg h2, abs_sub_comm, div_le_div_iff₀ (mul_pos hn hn') hn']
    have h4 : B * |norm' - norm| ≤ W * (ν * norm) := mul_le_mul h3 hν (abs_nonneg _) (h2.trans h3)
    nlinarith

/-- **C158 (matrix).** Computed with roundings of relative error at most `u`, with a whitening matrix whose square differs from the
inverse of the bandwidth matrix by at most `δ` in each entry, and with a norm of relative error at most `ν`, the density of a Gaussian,
parabolic or triweight kernel differs from the weighted sum of kernels by at most the sum of the bounds for the two kinds of errors. -/
theorem C158_matrix (hu : Accurate u fl) (hu0 : 0 ≤ u) (hu1 : u ≤ 1) {D : Dist} (hD : D ≠ .box)
    {white M : Matrix (Fin m) (Fin m) ℝ} (hM : M.PosDef) {δ ν norm norm' : ℝ}
    (hδ : ∀ i j, |(whiteᵀ * white) i j - M⁻¹ i j| ≤ δ) (hn : 0 < norm) (hn' : 0 < norm') (hν : |norm' - norm| ≤ ν * norm)
    (data points : List (Fin m → ℝ)) (weights : List ℝ) (hw : ∀ w ∈ weights, 0 ≤ w)  :
    ∀ i (h : i < points.length) (h' : i < (densityFl fl D white norm' data points weights none).length),
      |(densityFl fl D white norm' data points weights none)[i] - Spec.kernelSum D M (data.zip weights) points[i] / norm|
        ≤ Spec.errorBound u norm' D white (data.zip weights) points[i]
          + Spec.matrixError δ ν norm' D (data.zip weights) points[i] := by
  intro i h h'
  have h1 := density_approx hu hu0 hn' D white data weights points[i] (G := (1 + u) ^ (9 * m + 20)) (by positivity)
    (T := fun y => (1 + Spec.distSize white points[i] y) ^ Spec.degree D)
    (t' := fun y => Spec.shape D (whitenedDist2 white points[i] y))
    (fun q _ => kernel_approx hu hu0 hu1 hD white points[i] q.1)
  have e1 : (densityFl fl D white norm' data points weights none)[i]
      = fl (evaluateOneFl fl D white data weights points[i] / norm') := by
    simp [densityFl, evaluateFl]
  have h2 := kernelSum_close hD hM hδ hn hn' hν (data.zip weights) (fun q hq => hw q.2 (List.of_mem_zip hq).2) points[i]
  have h3 := h1.err
  rw [e1]
  clear e1 h1
  have e2 : (data.zip weights).map (fun q => (1 + Spec.distSize white points[i] q.1) ^ Spec.degree D * |q.2|)
      = (data.zip weights).map fun q => q.2 * (1 + Spec.distSize white points[i] q.1) ^ Spec.degree D := by
    refine List.map_congr_left fun q hq => ?_
    rw [abs_of_nonneg (hw q.2 (List.of_mem_zip hq).2), mul_comm]
  rw [← pow_add, e2,
    show 9 * m + 20 + ((data.zip weights).length + 2) = 9 * m + (data.zip weights).length + 22 by ring, ← Spec.errorBound] at h3
  exact (abs_sub_le _ _ _).trans (add_le_add h3 h2)

/-- **C158 (matrix, underflow).** The same with gradual underflow. -/
theorem C158_underflow (hu : AccurateFrom u (r ^ 2) fl) (hu0 : 0 ≤ u) (hr0 : 0 ≤ r) (hr1 : r ≤ 1) {D : Dist} (hD : D ≠ .box)
    {white M : Matrix (Fin m) (Fin m) ℝ} (hM : M.PosDef) {δ ν norm norm' : ℝ}
    (hδ : ∀ i j, |(whiteᵀ * white) i j - M⁻¹ i j| ≤ δ) (hn : 0 < norm) (hn' : 0 < norm') (hν : |norm' - norm| ≤ ν * norm)
    (data points : List (Fin m → ℝ)) (weights : List ℝ) (hw : ∀ w ∈ weights, 0 ≤ w)  :
    ∀ i (h : i < points.length) (h' : i < (densityFl fl D white norm' data points weights none).length),
      |(densityFl fl D white norm' data points weights none)[i] - Spec.kernelSum D M (data.zip weights) points[i] / norm|
        ≤ Spec.errorBoundFrom u r norm' D white (data.zip weights) points[i]
          + Spec.matrixError δ ν norm' D (data.zip weights) points[i] := by
  intro i h h'
  have h1 := density_approxFrom hu hu0 hn' D white data weights points[i] (G := (1 + 2 * u) ^ (9 * m + 20))
    (one_le_pow₀ (by linarith))
    (T := fun y => (1 + Spec.distSizeFrom r white points[i] y) ^ Spec.degree D)
    (t' := fun y => Spec.shape D (whitenedDist2 white points[i] y))
    (fun y => one_le_pow₀ (by linarith [distSizeFrom_nonneg r white points[i] y]))
    (fun q _ => kernel_approxFrom hu hu0 hr0 hr1 hD white points[i] q.1)
  have e1 : (densityFl fl D white norm' data points weights none)[i]
      = fl (evaluateOneFl fl D white data weights points[i] / norm') := by
    simp [densityFl, evaluateFl]
  have h2 := kernelSum_close hD hM hδ hn hn' hν (data.zip weights) (fun q hq => hw q.2 (List.of_mem_zip hq).2) points[i]
  have h3 := h1.err
  rw [e1]
  clear e1 h1
  have e2 : (data.zip weights).map (fun q => (1 + Spec.distSizeFrom r white points[i] q.1) ^ Spec.degree D * (|q.2| + r ^ 2))
      = (data.zip weights).map fun q => (q.2 + r ^ 2) * (1 + Spec.distSizeFrom r white points[i] q.1) ^ Spec.degree D := by
    refine List.map_congr_left fun q hq => ?_
    rw [abs_of_nonneg (hw q.2 (List.of_mem_zip hq).2), mul_comm]
  rw [← pow_add, e2,
    show 9 * m + 20 + ((data.zip weights).length + 2) = 9 * m + (data.zip weights).length + 22 by ring, ← Spec.errorBoundFrom] at h3
  exact (abs_sub_le _ _ _).trans (add_le_add h3 h2)

/-- **C158 (box).** For the box kernel the two kinds of errors change nothing but the norm and the last roundings at every point whose
distance to each data point is not too close to the edge of the box. -/
theorem C158_box (hu : Accurate u fl) (hu0 : 0 ≤ u)
    {white M : Matrix (Fin m) (Fin m) ℝ} {δ ν norm norm' : ℝ}
    (hδ : ∀ i j, |(whiteᵀ * white) i j - M⁻¹ i j| ≤ δ) (hn : 0 < norm) (hn' : 0 < norm') (hν : |norm' - norm| ≤ ν * norm)
    (data points : List (Fin m → ℝ)) (weights : List ℝ) (hw : ∀ w ∈ weights, 0 ≤ w)
    (i : ℕ) (h : i < points.length) (h' : i < (densityFl fl .box white norm' data points weights none).length)
    (hfar : ∀ y ∈ data, ((1 + u) ^ (3 * m + 5) - 1) * Spec.distSize white points[i] y + δ * (∑ l, |points[i] l - y l|) ^ 2
      < |Spec.dist2 M (points[i] - y) - 1|) :
    |(densityFl fl .box white norm' data points weights none)[i] - Spec.kernelSum .box M (data.zip weights) points[i] / norm|
      ≤ ((1 + u) ^ ((data.zip weights).length + 2) - 1 + ν) * (Spec.kernelSum .box M (data.zip weights) points[i] / norm') := by
  obtain ⟨x, hx⟩ : ∃ x, x = points[i] := ⟨_, rfl⟩
  have hk : ∀ q ∈ data.zip weights, Approx 1 (Spec.shape .box (Spec.dist2 M (x - q.1)))
      (Dist.evalFl fl .box (dist2Fl fl white x q.1)) (Spec.shape .box (Spec.dist2 M (x - q.1))) := by
    intro q hq
    have h1 := (dist2_approx hu hu0 white x q.1).err
    have h2 := hfar q.1 (List.of_mem_zip hq).1
    rw [← hx] at h2
    have h0 := whitened_close hδ x q.1
    have e : Dist.evalFl fl .box (dist2Fl fl white x q.1) = Spec.shape .box (Spec.dist2 M (x - q.1)) := by
      simp only [Dist.evalFl, Spec.shape]
      have h3 : |dist2Fl fl white x q.1 - Spec.dist2 M (x - q.1)| < |Spec.dist2 M (x - q.1) - 1| :=
        ((abs_sub_le _ _ _).trans (add_le_add h1 h0)).trans_lt h2
      have h4 : dist2Fl fl white x q.1 ≤ 1 ↔ Spec.dist2 M (x - q.1) ≤ 1 := by
        constructor <;> intro h5 <;> by_contra h6 <;> push Not at h6 <;>
          rcases abs_cases (dist2Fl fl white x q.1 - Spec.dist2 M (x - q.1)) with c | c <;>
          rcases abs_cases (Spec.dist2 M (x - q.1) - 1) with c' | c' <;> linarith
      simp only [h4]
    rw [e]
    refine ⟨by simp, ?_⟩
    rw [abs_of_nonneg]
    simp only [Spec.shape]
    split_ifs <;> norm_num
  have h1 := (density_approx hu hu0 hn' .box white data weights x (G := 1) (by norm_num)
    (T := fun y => Spec.shape .box (Spec.dist2 M (x - y)))
    (t' := fun y => Spec.shape .box (Spec.dist2 M (x - y))) hk).err
  have e1 : (densityFl fl .box white norm' data points weights none)[i]
      = fl (evaluateOneFl fl .box white data weights x / norm') := by
    simp [densityFl, evaluateFl, hx]
  have e2 : ((data.zip weights).map fun q => Spec.shape .box (Spec.dist2 M (x - q.1)) * |q.2|).sum
      = Spec.kernelSum .box M (data.zip weights) x := by
    rw [Spec.kernelSum]
    congr 1
    refine List.map_congr_left fun q hq => ?_
    rw [abs_of_nonneg (hw q.2 (List.of_mem_zip hq).2), mul_comm]
  have e3 : ((data.zip weights).map fun q => Spec.shape .box (Spec.dist2 M (x - q.1)) * q.2).sum
      = Spec.kernelSum .box M (data.zip weights) x := by
    rw [Spec.kernelSum]
    congr 1
    refine List.map_congr_left fun q hq => ?_
    rw [mul_comm]
  have hB0 : 0 ≤ Spec.kernelSum .box M (data.zip weights) x := by
    rw [← e2]
    refine List.sum_nonneg fun y hy => ?_
    obtain ⟨q, _, rfl⟩ := List.mem_map.mp hy
    refine mul_nonneg ?_ (abs_nonneg _)
    simp only [Spec.shape]
    split_ifs <;> norm_num
  rw [e2, e3, one_mul] at h1
  rw [e1, ← hx]
  obtain ⟨B, hB⟩ : ∃ B, B = Spec.kernelSum .box M (data.zip weights) x := ⟨_, rfl⟩
  rw [← hB] at h1 hB0 ⊢
  rw [add_mul]
  refine (abs_sub_le _ _ _).trans (add_le_add h1 ?_)
  rw [show B / norm' - B / norm = B * (norm - norm') / (norm * norm') by field_simp, abs_div,
    abs_of_pos (mul_pos hn hn'), abs_mul, abs_of_nonneg hB0, abs_sub_comm, ← mul_div_assoc,
    div_le_div_iff₀ (mul_pos hn hn') hn']
  have h4 : B * |norm' - norm| ≤ B * (ν * norm) := mul_le_mul_of_nonneg_left hν hB0
  nlinarith

/-! ### Examples -/

/-- A bandwidth of `3`, whose inverse has no rational root, and a root rounded to three digits. -/
lemma inexact_root : ∀ i j, |((!![(577 / 1000 : ℝ)])ᵀ * !![(577 / 1000 : ℝ)]) i j - (!![(3 : ℝ)])⁻¹ i j| ≤ 1 / 1000 := by
  intro i j
  have e : (!![(3 : ℝ)])⁻¹ = !![(1 / 3 : ℝ)] := by
    refine inv_eq_right_inv ?_
    ext i j
    fin_cases i; fin_cases j
    simp [mul_apply]
  rw [e]
  fin_cases i; fin_cases j
  simp [mul_apply]
  norm_num [abs_le]

/-- Double precision, that root, and a norm of relative error `10⁻³`. -/
example : ∃ fl, Accurate ((1 / 2) ^ 53) fl ∧
    |(densityFl fl .gaussian !![(577 / 1000 : ℝ)] (4341 / 1000) [![0], ![1]] [![1 / 3]] [1, 2] none)[0]'(by simp [densityFl, evaluateFl])
        - Spec.kernelSum .gaussian !![(3 : ℝ)] [(![0], 1), (![1], 2)] ![1 / 3] / (4342 / 1000)|
      ≤ Spec.errorBound ((1 / 2) ^ 53) (4341 / 1000) .gaussian !![(577 / 1000 : ℝ)] [(![0], 1), (![1], 2)] ![1 / 3]
        + Spec.matrixError (1 / 1000) (1 / 1000) (4341 / 1000) .gaussian [(![0], 1), (![1], 2)] ![1 / 3] := by
  obtain ⟨fl, h⟩ := exists_nearest (p := 53) (by norm_num)
  have hM : (!![(3 : ℝ)]).PosDef := by
    have : !![(3 : ℝ)] = Matrix.diagonal fun _ : Fin 1 => (3 : ℝ) := by
      ext i j; fin_cases i; fin_cases j; simp
    rw [this]
    exact Matrix.PosDef.diagonal fun _ => by norm_num
  exact ⟨fl, h.accurate (by norm_num), C158_matrix (h.accurate (by norm_num)) (by positivity) (by norm_num) (by simp) hM inexact_root
    (by norm_num) (by norm_num) (by norm_num) [![0], ![1]] [![1 / 3]] [1, 2] (by simp) 0 (by simp) _⟩

/-- The error due to the matrix and the norm in that case is less than `2 · 10⁻³`. -/
example : Spec.matrixError (1 / 1000) (1 / 1000) (4341 / 1000) .gaussian [((![0] : Fin 1 → ℝ), 1), (![1], 2)] ![1 / 3] < 2 / 1000 := by
  simp only [Spec.matrixError, Spec.slope, List.map_cons, List.map_nil, List.sum_cons, List.sum_nil, Finset.univ_unique,
    Fin.default_eq_zero, Finset.sum_singleton, cons_val_fin_one, sq_abs]
  norm_num

end Kalepy
