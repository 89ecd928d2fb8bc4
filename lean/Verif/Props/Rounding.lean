import Mathlib.Data.List.Zip
import Mathlib.Topology.Algebra.Order.Field
import Verif.Spec.Density
import Verif.Model.Rounded
import Verif.Proofs.Rounding

/-!
# C135: the density in rounded arithmetic

Every operation of `_evaluate_numba` and of `Kernel.density` is followed by a rounding.  The whitening matrix and the
norm are given numbers.
-/

namespace Kalepy

open Matrix Spec

/-! ### Specification -/

/-- The size of the numbers that cancel in the computation of the distance from `x` to `d`. -/
noncomputable def Spec.distSize {m : ℕ} (white : Matrix (Fin m) (Fin m) ℝ) (x d : Fin m → ℝ) : ℝ :=
  ∑ k, ((∑ l, |white k l| * |x l|) + ∑ l, |white k l| * |d l|) ^ 2

/-- The degree of the kernel as a function of the squared distance, 1 for the exponential. -/
def Spec.degree : Dist → ℕ
  | .triweight => 3
  | _ => 1

/-! ### Proofs -/

variable {m : ℕ} {fl : ℝ → ℝ} {u : ℝ}

lemma whiten_approx (hu : Accurate u fl) (hu0 : 0 ≤ u) (white : Matrix (Fin m) (Fin m) ℝ) (k : Fin m) (x : Fin m → ℝ) :
    Approx ((1 + u) ^ (m + 1)) (∑ l, |white k l| * |x l|) (whitenFl fl white k x) (∑ l, white k l * x l) := by
  have h : ∀ l ∈ List.finRange m, Approx (1 * (1 + u)) (|white k l| * |x l|) (fl (white k l * x l)) (white k l * x l) := by
    intro l _
    rw [← abs_mul]
    exact (Approx.exact _).round hu hu0
  have := Approx.foldl_zero hu hu0 (by linarith) (List.finRange m) h
  rw [List.length_finRange, one_mul, ← pow_succ'] at this
  rw [Fin.sum_univ_def, Fin.sum_univ_def]
  exact this

lemma dist2_approx (hu : Accurate u fl) (hu0 : 0 ≤ u) (white : Matrix (Fin m) (Fin m) ℝ) (x d : Fin m → ℝ) :
    Approx ((1 + u) ^ (3 * m + 5)) (Spec.distSize white x d) (dist2Fl fl white x d) (whitenedDist2 white x d) := by
  have h : ∀ k ∈ List.finRange m, Approx ((1 + u) ^ (2 * m + 5))
      (((∑ l, |white k l| * |x l|) + ∑ l, |white k l| * |d l|) ^ 2)
      (fl (fl (whitenFl fl white k x - whitenFl fl white k d) * fl (whitenFl fl white k x - whitenFl fl white k d)))
      (((∑ l, white k l * x l) - (∑ l, white k l * d l)) ^ 2) := by
    intro k _
    have h1 := ((whiten_approx hu hu0 white k x).sub (whiten_approx hu hu0 white k d)).round hu hu0
    have h2 := (h1.mul h1).round hu hu0
    have e : (1 + u) ^ (m + 1) * (1 + u) * ((1 + u) ^ (m + 1) * (1 + u)) * (1 + u) = (1 + u) ^ (2 * m + 5) := by ring
    rw [e] at h2
    rw [pow_two, pow_two]
    exact h2
  have := Approx.foldl_zero hu hu0 (by positivity) (List.finRange m) h
  rw [List.length_finRange, ← pow_add, show 2 * m + 5 + m = 3 * m + 5 by ring] at this
  rw [Spec.distSize, whitenedDist2, Fin.sum_univ_def, Fin.sum_univ_def]
  exact this

lemma distSize_nonneg (white : Matrix (Fin m) (Fin m) ℝ) (x d : Fin m → ℝ) : 0 ≤ Spec.distSize white x d :=
  Finset.sum_nonneg fun _ _ => sq_nonneg _

lemma foldl_nonneg {α : Type*} (hu : Accurate u fl) (hu1 : u ≤ 1) (t : α → ℝ) (l : List α) :
    ∀ {acc : ℝ}, 0 ≤ acc → (∀ i ∈ l, 0 ≤ t i) → 0 ≤ l.foldl (fun acc i => fl (acc + t i)) acc := by
  induction l with
  | nil => intro acc h _; exact h
  | cons i l ih =>
    intro acc h ht
    exact ih (hu.nonneg hu1 (add_nonneg h (ht i (by simp)))) fun j hj => ht j (by simp [hj])

lemma dist2Fl_nonneg (hu : Accurate u fl) (hu1 : u ≤ 1) (white : Matrix (Fin m) (Fin m) ℝ) (x d : Fin m → ℝ) :
    0 ≤ dist2Fl fl white x d :=
  foldl_nonneg hu hu1 _ _ le_rfl fun _ _ => hu.nonneg hu1 (mul_self_nonneg _)

lemma abs_exp_sub_exp_le {a b : ℝ} (ha : a ≤ 0) (hb : b ≤ 0) : |Real.exp a - Real.exp b| ≤ |a - b| := by
  have key : ∀ {a b : ℝ}, a ≤ 0 → b ≤ a → |Real.exp a - Real.exp b| ≤ |a - b| := by
    intro a b ha hba
    rw [abs_of_nonneg (sub_nonneg.mpr (Real.exp_le_exp.mpr hba)), abs_of_nonneg (sub_nonneg.mpr hba)]
    have h1 : Real.exp b = Real.exp a * Real.exp (b - a) := by rw [← Real.exp_add]; congr 1; ring
    have h2 := Real.add_one_le_exp (b - a)
    have h3 : Real.exp a ≤ 1 := Real.exp_le_one_iff.mpr ha
    have h4 := Real.exp_pos a
    have h5 : 1 - Real.exp (b - a) ≤ a - b := by linarith
    have h6 : 0 ≤ 1 - Real.exp (b - a) := by
      have : Real.exp (b - a) ≤ 1 := Real.exp_le_one_iff.mpr (by linarith)
      linarith
    rw [h1]
    nlinarith
  rcases le_total b a with h | h
  · exact key ha h
  · rw [abs_sub_comm, abs_sub_comm a b]; exact key hb h

lemma Approx.max_zero {G S a b : ℝ} (h : Approx G S a b) : Approx G S (max a 0) (max b 0) := by
  refine ⟨(abs_max_sub_max_le_abs a b 0).trans h.err, ?_⟩
  rw [abs_of_nonneg (le_max_right _ _)]
  exact max_le ((le_abs_self b).trans h.size) h.nonneg

lemma shape_parabola (s : ℝ) : Spec.shape .parabola s = max (1 - s) 0 := by
  simp only [Spec.shape]
  split_ifs with h
  · rw [max_eq_left (by linarith)]
  · rw [max_eq_right (by linarith)]

lemma shape_triweight (s : ℝ) : Spec.shape .triweight s = max ((1 - s) * ((1 - s) * (1 - s))) 0 := by
  simp only [Spec.shape]
  split_ifs with h
  · rw [max_eq_left]; ring
    have : 0 ≤ 1 - s := by linarith
    positivity
  · rw [max_eq_right]
    have : 1 - s ≤ 0 := by linarith
    exact mul_nonpos_of_nonpos_of_nonneg this (mul_self_nonneg _)

lemma kernel_approx (hu : Accurate u fl) (hu0 : 0 ≤ u) (hu1 : u ≤ 1) {D : Dist} (hD : D ≠ .box)
    (white : Matrix (Fin m) (Fin m) ℝ) (x d : Fin m → ℝ) :
    Approx ((1 + u) ^ (9 * m + 20)) ((1 + Spec.distSize white x d) ^ Spec.degree D)
      (D.evalFl fl (dist2Fl fl white x d)) (Spec.shape D (whitenedDist2 white x d)) := by
  have h := dist2_approx hu hu0 white x d
  have hS := distSize_nonneg white x d
  have hy := dist2Fl_nonneg hu hu1 white x d
  have hy' : 0 ≤ whitenedDist2 white x d := Finset.sum_nonneg fun _ _ => sq_nonneg _
  set S := Spec.distSize white x d
  set y := dist2Fl fl white x d
  set y' := whitenedDist2 white x d
  have hb : 1 ≤ 1 + u := by linarith
  have h1 : Approx ((1 + u) ^ (3 * m + 6)) (1 + S) (fl (1 - y)) (1 - y') := by
    have e : Approx ((1 + u) ^ (3 * m + 5)) 1 1 1 := by
      have := (Approx.exact 1).le (one_le_pow₀ hb : 1 ≤ (1 + u) ^ (3 * m + 5))
      rwa [abs_one] at this
    have := (e.sub h).round hu hu0
    rwa [← pow_succ] at this
  cases D with
  | box => exact absurd rfl hD
  | gaussian =>
    have h2 : Approx ((1 + u) ^ (3 * m + 5)) (S * (1 / 2)) (-y / 2) (-y' / 2) := by
      have := h.neg.mul (Approx.exact (1 / 2))
      rw [mul_one, abs_of_pos (by norm_num : (0 : ℝ) < 1 / 2)] at this
      rwa [show -y * (1 / 2) = -y / 2 by ring, show -y' * (1 / 2) = -y' / 2 by ring] at this
    have h3 := h2.round hu hu0
    rw [← pow_succ] at h3
    have hle : fl (-y / 2) ≤ 0 := hu.nonpos hu1 (by linarith)
    have h4 : Approx ((1 + u) ^ (3 * m + 5 + 1)) (1 + S) (Real.exp (fl (-y / 2))) (Real.exp (-y' / 2)) := by
      refine ⟨(abs_exp_sub_exp_le hle (by linarith)).trans (h3.err.trans ?_), ?_⟩
      · have : 0 ≤ (1 + u) ^ (3 * m + 5 + 1) - 1 := sub_nonneg.mpr (one_le_pow₀ hb)
        exact mul_le_mul_of_nonneg_left (by linarith) this
      · rw [abs_of_pos (Real.exp_pos _)]
        have : Real.exp (-y' / 2) ≤ 1 := Real.exp_le_one_iff.mpr (by linarith)
        linarith
    have h5 := h4.round hu hu0
    rw [← pow_succ] at h5
    simp only [Dist.evalFl, Spec.shape, Spec.degree, pow_one]
    exact h5.le (pow_le_pow_right₀ hb (by omega))
  | parabola =>
    simp only [Dist.evalFl, Spec.degree, pow_one, shape_parabola]
    exact h1.max_zero.le (pow_le_pow_right₀ hb (by omega))
  | triweight =>
    have h2 := (h1.mul h1).round hu hu0
    have h3 := (h1.mul h2).round hu hu0
    simp only [Dist.evalFl, Spec.degree, shape_triweight]
    have e : (1 + S) ^ 3 = (1 + S) * ((1 + S) * (1 + S)) := by ring
    rw [e]
    refine h3.max_zero.le ?_
    rw [← pow_add, ← pow_succ, ← pow_add, ← pow_succ]
    exact pow_le_pow_right₀ hb (by omega)

/-- The distance in the metric `M⁻¹` from a root of `M⁻¹`. -/
lemma whitened_eq {white M : Matrix (Fin m) (Fin m) ℝ} (hW : whiteᵀ * white = M⁻¹) (x d : Fin m → ℝ) :
    whitenedDist2 white x d = Spec.dist2 M (x - d) := by
  have h1 : whitenedDist2 white x d = (white *ᵥ (x - d)) ⬝ᵥ (white *ᵥ (x - d)) := by
    simp only [whitenedDist2, dotProduct, mulVec, Pi.sub_apply, mul_sub, Finset.sum_sub_distrib, pow_two]
  rw [h1, Spec.dist2, ← hW, ← mulVec_mulVec, dotProduct_mulVec (x - d), vecMul_transpose]

lemma zip_kernelSum {white M : Matrix (Fin m) (Fin m) ℝ} (hW : whiteᵀ * white = M⁻¹) (D : Dist)
    (l : List ((Fin m → ℝ) × ℝ)) (x : Fin m → ℝ) :
    (l.map fun q => Spec.shape D (whitenedDist2 white x q.1) * q.2).sum = Spec.kernelSum D M l x := by
  rw [Spec.kernelSum]
  congr 1
  refine List.map_congr_left fun q _ => ?_
  rw [whitened_eq hW, mul_comm]

/-- The rounded sum over the data and the rounded quotient. -/
lemma density_approx (hu : Accurate u fl) (hu0 : 0 ≤ u) {norm : ℝ} (hn : 0 < norm) (D : Dist)
    (white : Matrix (Fin m) (Fin m) ℝ) (data : List (Fin m → ℝ)) (weights : List ℝ) (x : Fin m → ℝ) {G : ℝ} (hG : 0 ≤ G)
    {T t' : (Fin m → ℝ) → ℝ}
    (h : ∀ q ∈ data.zip weights, Approx G (T q.1) (D.evalFl fl (dist2Fl fl white x q.1)) (t' q.1)) :
    Approx (G * (1 + u) ^ ((data.zip weights).length + 2)) (((data.zip weights).map fun q => T q.1 * |q.2|).sum / norm)
      (fl (evaluateOneFl fl D white data weights x / norm)) (((data.zip weights).map fun q => t' q.1 * q.2).sum / norm) := by
  have h1 : ∀ q ∈ data.zip weights, Approx (G * (1 + u)) (T q.1 * |q.2|)
      (fl (D.evalFl fl (dist2Fl fl white x q.1) * q.2)) (t' q.1 * q.2) := by
    intro q hq
    have := ((h q hq).mul (Approx.exact q.2)).round hu hu0
    rwa [mul_one] at this
  have h2 := Approx.foldl_zero hu hu0 (by positivity) (data.zip weights) h1
  have h3 := (h2.mul (Approx.exact norm⁻¹)).round hu hu0
  rw [mul_one, abs_of_pos (inv_pos.mpr hn), ← div_eq_mul_inv, ← div_eq_mul_inv, ← div_eq_mul_inv] at h3
  have e : G * (1 + u) ^ ((data.zip weights).length + 2)
      = G * (1 + u) * (1 + u) ^ (data.zip weights).length * (1 + u) := by ring
  rw [e]
  exact h3

/-- The error bound of C135 at one point. -/
noncomputable def Spec.errorBound (u norm : ℝ) (D : Dist) (white : Matrix (Fin m) (Fin m) ℝ)
    (wdata : List ((Fin m → ℝ) × ℝ)) (x : Fin m → ℝ) : ℝ :=
  ((1 + u) ^ (9 * m + wdata.length + 22) - 1)
    * ((wdata.map fun q => q.2 * (1 + Spec.distSize white x q.1) ^ Spec.degree D).sum / norm)

/-- **C135 (accuracy).** Computed with roundings of relative error at most `u` after every operation, the density of a
Gaussian, parabolic or triweight kernel differs from the weighted sum of kernels by at most the stated bound, at all
points, for all data and all weights. -/
theorem C135_accuracy (hu : Accurate u fl) (hu0 : 0 ≤ u) (hu1 : u ≤ 1) {D : Dist} (hD : D ≠ .box)
    {white M : Matrix (Fin m) (Fin m) ℝ} (hW : whiteᵀ * white = M⁻¹) {norm : ℝ} (hn : 0 < norm)
    (data points : List (Fin m → ℝ)) (weights : List ℝ) (hw : ∀ w ∈ weights, 0 ≤ w)  :
    (densityFl fl D white norm data points weights none).length = points.length ∧
    ∀ i (h : i < points.length) (h' : i < (densityFl fl D white norm data points weights none).length),
      |(densityFl fl D white norm data points weights none)[i] - Spec.kernelSum D M (data.zip weights) points[i] / norm|
        ≤ Spec.errorBound u norm D white (data.zip weights) points[i] := by
  refine ⟨by simp [densityFl, evaluateFl], fun i h h' => ?_⟩
  have h1 := density_approx hu hu0 hn D white data weights points[i] (G := (1 + u) ^ (9 * m + 20)) (by positivity)
    (T := fun y => (1 + Spec.distSize white points[i] y) ^ Spec.degree D)
    (t' := fun y => Spec.shape D (whitenedDist2 white points[i] y))
    (fun q _ => kernel_approx hu hu0 hu1 hD white points[i] q.1)
  have e1 : (densityFl fl D white norm data points weights none)[i]
      = fl (evaluateOneFl fl D white data weights points[i] / norm) := by
    simp [densityFl, evaluateFl]
  rw [e1, ← zip_kernelSum hW]
  refine h1.err.trans (le_of_eq ?_)
  have e2 : (data.zip weights).map (fun q => (1 + Spec.distSize white points[i] q.1) ^ Spec.degree D * |q.2|)
      = (data.zip weights).map fun q => q.2 * (1 + Spec.distSize white points[i] q.1) ^ Spec.degree D := by
    refine List.map_congr_left fun q hq => ?_
    rw [abs_of_nonneg (hw q.2 (List.of_mem_zip hq).2), mul_comm]
  rw [Spec.errorBound, ← pow_add, e2,
    show 9 * m + 20 + ((data.zip weights).length + 2) = 9 * m + (data.zip weights).length + 22 by ring]

lemma pow_sub_one_le {N : ℕ} (hu0 : 0 ≤ u) (h : N * u ≤ 1 / 2) : (1 + u) ^ N - 1 ≤ 2 * (N * u) := by
  have h1 : 1 - N * u ≤ (1 - u) ^ N := by
    rcases Nat.eq_zero_or_pos N with rfl | hN
    · simp
    have hu1 : u ≤ 1 / 2 := by
      have : (1 : ℝ) ≤ N := by exact_mod_cast hN
      nlinarith
    have := one_add_mul_le_pow (a := -u) (by linarith) N
    simpa [sub_eq_add_neg] using this
  have h2 : (1 + u) ^ N * (1 - u) ^ N ≤ 1 := by
    rw [← mul_pow]
    rcases Nat.eq_zero_or_pos N with rfl | hN
    · simp
    have hu1 : u ≤ 1 / 2 := by
      have : (1 : ℝ) ≤ N := by exact_mod_cast hN
      nlinarith
    exact pow_le_one₀ (by nlinarith) (by nlinarith)
  have h3 : 0 ≤ (1 + u) ^ N := by positivity
  have h4 : 0 ≤ N * u := by positivity
  have h5 : (1 + u) ^ N * (1 - N * u) ≤ 1 := (mul_le_mul_of_nonneg_left h1 h3).trans h2
  nlinarith

/-- **C135 (accuracy), double precision.** With rounding to nearest of numbers with 53 digits, `N / 2^52` of the sum of
the weights times the sizes bounds the error, where `N` is nine times the dimension plus the number of data plus 22. -/
theorem C135_double (hfl : Nearest 53 fl) {D : Dist} (hD : D ≠ .box)
    {white M : Matrix (Fin m) (Fin m) ℝ} (hW : whiteᵀ * white = M⁻¹) {norm : ℝ} (hn : 0 < norm)
    (data points : List (Fin m → ℝ)) (weights : List ℝ) (hw : ∀ w ∈ weights, 0 ≤ w)
    (hlen : weights.length = data.length) (hN : 9 * m + data.length + 22 ≤ 2 ^ 52) :
    ∀ i (h : i < points.length) (h' : i < (densityFl fl D white norm data points weights none).length),
      |(densityFl fl D white norm data points weights none)[i] - Spec.kernelSum D M (data.zip weights) points[i] / norm|
        ≤ (9 * m + data.length + 22 : ℕ) / 2 ^ 52
          * (((data.zip weights).map fun q => q.2 * (1 + Spec.distSize white points[i] q.1) ^ Spec.degree D).sum / norm) := by
  intro i h h'
  have hu := hfl.accurate (by norm_num)
  refine ((C135_accuracy hu (by positivity) (by norm_num) hD hW hn data points weights hw).2 i h h').trans ?_
  rw [Spec.errorBound]
  have e : (data.zip weights).length = data.length := by simp [hlen]
  rw [e]
  refine mul_le_mul_of_nonneg_right ?_ ?_
  · have hN' : ((9 * m + data.length + 22 : ℕ) : ℝ) ≤ 2 ^ 52 := by exact_mod_cast hN
    refine (pow_sub_one_le (by positivity) ?_).trans (le_of_eq ?_)
    · have : ((9 * m + data.length + 22 : ℕ) : ℝ) * (1 / 2) ^ 53 ≤ 2 ^ 52 * (1 / 2) ^ 53 := by gcongr
      refine this.trans ?_
      norm_num
    · rw [show ((1 : ℝ) / 2) ^ 53 = 1 / (2 * 2 ^ 52) by norm_num]
      field_simp
  · refine div_nonneg (List.sum_nonneg fun y hy => ?_) hn.le
    obtain ⟨q, hq, rfl⟩ := List.mem_map.mp hy
    exact mul_nonneg (hw q.2 (List.of_mem_zip hq).2)
      (pow_nonneg (add_nonneg zero_le_one (distSize_nonneg _ _ _)) _)

/-- **C135 (limit).** As the precision grows, the computed densities tend to the weighted sums of kernels. -/
theorem C135_limit {D : Dist} (hD : D ≠ .box)
    {white M : Matrix (Fin m) (Fin m) ℝ} (hW : whiteᵀ * white = M⁻¹) {norm : ℝ} (hn : 0 < norm)
    (data : List (Fin m → ℝ)) (weights : List ℝ) (hw : ∀ w ∈ weights, 0 ≤ w) (x : Fin m → ℝ) {ε : ℝ} (hε : 0 < ε) :
    ∃ u₀ > 0, ∀ u fl, Accurate u fl → 0 ≤ u → u ≤ u₀ →
      ∃ v, densityFl fl D white norm data [x] weights none = [v] ∧
        |v - Spec.kernelSum D M (data.zip weights) x / norm| < ε := by
  set C := ((data.zip weights).map fun q => q.2 * (1 + Spec.distSize white x q.1) ^ Spec.degree D).sum / norm with hC
  have hcont : Continuous fun u : ℝ => ((1 + u) ^ (9 * m + (data.zip weights).length + 22) - 1) * C := by fun_prop
  have h0 : ((1 + (0 : ℝ)) ^ (9 * m + (data.zip weights).length + 22) - 1) * C = 0 := by simp
  obtain ⟨δ, hδ, hδ'⟩ := Metric.continuous_iff.mp hcont 0 ε hε
  refine ⟨min (δ / 2) 1, by positivity, fun u fl hu hu0 hu1 => ?_⟩
  have hlt : u < δ := by
    have := hu1.trans (min_le_left _ _)
    linarith
  have h1 := hδ' u (by rw [Real.dist_eq, sub_zero, abs_of_nonneg hu0]; exact hlt)
  rw [h0, Real.dist_eq, sub_zero] at h1
  refine ⟨_, rfl, ?_⟩
  have h2 := (C135_accuracy hu hu0 (hu1.trans (min_le_right _ _)) hD hW hn data [x] weights hw).2 0 (by simp)
    (by simp [densityFl, evaluateFl])
  exact lt_of_le_of_lt h2 ((le_abs_self _).trans_lt h1)

/-- **C135 (box).** For the box kernel the computed density has a small relative error at every point whose distance to
each data point is not too close to the edge of the box. -/
theorem C135_box (hu : Accurate u fl) (hu0 : 0 ≤ u)
    {white M : Matrix (Fin m) (Fin m) ℝ} (hW : whiteᵀ * white = M⁻¹) {norm : ℝ} (hn : 0 < norm)
    (data points : List (Fin m → ℝ)) (weights : List ℝ) (hw : ∀ w ∈ weights, 0 ≤ w)
    (i : ℕ) (h : i < points.length) (h' : i < (densityFl fl .box white norm data points weights none).length)
    (hfar : ∀ y ∈ data, ((1 + u) ^ (3 * m + 5) - 1) * Spec.distSize white points[i] y
      < |Spec.dist2 M (points[i] - y) - 1|) :
    |(densityFl fl .box white norm data points weights none)[i] - Spec.kernelSum .box M (data.zip weights) points[i] / norm|
      ≤ ((1 + u) ^ ((data.zip weights).length + 2) - 1) * (Spec.kernelSum .box M (data.zip weights) points[i] / norm) := by
  have hk : ∀ q ∈ data.zip weights, Approx 1 (Spec.shape .box (whitenedDist2 white points[i] q.1))
      (Dist.evalFl fl .box (dist2Fl fl white points[i] q.1)) (Spec.shape .box (whitenedDist2 white points[i] q.1)) := by
    intro q hq
    have h1 := (dist2_approx hu hu0 white points[i] q.1).err
    have h2 := hfar q.1 (List.of_mem_zip hq).1
    rw [← whitened_eq hW] at h2
    have e : Dist.evalFl fl .box (dist2Fl fl white points[i] q.1) = Spec.shape .box (whitenedDist2 white points[i] q.1) := by
      simp only [Dist.evalFl, Spec.shape]
      have h3 := h1.trans_lt h2
      have h4 : dist2Fl fl white points[i] q.1 ≤ 1 ↔ whitenedDist2 white points[i] q.1 ≤ 1 := by
        constructor <;> intro h5 <;> by_contra h6 <;> push Not at h6 <;>
          rcases abs_cases (dist2Fl fl white points[i] q.1 - whitenedDist2 white points[i] q.1) with c | c <;>
          rcases abs_cases (whitenedDist2 white points[i] q.1 - 1) with c' | c' <;> linarith
      simp only [h4]
    rw [e]
    refine ⟨by simp, ?_⟩
    rw [abs_of_nonneg]
    simp only [Spec.shape]
    split_ifs <;> norm_num
  have h1 := density_approx hu hu0 hn .box white data weights points[i] (G := 1) (by norm_num)
    (T := fun y => Spec.shape .box (whitenedDist2 white points[i] y))
    (t' := fun y => Spec.shape .box (whitenedDist2 white points[i] y)) hk
  have e1 : (densityFl fl .box white norm data points weights none)[i]
      = fl (evaluateOneFl fl .box white data weights points[i] / norm) := by
    simp [densityFl, evaluateFl]
  rw [e1, ← zip_kernelSum hW]
  refine h1.err.trans (le_of_eq ?_)
  rw [one_mul]
  congr 3
  refine List.map_congr_left fun q hq => ?_
  rw [abs_of_nonneg (hw q.2 (List.of_mem_zip hq).2)]

/-! ### Signs and order -/

lemma evalFl_nonneg (hu : Accurate u fl) (hu1 : u ≤ 1) (D : Dist) (y : ℝ) : 0 ≤ D.evalFl fl y := by
  cases D with
  | gaussian => exact hu.nonneg hu1 (Real.exp_pos _).le
  | box => simp only [Dist.evalFl]; split_ifs <;> norm_num
  | parabola => exact le_max_right _ _
  | triweight => exact le_max_right _ _

lemma evaluateOneFl_nonneg (hu : Accurate u fl) (hu1 : u ≤ 1) (D : Dist) (white : Matrix (Fin m) (Fin m) ℝ)
    (data : List (Fin m → ℝ)) {weights : List ℝ} (hw : ∀ w ∈ weights, 0 ≤ w) (x : Fin m → ℝ) :
    0 ≤ evaluateOneFl fl D white data weights x :=
  foldl_nonneg hu hu1 _ _ le_rfl fun q hq =>
    hu.nonneg hu1 (mul_nonneg (evalFl_nonneg hu hu1 D _) (hw q.2 (List.of_mem_zip hq).2))

/-- All entries are nonnegative and there are `n` of them. -/
def AllNonneg (n : ℕ) (l : List ℝ) : Prop := l.length = n ∧ ∀ v ∈ l, 0 ≤ v

lemma reflectAddFl_nonneg (hu : Accurate u fl) (hu1 : u ≤ 1) (D : Dist) (white : Matrix (Fin m) (Fin m) ℝ)
    (data points : List (Fin m → ℝ)) {weights : List ℝ} (hw : ∀ w ∈ weights, 0 ≤ w) (i : Fin m) {result : List ℝ}
    (h : AllNonneg points.length result) (r : Option ℝ) :
    AllNonneg points.length (reflectAddFl fl D white data points weights i result r) := by
  cases r with
  | none => exact h
  | some loc =>
    refine ⟨by simp [reflectAddFl, evaluateFl, h.1], fun v hv => ?_⟩
    simp only [reflectAddFl, evaluateFl] at hv
    obtain ⟨k, hk, rfl⟩ := List.getElem_of_mem hv
    rw [List.getElem_zipWith]
    refine hu.nonneg hu1 (add_nonneg (h.2 _ (List.getElem_mem _)) ?_)
    rw [List.getElem_map]
    exact evaluateOneFl_nonneg hu hu1 D white _ hw _

lemma reflectStepFl_nonneg (hu : Accurate u fl) (hu1 : u ≤ 1) (D : Dist) (white : Matrix (Fin m) (Fin m) ℝ)
    (data points : List (Fin m → ℝ)) {weights : List ℝ} (hw : ∀ w ∈ weights, 0 ≤ w) (i : Fin m) {result : List ℝ}
    (h : AllNonneg points.length result) (r : ReflRow) :
    AllNonneg points.length (reflectStepFl fl D white data points weights result i r) := by
  cases r with
  | none => exact h
  | some r =>
    have h1 := reflectAddFl_nonneg hu hu1 D white data points hw i
      (reflectAddFl_nonneg hu hu1 D white data points hw i h r.1) r.2
    refine ⟨by simp [reflectStepFl, h1.1], fun v hv => ?_⟩
    simp only [reflectStepFl] at hv
    obtain ⟨k, hk, rfl⟩ := List.getElem_of_mem hv
    rw [List.getElem_zipWith]
    split_ifs
    · exact le_rfl
    · exact h1.2 _ (List.getElem_mem _)

/-- **C135 (sign).** The computed densities are nonnegative, one for each point, with and without reflection, for all
data, nonnegative weights and kernels, whatever the rounding errors. -/
theorem C135_nonneg (hu : Accurate u fl) (hu1 : u ≤ 1) (D : Dist) (white : Matrix (Fin m) (Fin m) ℝ) {norm : ℝ}
    (hn : 0 ≤ norm) (data points : List (Fin m → ℝ)) {weights : List ℝ} (hw : ∀ w ∈ weights, 0 ≤ w)
    (reflect : Option (Fin m → ReflRow)) :
    (densityFl fl D white norm data points weights reflect).length = points.length ∧
    ∀ v ∈ densityFl fl D white norm data points weights reflect, 0 ≤ v := by
  have h0 : AllNonneg points.length (evaluateFl fl D white data points weights) := by
    refine ⟨by simp [evaluateFl], fun v hv => ?_⟩
    obtain ⟨x, -, rfl⟩ := List.mem_map.mp hv
    exact evaluateOneFl_nonneg hu hu1 D white data hw x
  have h1 : ∀ (rows : Fin m → ReflRow) (l : List (Fin m)) {res : List ℝ}, AllNonneg points.length res →
      AllNonneg points.length (l.foldl (fun res i => reflectStepFl fl D white data points weights res i (rows i)) res) := by
    intro rows l
    induction l with
    | nil => intro res h; exact h
    | cons i l ih => intro res h; exact ih (reflectStepFl_nonneg hu hu1 D white data points hw i h (rows i))
  have h2 : ∀ {res : List ℝ}, AllNonneg points.length res → AllNonneg points.length (res.map fun v => fl (v / norm)) := by
    intro res h
    refine ⟨by simp [h.1], fun v hv => ?_⟩
    obtain ⟨y, hy, rfl⟩ := List.mem_map.mp hv
    exact hu.nonneg hu1 (div_nonneg (h.2 y hy) hn)
  cases reflect with
  | none => exact h2 h0
  | some rows => exact h2 (h1 rows _ h0)

lemma foldl_bounds {α : Type*} (hu : Accurate u fl) (hu0 : 0 ≤ u) (hu1 : u ≤ 1) (t : α → ℝ) (l : List α) :
    ∀ {acc : ℝ}, 0 ≤ acc → (∀ i ∈ l, 0 ≤ t i) →
      (1 - u) ^ l.length * (acc + (l.map t).sum) ≤ l.foldl (fun acc i => fl (acc + t i)) acc ∧
      l.foldl (fun acc i => fl (acc + t i)) acc ≤ (1 + u) ^ l.length * (acc + (l.map t).sum) := by
  induction l with
  | nil => intro acc h _; simp
  | cons i l ih =>
    intro acc h ht
    have hx : 0 ≤ acc + t i := add_nonneg h (ht i (by simp))
    have hsum : 0 ≤ (l.map t).sum := List.sum_nonneg fun y hy => by
      obtain ⟨j, hj, rfl⟩ := List.mem_map.mp hy; exact ht j (by simp [hj])
    obtain ⟨a, b⟩ := ih (hu.nonneg hu1 hx) fun j hj => ht j (by simp [hj])
    have c := hu (acc + t i)
    rw [abs_of_nonneg hx, abs_le] at c
    simp only [List.foldl_cons, List.length_cons, List.map_cons, List.sum_cons]
    constructor
    · refine le_trans ?_ a
      rw [pow_succ, mul_assoc]
      refine mul_le_mul_of_nonneg_left ?_ (pow_nonneg (by linarith) _)
      nlinarith
    · refine b.trans ?_
      rw [pow_succ, mul_assoc]
      refine mul_le_mul_of_nonneg_left ?_ (pow_nonneg (by linarith) _)
      nlinarith

/-- **C135 (order).** Giving the same weighted data in another order changes no density by more than the factor
`((1 + u) / (1 - u)) ^ (n + 1)`, for `n` data points. -/
theorem C135_order (hu : Accurate u fl) (hu0 : 0 ≤ u) (hu1 : u ≤ 1) (D : Dist) (white : Matrix (Fin m) (Fin m) ℝ)
    {norm : ℝ} (hn : 0 < norm) {data data' : List (Fin m → ℝ)} (points : List (Fin m → ℝ)) {weights weights' : List ℝ}
    (hw : ∀ w ∈ weights, 0 ≤ w) (hperm : (data.zip weights).Perm (data'.zip weights'))
    (i : ℕ) (h : i < (densityFl fl D white norm data points weights none).length)
    (h' : i < (densityFl fl D white norm data' points weights' none).length) :
    (1 - u) ^ ((data.zip weights).length + 1) * (densityFl fl D white norm data points weights none)[i]
      ≤ (1 + u) ^ ((data.zip weights).length + 1) * (densityFl fl D white norm data' points weights' none)[i] := by
  have hi : i < points.length := by simpa [densityFl, evaluateFl] using h
  have e : ∀ (data : List (Fin m → ℝ)) (weights : List ℝ)
      (h : i < (densityFl fl D white norm data points weights none).length),
      (densityFl fl D white norm data points weights none)[i]
        = fl (evaluateOneFl fl D white data weights points[i] / norm) := by
    intro data weights h; simp [densityFl, evaluateFl]
  rw [e, e]
  set t : (Fin m → ℝ) × ℝ → ℝ := fun q => fl (D.evalFl fl (dist2Fl fl white points[i] q.1) * q.2) with ht
  have hpos : ∀ q ∈ data.zip weights, 0 ≤ t q := fun q hq =>
    hu.nonneg hu1 (mul_nonneg (evalFl_nonneg hu hu1 D _) (hw q.2 (List.of_mem_zip hq).2))
  have hpos' : ∀ q ∈ data'.zip weights', 0 ≤ t q := fun q hq => hpos q (hperm.mem_iff.mpr hq)
  obtain ⟨-, b⟩ := foldl_bounds hu hu0 hu1 t (data.zip weights) le_rfl hpos
  obtain ⟨a, -⟩ := foldl_bounds hu hu0 hu1 t (data'.zip weights') le_rfl hpos'
  have hsum : ((data'.zip weights').map t).sum = ((data.zip weights).map t).sum := (hperm.map t).symm.sum_eq
  rw [zero_add] at a b
  rw [hsum, ← hperm.length_eq] at a
  have hS : 0 ≤ ((data.zip weights).map t).sum := List.sum_nonneg fun y hy => by
    obtain ⟨j, hj, rfl⟩ := List.mem_map.mp hy; exact hpos j hj
  set n := (data.zip weights).length
  set S := ((data.zip weights).map t).sum
  change (1 - u) ^ (n + 1) * fl ((data.zip weights).foldl (fun acc q => fl (acc + t q)) 0 / norm)
    ≤ (1 + u) ^ (n + 1) * fl ((data'.zip weights').foldl (fun acc q => fl (acc + t q)) 0 / norm)
  set F := (data.zip weights).foldl (fun acc q => fl (acc + t q)) 0
  set F' := (data'.zip weights').foldl (fun acc q => fl (acc + t q)) 0
  have p1 : 0 ≤ (1 - u) ^ n := pow_nonneg (by linarith) _
  have p2 : 0 ≤ (1 + u) ^ n := pow_nonneg (by linarith) _
  have hF : 0 ≤ F := foldl_nonneg hu hu1 t _ le_rfl hpos
  have hF' : 0 ≤ F' := foldl_nonneg hu hu1 t _ le_rfl hpos'
  have c1 : fl (F / norm) ≤ (1 + u) * (F / norm) := by
    have := (abs_le.mp (hu (F / norm))).2
    rw [abs_of_nonneg (div_nonneg hF hn.le)] at this; linarith
  have c2 : (1 - u) * (F' / norm) ≤ fl (F' / norm) := by
    have := (abs_le.mp (hu (F' / norm))).1
    rw [abs_of_nonneg (div_nonneg hF' hn.le)] at this; linarith
  calc (1 - u) ^ (n + 1) * fl (F / norm) ≤ (1 - u) ^ (n + 1) * ((1 + u) * (F / norm)) :=
        mul_le_mul_of_nonneg_left c1 (pow_nonneg (by linarith) _)
    _ ≤ (1 - u) ^ (n + 1) * ((1 + u) * ((1 + u) ^ n * S / norm)) := by
        refine mul_le_mul_of_nonneg_left ?_ (pow_nonneg (by linarith) _)
        refine mul_le_mul_of_nonneg_left ?_ (by linarith)
        gcongr
    _ = (1 + u) ^ (n + 1) * ((1 - u) * ((1 - u) ^ n * S / norm)) := by ring
    _ ≤ (1 + u) ^ (n + 1) * ((1 - u) * (F' / norm)) := by
        refine mul_le_mul_of_nonneg_left ?_ (pow_nonneg (by linarith) _)
        refine mul_le_mul_of_nonneg_left ?_ (by linarith)
        gcongr
    _ ≤ (1 + u) ^ (n + 1) * fl (F' / norm) := mul_le_mul_of_nonneg_left c2 (pow_nonneg (by linarith) _)

/-! ### Examples -/

/-- Rounding to nearest with 53 digits exists, and satisfies the hypotheses of the theorems with `u = 2⁻⁵³`. -/
example : ∃ fl, Nearest 53 fl ∧ Accurate ((1 / 2) ^ 53) fl := by
  obtain ⟨fl, h⟩ := exists_nearest (p := 53) (by norm_num)
  exact ⟨fl, h, h.accurate (by norm_num)⟩

/-- The identity is a root of the inverse of the identity; two data points of different weights. -/
example (hu : Accurate u fl) (hu1 : u ≤ 1) :
    ∀ v ∈ densityFl fl .gaussian (1 : Matrix (Fin 1) (Fin 1) ℝ) 1 [![0], ![1]] [![1 / 3]] [1, 2]
      (some fun _ => some (some 0, none)), 0 ≤ v :=
  (C135_nonneg hu hu1 _ _ zero_le_one _ _ (by simp) _).2

example : ((1 : Matrix (Fin 1) (Fin 1) ℝ))ᵀ * 1 = (1 : Matrix (Fin 1) (Fin 1) ℝ)⁻¹ := by simp

end Kalepy
