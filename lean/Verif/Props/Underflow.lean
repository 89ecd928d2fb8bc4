import Mathlib.Analysis.SpecialFunctions.Log.Basic
import Mathlib.Analysis.Complex.ExponentialBounds
import Verif.Proofs.Underflow
import Verif.Props.Rounding

/-!
# C156: the density in arithmetic with gradual underflow

C135 is about roundings with a bounded relative error.  Real floating point numbers have a smallest exponent: numbers below
the smallest normal number lose digits, and the exponentials of distant points vanish.  The model is the same as in C135.
-/

namespace Kalepy

open Matrix Spec

/-! ### Specification -/

/-- The size of the numbers that occur in the computation of the distance from `x` to `d`, if those below `r` count as `r`. -/
noncomputable def Spec.distSizeFrom {m : ℕ} (r : ℝ) (white : Matrix (Fin m) (Fin m) ℝ) (x d : Fin m → ℝ) : ℝ :=
  ∑ k, ((∑ l, (|white k l| * |x l| + r)) + ∑ l, (|white k l| * |d l| + r)) ^ 2

/-- The error bound of C156 at one point: as in C135, but with the number `r²` added to the weights and to the result. -/
noncomputable def Spec.errorBoundFrom {m : ℕ} (u r norm : ℝ) (D : Dist) (white : Matrix (Fin m) (Fin m) ℝ)
    (wdata : List ((Fin m → ℝ) × ℝ)) (x : Fin m → ℝ) : ℝ :=
  ((1 + 2 * u) ^ (9 * m + wdata.length + 22) - 1)
    * ((wdata.map fun q => (q.2 + r ^ 2) * (1 + Spec.distSizeFrom r white x q.1) ^ Spec.degree D).sum / norm + r ^ 2)

/-! ### Proofs -/

variable {m : ℕ} {fl : ℝ → ℝ} {u r : ℝ}

lemma whiten_approxFrom (hu : AccurateFrom u (r ^ 2) fl) (hu0 : 0 ≤ u) (hr0 : 0 ≤ r) (hr1 : r ≤ 1)
    (white : Matrix (Fin m) (Fin m) ℝ) (k : Fin m) (x : Fin m → ℝ) :
    Approx ((1 + 2 * u) ^ (m + 1)) (∑ l, (|white k l| * |x l| + r)) (whitenFl fl white k x) (∑ l, white k l * x l) := by
  have hr2 : r ^ 2 ≤ r := by nlinarith
  have h : ∀ l ∈ List.finRange m, Approx (1 * (1 + 2 * u)) (|white k l| * |x l| + r) (fl (white k l * x l))
      (white k l * x l) ∧ r ^ 2 ≤ |white k l| * |x l| + r := by
    intro l _
    have h0 : 0 ≤ |white k l| * |x l| := by positivity
    rw [← abs_mul] at h0 ⊢
    exact ⟨((Approx.exact _).le_size le_rfl (by linarith)).roundFrom hu hu0 le_rfl (by linarith), by linarith⟩
  have := Approx.foldlFrom_zero hu hu0 (by linarith) (List.finRange m) h
  rw [List.length_finRange, one_mul, ← pow_succ'] at this
  rw [Fin.sum_univ_def, Fin.sum_univ_def]
  exact this

lemma size_le_sum (hr0 : 0 ≤ r) (white : Matrix (Fin m) (Fin m) ℝ) (k : Fin m) (x : Fin m → ℝ) :
    r ≤ ∑ l, (|white k l| * |x l| + r) := by
  refine le_trans ?_ (Finset.single_le_sum (f := fun l => |white k l| * |x l| + r) (fun l _ => by positivity)
    (Finset.mem_univ k))
  have : 0 ≤ |white k k| * |x k| := by positivity
  linarith

lemma dist2_approxFrom (hu : AccurateFrom u (r ^ 2) fl) (hu0 : 0 ≤ u) (hr0 : 0 ≤ r) (hr1 : r ≤ 1)
    (white : Matrix (Fin m) (Fin m) ℝ) (x d : Fin m → ℝ) :
    Approx ((1 + 2 * u) ^ (3 * m + 5)) (Spec.distSizeFrom r white x d) (dist2Fl fl white x d)
      (whitenedDist2 white x d) := by
  have hr2 : r ^ 2 ≤ r := by nlinarith
  have hb : (1 : ℝ) ≤ 1 + 2 * u := by linarith
  have h : ∀ k ∈ List.finRange m, Approx ((1 + 2 * u) ^ (2 * m + 5))
      (((∑ l, (|white k l| * |x l| + r)) + ∑ l, (|white k l| * |d l| + r)) ^ 2)
      (fl (fl (whitenFl fl white k x - whitenFl fl white k d) * fl (whitenFl fl white k x - whitenFl fl white k d)))
      (((∑ l, white k l * x l) - (∑ l, white k l * d l)) ^ 2) ∧
      r ^ 2 ≤ ((∑ l, (|white k l| * |x l| + r)) + ∑ l, (|white k l| * |d l| + r)) ^ 2 := by
    intro k _
    have s1 := size_le_sum hr0 white k x
    have s2 := size_le_sum hr0 white k d
    have s3 : r ^ 2 ≤ ((∑ l, (|white k l| * |x l| + r)) + ∑ l, (|white k l| * |d l| + r)) ^ 2 :=
      pow_le_pow_left₀ hr0 (by linarith) 2
    refine ⟨?_, s3⟩
    have h1 := ((whiten_approxFrom hu hu0 hr0 hr1 white k x).sub (whiten_approxFrom hu hu0 hr0 hr1 white k d)).roundFrom hu hu0
      (one_le_pow₀ hb) (by linarith)
    have h2 := (h1.mul h1).roundFrom hu hu0 (by rw [← pow_succ]; exact one_le_mul_of_one_le_of_one_le (one_le_pow₀ hb) (one_le_pow₀ hb))
      (by rw [← pow_two]; exact s3)
    have e : (1 + 2 * u) ^ (m + 1) * (1 + 2 * u) * ((1 + 2 * u) ^ (m + 1) * (1 + 2 * u)) * (1 + 2 * u)
      = (1 + 2 * u) ^ (2 * m + 5) := by ring
    rw [e] at h2
    rw [pow_two, pow_two]
    exact h2
  have := Approx.foldlFrom_zero hu hu0 (one_le_pow₀ hb) (List.finRange m) h
  rw [List.length_finRange, ← pow_add, show 2 * m + 5 + m = 3 * m + 5 by ring] at this
  rw [Spec.distSizeFrom, whitenedDist2, Fin.sum_univ_def, Fin.sum_univ_def]
  exact this

lemma distSizeFrom_nonneg (r : ℝ) (white : Matrix (Fin m) (Fin m) ℝ) (x d : Fin m → ℝ) : 0 ≤ Spec.distSizeFrom r white x d :=
  Finset.sum_nonneg fun _ _ => sq_nonneg _

lemma foldlFrom_nonneg {α : Type*} {t : ℝ} (hu : AccurateFrom u t fl) (s : α → ℝ) (l : List α) :
    ∀ {acc : ℝ}, 0 ≤ acc → (∀ i ∈ l, 0 ≤ s i) → 0 ≤ l.foldl (fun acc i => fl (acc + s i)) acc := by
  induction l with
  | nil => intro acc h _; exact h
  | cons i l ih =>
    intro acc h ht
    exact ih (hu.nonneg _ (add_nonneg h (ht i (by simp)))) fun j hj => ht j (by simp [hj])

lemma dist2FlFrom_nonneg {t : ℝ} (hu : AccurateFrom u t fl) (white : Matrix (Fin m) (Fin m) ℝ) (x d : Fin m → ℝ) :
    0 ≤ dist2Fl fl white x d :=
  foldlFrom_nonneg hu _ _ le_rfl fun _ _ => hu.nonneg _ (mul_self_nonneg _)

lemma kernel_approxFrom (hu : AccurateFrom u (r ^ 2) fl) (hu0 : 0 ≤ u) (hr0 : 0 ≤ r) (hr1 : r ≤ 1) {D : Dist} (hD : D ≠ .box)
    (white : Matrix (Fin m) (Fin m) ℝ) (x d : Fin m → ℝ) :
    Approx ((1 + 2 * u) ^ (9 * m + 20)) ((1 + Spec.distSizeFrom r white x d) ^ Spec.degree D)
      (D.evalFl fl (dist2Fl fl white x d)) (Spec.shape D (whitenedDist2 white x d)) := by
  have h := dist2_approxFrom hu hu0 hr0 hr1 white x d
  have hS := distSizeFrom_nonneg r white x d
  have hy := dist2FlFrom_nonneg hu white x d
  have hy' : 0 ≤ whitenedDist2 white x d := Finset.sum_nonneg fun _ _ => sq_nonneg _
  have ht : r ^ 2 ≤ 1 := pow_le_one₀ hr0 hr1
  set S := Spec.distSizeFrom r white x d
  set y := dist2Fl fl white x d
  set y' := whitenedDist2 white x d
  have hb : 1 ≤ 1 + 2 * u := by linarith
  have hbp : ∀ n : ℕ, 1 ≤ (1 + 2 * u) ^ n := fun n => one_le_pow₀ hb
  have h1 : Approx ((1 + 2 * u) ^ (3 * m + 6)) (1 + S) (fl (1 - y)) (1 - y') := by
    have e : Approx ((1 + 2 * u) ^ (3 * m + 5)) 1 1 1 := by
      have := (Approx.exact 1).le (hbp (3 * m + 5))
      rwa [abs_one] at this
    have := (e.sub h).roundFrom hu hu0 (hbp _) (by linarith)
    rwa [← pow_succ] at this
  cases D with
  | box => exact absurd rfl hD
  | gaussian =>
    have h2 : Approx ((1 + 2 * u) ^ (3 * m + 5)) (S * (1 / 2)) (-y / 2) (-y' / 2) := by
      have := h.neg.mul (Approx.exact (1 / 2))
      rw [mul_one, abs_of_pos (by norm_num : (0 : ℝ) < 1 / 2)] at this
      rwa [show -y * (1 / 2) = -y / 2 by ring, show -y' * (1 / 2) = -y' / 2 by ring] at this
    have h3 := (h2.le_size (T := 1 + S) (hbp _) (by linarith)).roundFrom hu hu0 (hbp _) (by linarith)
    rw [← pow_succ] at h3
    have hle : fl (-y / 2) ≤ 0 := hu.nonpos _ (by linarith)
    have h4 : Approx ((1 + 2 * u) ^ (3 * m + 5 + 1)) (1 + S) (Real.exp (fl (-y / 2))) (Real.exp (-y' / 2)) := by
      refine ⟨(abs_exp_sub_exp_le hle (by linarith)).trans h3.err, ?_⟩
      rw [abs_of_pos (Real.exp_pos _)]
      have : Real.exp (-y' / 2) ≤ 1 := Real.exp_le_one_iff.mpr (by linarith)
      linarith
    have h5 := h4.roundFrom hu hu0 (hbp _) (by linarith)
    rw [← pow_succ] at h5
    simp only [Dist.evalFl, Spec.shape, Spec.degree, pow_one]
    exact h5.le (pow_le_pow_right₀ hb (by omega))
  | parabola =>
    simp only [Dist.evalFl, Spec.degree, pow_one, shape_parabola]
    exact h1.max_zero.le (pow_le_pow_right₀ hb (by omega))
  | triweight =>
    have hS1 : 1 ≤ (1 + S) * (1 + S) := one_le_mul_of_one_le_of_one_le (by linarith) (by linarith)
    have h2 := (h1.mul h1).roundFrom hu hu0 (one_le_mul_of_one_le_of_one_le (hbp _) (hbp _)) (by linarith)
    rw [← pow_add, ← pow_succ] at h2
    have hS2 : 1 ≤ (1 + S) * ((1 + S) * (1 + S)) := one_le_mul_of_one_le_of_one_le (by linarith) hS1
    have h3 := (h1.mul h2).roundFrom hu hu0 (one_le_mul_of_one_le_of_one_le (hbp _) (hbp _)) (by linarith)
    rw [← pow_add, ← pow_succ] at h3
    simp only [Dist.evalFl, Spec.degree, shape_triweight]
    have e : (1 + S) ^ 3 = (1 + S) * ((1 + S) * (1 + S)) := by ring
    rw [e]
    exact h3.max_zero.le (pow_le_pow_right₀ hb (by omega))

/-- The rounded sum over the data and the rounded quotient. -/
lemma density_approxFrom (hu : AccurateFrom u (r ^ 2) fl) (hu0 : 0 ≤ u) {norm : ℝ} (hn : 0 < norm) (D : Dist)
    (white : Matrix (Fin m) (Fin m) ℝ) (data : List (Fin m → ℝ)) (weights : List ℝ) (x : Fin m → ℝ) {G : ℝ} (hG : 1 ≤ G)
    {T t' : (Fin m → ℝ) → ℝ} (hT : ∀ y, 1 ≤ T y)
    (h : ∀ q ∈ data.zip weights, Approx G (T q.1) (D.evalFl fl (dist2Fl fl white x q.1)) (t' q.1)) :
    Approx (G * (1 + 2 * u) ^ ((data.zip weights).length + 2))
      (((data.zip weights).map fun q => T q.1 * (|q.2| + r ^ 2)).sum / norm + r ^ 2)
      (fl (evaluateOneFl fl D white data weights x / norm)) (((data.zip weights).map fun q => t' q.1 * q.2).sum / norm) := by
  have hr2 : 0 ≤ r ^ 2 := sq_nonneg r
  have hb : (1 : ℝ) ≤ 1 + 2 * u := by linarith
  have h1 : ∀ q ∈ data.zip weights, Approx (G * (1 + 2 * u)) (T q.1 * (|q.2| + r ^ 2))
      (fl (D.evalFl fl (dist2Fl fl white x q.1) * q.2)) (t' q.1 * q.2) ∧ r ^ 2 ≤ T q.1 * (|q.2| + r ^ 2) := by
    intro q hq
    have hs : r ^ 2 ≤ T q.1 * (|q.2| + r ^ 2) := by nlinarith [hT q.1, abs_nonneg q.2]
    have := ((h q hq).mul ((Approx.exact q.2).le_size (T := |q.2| + r ^ 2) le_rfl (by linarith))).roundFrom hu hu0
      (by linarith) hs
    rw [mul_one] at this
    exact ⟨this, hs⟩
  have h2 := Approx.foldlFrom_zero hu hu0 (one_le_mul_of_one_le_of_one_le hG hb) (data.zip weights) h1
  have hG2 : 1 ≤ G * (1 + 2 * u) * (1 + 2 * u) ^ (data.zip weights).length :=
    one_le_mul_of_one_le_of_one_le (one_le_mul_of_one_le_of_one_le hG hb) (one_le_pow₀ hb)
  have h3 := h2.mul (Approx.exact norm⁻¹)
  rw [mul_one, abs_of_pos (inv_pos.mpr hn), ← div_eq_mul_inv, ← div_eq_mul_inv, ← div_eq_mul_inv] at h3
  have h4 := (h3.le_size (T := ((data.zip weights).map fun q => T q.1 * (|q.2| + r ^ 2)).sum / norm + r ^ 2) hG2
    (by linarith)).roundFrom hu hu0 hG2 (by linarith [h3.nonneg])
  have e : G * (1 + 2 * u) ^ ((data.zip weights).length + 2)
      = G * (1 + 2 * u) * (1 + 2 * u) ^ (data.zip weights).length * (1 + 2 * u) := by ring
  rw [e]
  exact h4

/-- **C156 (accuracy).** Computed with roundings of relative error at most `u` for numbers above `r²` and of the error of `r²`
for the numbers below, the density of a Gaussian, parabolic or triweight kernel differs from the weighted sum of kernels by at
most the stated bound, at all points, for all data and all weights. -/
theorem C156_accuracy (hu : AccurateFrom u (r ^ 2) fl) (hu0 : 0 ≤ u) (hr0 : 0 ≤ r) (hr1 : r ≤ 1) {D : Dist} (hD : D ≠ .box)
    {white M : Matrix (Fin m) (Fin m) ℝ} (hW : whiteᵀ * white = M⁻¹) {norm : ℝ} (hn : 0 < norm)
    (data points : List (Fin m → ℝ)) (weights : List ℝ) (hw : ∀ w ∈ weights, 0 ≤ w)  :
    (densityFl fl D white norm data points weights none).length = points.length ∧
    ∀ i (h : i < points.length) (h' : i < (densityFl fl D white norm data points weights none).length),
      |(densityFl fl D white norm data points weights none)[i] - Spec.kernelSum D M (data.zip weights) points[i] / norm|
        ≤ Spec.errorBoundFrom u r norm D white (data.zip weights) points[i] := by
  refine ⟨by simp [densityFl, evaluateFl], fun i h h' => ?_⟩
  have h1 := density_approxFrom hu hu0 hn D white data weights points[i] (G := (1 + 2 * u) ^ (9 * m + 20))
    (one_le_pow₀ (by linarith))
    (T := fun y => (1 + Spec.distSizeFrom r white points[i] y) ^ Spec.degree D)
    (t' := fun y => Spec.shape D (whitenedDist2 white points[i] y))
    (fun y => one_le_pow₀ (by linarith [distSizeFrom_nonneg r white points[i] y]))
    (fun q _ => kernel_approxFrom hu hu0 hr0 hr1 hD white points[i] q.1)
  have e1 : (densityFl fl D white norm data points weights none)[i]
      = fl (evaluateOneFl fl D white data weights points[i] / norm) := by
    simp [densityFl, evaluateFl]
  rw [e1, ← zip_kernelSum hW]
  refine h1.err.trans (le_of_eq ?_)
  have e2 : (data.zip weights).map (fun q => (1 + Spec.distSizeFrom r white points[i] q.1) ^ Spec.degree D * (|q.2| + r ^ 2))
      = (data.zip weights).map fun q => (q.2 + r ^ 2) * (1 + Spec.distSizeFrom r white points[i] q.1) ^ Spec.degree D := by
    refine List.map_congr_left fun q hq => ?_
    rw [abs_of_nonneg (hw q.2 (List.of_mem_zip hq).2), mul_comm]
  rw [Spec.errorBoundFrom, ← pow_add, e2,
    show 9 * m + 20 + ((data.zip weights).length + 2) = 9 * m + (data.zip weights).length + 22 by ring]

/-- **C156 (accuracy), double precision.** With rounding to nearest of the numbers of IEEE 754 double precision, subnormal
numbers included (53 digits, smallest exponent -1074, no overflow), the error is at most `N / 2^51` of the sum of the weights
times the sizes plus `2^-1022`, where numbers below `2^-511` count as `2^-511` in the sizes. -/
theorem C156_double (hfl : NearestFrom 53 (-1074) fl) {D : Dist} (hD : D ≠ .box)
    {white M : Matrix (Fin m) (Fin m) ℝ} (hW : whiteᵀ * white = M⁻¹) {norm : ℝ} (hn : 0 < norm)
    (data points : List (Fin m → ℝ)) (weights : List ℝ) (hw : ∀ w ∈ weights, 0 ≤ w)
    (hlen : weights.length = data.length) (hN : 9 * m + data.length + 22 ≤ 2 ^ 51) :
    ∀ i (h : i < points.length) (h' : i < (densityFl fl D white norm data points weights none).length),
      |(densityFl fl D white norm data points weights none)[i] - Spec.kernelSum D M (data.zip weights) points[i] / norm|
        ≤ (9 * m + data.length + 22 : ℕ) / 2 ^ 51
          * (((data.zip weights).map fun q => (q.2 + (1 / 2) ^ 1022)
              * (1 + Spec.distSizeFrom ((1 / 2) ^ 511) white points[i] q.1) ^ Spec.degree D).sum / norm + (1 / 2) ^ 1022) := by
  intro i h h'
  have hu := hfl.accurate (by norm_num)
  have e0 : (2 : ℝ) ^ (53 - 1) * 2 ^ (-1074 : ℤ) = ((1 / 2) ^ 511) ^ 2 := by
    rw [← pow_mul, one_div, inv_pow, ← zpow_natCast (2 : ℝ) (511 * 2), ← _root_.zpow_neg, ← zpow_natCast (2 : ℝ) (53 - 1),
      ← zpow_add₀ (by norm_num)]
    norm_num
  rw [e0] at hu
  refine ((C156_accuracy hu (by positivity) (by positivity) (pow_le_one₀ (by norm_num) (by norm_num)) hD hW hn data points
    weights hw).2 i h h').trans ?_
  rw [Spec.errorBoundFrom, ← pow_mul]
  have e : (data.zip weights).length = data.length := by simp [hlen]
  rw [e]
  refine mul_le_mul_of_nonneg_right ?_ ?_
  · have hN' : ((9 * m + data.length + 22 : ℕ) : ℝ) ≤ 2 ^ 51 := by exact_mod_cast hN
    refine (pow_sub_one_le (by positivity) ?_).trans (le_of_eq ?_)
    · have : ((9 * m + data.length + 22 : ℕ) : ℝ) * (2 * (1 / 2) ^ 53) ≤ 2 ^ 51 * (2 * (1 / 2) ^ 53) := by gcongr
      refine this.trans ?_
      norm_num
    · rw [show (2 : ℝ) * (1 / 2) ^ 53 = 1 / (2 * 2 ^ 51) by norm_num]
      field_simp
  · refine add_nonneg (div_nonneg (List.sum_nonneg fun y hy => ?_) hn.le) (by positivity)
    obtain ⟨q, hq, rfl⟩ := List.mem_map.mp hy
    exact mul_nonneg (add_nonneg (hw q.2 (List.of_mem_zip hq).2) (by positivity))
      (pow_nonneg (add_nonneg zero_le_one (distSizeFrom_nonneg _ _ _ _)) _)

/-! ### Signs -/

lemma evalFlFrom_nonneg {t : ℝ} (hu : AccurateFrom u t fl) (D : Dist) (y : ℝ) : 0 ≤ D.evalFl fl y := by
  cases D with
  | gaussian => exact hu.nonneg _ (Real.exp_pos _).le
  | box => simp only [Dist.evalFl]; split_ifs <;> norm_num
  | parabola => exact le_max_right _ _
  | triweight => exact le_max_right _ _

lemma evaluateFrom_nonneg {t : ℝ} (hu : AccurateFrom u t fl) (D : Dist) (white : Matrix (Fin m) (Fin m) ℝ)
    (data points : List (Fin m → ℝ)) {weights : List ℝ} (hw : ∀ w ∈ weights, 0 ≤ w) :
    AllNonneg points.length (evaluateFl fl D white data points weights) := by
  refine ⟨by simp [evaluateFl], fun v hv => ?_⟩
  obtain ⟨x, -, rfl⟩ := List.mem_map.mp hv
  exact foldlFrom_nonneg hu _ _ le_rfl fun q hq =>
    hu.nonneg _ (mul_nonneg (evalFlFrom_nonneg hu D _) (hw q.2 (List.of_mem_zip hq).2))

lemma reflectAddFrom_nonneg {t : ℝ} (hu : AccurateFrom u t fl) (D : Dist) (white : Matrix (Fin m) (Fin m) ℝ)
    (data points : List (Fin m → ℝ)) {weights : List ℝ} (hw : ∀ w ∈ weights, 0 ≤ w) (i : Fin m) {result : List ℝ}
    (h : AllNonneg points.length result) (r : Option ℝ) :
    AllNonneg points.length (reflectAddFl fl D white data points weights i result r) := by
  cases r with
  | none => exact h
  | some loc =>
    have h1 := evaluateFrom_nonneg hu D white (data.map fun x => Function.update x i (fl (fl (2 * loc) - x i))) points hw
    refine ⟨by simp [reflectAddFl, h1.1, h.1], fun v hv => ?_⟩
    simp only [reflectAddFl] at hv
    obtain ⟨k, hk, rfl⟩ := List.getElem_of_mem hv
    rw [List.getElem_zipWith]
    exact hu.nonneg _ (add_nonneg (h.2 _ (List.getElem_mem _)) (h1.2 _ (List.getElem_mem _)))

/-- **C156 (sign).** The computed densities are nonnegative, one for each point, with and without reflection, for all data,
nonnegative weights and kernels, whatever the rounding errors and also if numbers underflow. -/
theorem C156_nonneg {t : ℝ} (hu : AccurateFrom u t fl) (D : Dist) (white : Matrix (Fin m) (Fin m) ℝ) {norm : ℝ}
    (hn : 0 ≤ norm) (data points : List (Fin m → ℝ)) {weights : List ℝ} (hw : ∀ w ∈ weights, 0 ≤ w)
    (reflect : Option (Fin m → ReflRow)) :
    (densityFl fl D white norm data points weights reflect).length = points.length ∧
    ∀ v ∈ densityFl fl D white norm data points weights reflect, 0 ≤ v := by
  have h0 := evaluateFrom_nonneg hu D white data points hw
  have hs : ∀ (i : Fin m) {res : List ℝ}, AllNonneg points.length res → ∀ r : ReflRow,
      AllNonneg points.length (reflectStepFl fl D white data points weights res i r) := by
    intro i res h r
    cases r with
    | none => exact h
    | some r =>
      have h1 := reflectAddFrom_nonneg hu D white data points hw i
        (reflectAddFrom_nonneg hu D white data points hw i h r.1) r.2
      refine ⟨by simp [reflectStepFl, h1.1], fun v hv => ?_⟩
      simp only [reflectStepFl] at hv
      obtain ⟨k, hk, rfl⟩ := List.getElem_of_mem hv
      rw [List.getElem_zipWith]
      split_ifs
      · exact le_rfl
      · exact h1.2 _ (List.getElem_mem _)
  have h1 : ∀ (rows : Fin m → ReflRow) (l : List (Fin m)) {res : List ℝ}, AllNonneg points.length res →
      AllNonneg points.length (l.foldl (fun res i => reflectStepFl fl D white data points weights res i (rows i)) res) := by
    intro rows l
    induction l with
    | nil => intro res h; exact h
    | cons i l ih => intro res h; exact ih (hs i h (rows i))
  have h2 : ∀ {res : List ℝ}, AllNonneg points.length res → AllNonneg points.length (res.map fun v => fl (v / norm)) := by
    intro res h
    refine ⟨by simp [h.1], fun v hv => ?_⟩
    obtain ⟨y, hy, rfl⟩ := List.mem_map.mp hv
    exact hu.nonneg _ (div_nonneg (h.2 y hy) hn)
  cases reflect with
  | none => exact h2 h0
  | some rows => exact h2 (h1 rows _ h0)

/-! ### Where the density vanishes -/

lemma exp_underflow {y : ℝ} (hy : 1500 ≤ y) : Real.exp (-y / 2) < 2 ^ (-1075 : ℤ) := by
  have h1 : Real.exp (-y / 2) ≤ Real.exp (-750) := Real.exp_le_exp.mpr (by linarith)
  refine h1.trans_lt ?_
  have h2 : (2 : ℝ) ^ (-1075 : ℤ) = Real.exp (-1075 * Real.log 2) := by
    rw [← Real.rpow_intCast, Real.rpow_def_of_pos (by norm_num)]
    push_cast
    ring_nf
  rw [h2]
  apply Real.exp_lt_exp.mpr
  have := Real.log_two_lt_d9
  linarith

/-- **C156 (underflow).** In double precision the density of the Gaussian kernel is computed as exactly zero at every point whose
squared distance from all data is at least 1600, in units of the bandwidth matrix, unless the rounding errors of the distance are
large; the density itself is positive everywhere. -/
theorem C156_vanishes (hfl : NearestFrom 53 (-1074) fl)
    {white M : Matrix (Fin m) (Fin m) ℝ} (hW : whiteᵀ * white = M⁻¹) {norm : ℝ} (hn : 0 < norm)
    (data : List (Fin m → ℝ)) (weights : List ℝ) (x : Fin m → ℝ)
    (hfar : ∀ y ∈ data, 1600 ≤ Spec.dist2 M (x - y))
    (herr : ∀ y ∈ data, ((1 + 2 * (1 / 2) ^ 53) ^ (3 * m + 5) - 1) * Spec.distSizeFrom ((1 / 2) ^ 511) white x y ≤ 1) :
    densityFl fl .gaussian white norm data [x] weights none = [0] ∧
    (0 < data.length → weights.length = data.length → (∀ w ∈ weights, 0 < w) →
      0 < Spec.kernelSum .gaussian M (data.zip weights) x / norm) := by
  have hu := hfl.accurate (by norm_num)
  have e0 : (2 : ℝ) ^ (53 - 1) * 2 ^ (-1074 : ℤ) = ((1 / 2) ^ 511) ^ 2 := by
    rw [← pow_mul, one_div, inv_pow, ← zpow_natCast (2 : ℝ) (511 * 2), ← _root_.zpow_neg, ← zpow_natCast (2 : ℝ) (53 - 1),
      ← zpow_add₀ (by norm_num)]
    norm_num
  rw [e0] at hu
  have hz : fl 0 = 0 := hfl.fix isFloatFrom_zero
  have hk : ∀ q ∈ data.zip weights, Dist.evalFl fl .gaussian (dist2Fl fl white x q.1) = 0 := by
    intro q hq
    have hy := (List.of_mem_zip hq).1
    have h1 := (dist2_approxFrom hu (by positivity) (by positivity) (pow_le_one₀ (by norm_num) (by norm_num)) white x q.1).err
    rw [whitened_eq hW] at h1
    have h2 := abs_le.mp (h1.trans (herr q.1 hy))
    have h3 := hfar q.1 hy
    have h4 : (1500 : ℝ) ≤ -2 * fl (-dist2Fl fl white x q.1 / 2) := by
      have : IsFloatFrom 53 (-1074) (-750 : ℝ) := ⟨-750, 0, by norm_num, by norm_num, by norm_num⟩
      have h5 := hfl.mono (show -dist2Fl fl white x q.1 / 2 ≤ -750 by linarith)
      rw [hfl.fix this] at h5
      linarith
    simp only [Dist.evalFl]
    apply hfl.underflow
    rw [abs_of_pos (Real.exp_pos _)]
    have h5 := exp_underflow h4
    rw [show -(-2 * fl (-dist2Fl fl white x q.1 / 2)) / 2 = fl (-dist2Fl fl white x q.1 / 2) by ring] at h5
    refine h5.trans_le (le_of_eq ?_)
    rw [show (-1075 : ℤ) = -1074 - 1 by norm_num, zpow_sub_one₀ (by norm_num)]
    ring
  have hfold : ∀ l : List ((Fin m → ℝ) × ℝ), (∀ q ∈ l, Dist.evalFl fl .gaussian (dist2Fl fl white x q.1) = 0) →
      l.foldl (fun acc p => fl (acc + fl (Dist.evalFl fl .gaussian (dist2Fl fl white x p.1) * p.2))) 0 = 0 := by
    intro l
    induction l with
    | nil => intro _; rfl
    | cons q l ih =>
      intro h
      rw [List.foldl_cons, h q (by simp), zero_mul, hz, add_zero, hz]
      exact ih fun q' hq' => h q' (by simp [hq'])
  refine ⟨by simp [densityFl, evaluateFl, evaluateOneFl, hfold _ hk, hz], fun h1 h2 h3 => div_pos ?_ hn⟩
  rw [Spec.kernelSum]
  refine List.sum_pos _ (fun v hv => ?_) ?_
  · obtain ⟨q, hq, rfl⟩ := List.mem_map.mp hv
    exact mul_pos (h3 q.2 (List.of_mem_zip hq).2) (by simp only [Spec.shape]; exact Real.exp_pos _)
  · intro hnil
    have := congrArg List.length hnil
    simp at this
    rcases this with h | h <;> simp [h] at h1 h2
    omega

/-! ### Examples -/

/-- Rounding to nearest with subnormal numbers exists, and the density of the standard normal kernel at 50 is computed as zero. -/
example : ∃ fl, NearestFrom 53 (-1074) fl ∧ densityFl fl .gaussian (1 : Matrix (Fin 1) (Fin 1) ℝ) 1 [![0]] [![50]] [1] none = [0] := by
  obtain ⟨fl, h⟩ := exists_nearestFrom (p := 53) (by norm_num) (-1074)
  refine ⟨fl, h, (C156_vanishes h (M := 1) (by simp) one_pos [![0]] [1] ![50] ?_ ?_).1⟩
  · intro y hy
    rw [List.mem_singleton] at hy
    subst hy
    simp [Spec.dist2, dotProduct]
    norm_num
  · intro y hy
    rw [List.mem_singleton] at hy
    subst hy
    have h1 : ((1 : ℝ) / 2) ^ 511 ≤ 1 := pow_le_one₀ (by norm_num) (by norm_num)
    have h0 : (0 : ℝ) ≤ (1 / 2) ^ 511 := by positivity
    have h2 : Spec.distSizeFrom ((1 / 2) ^ 511) (1 : Matrix (Fin 1) (Fin 1) ℝ) ![50] ![0] ≤ 2704 := by
      simp only [Spec.distSizeFrom, Finset.univ_unique, Fin.default_eq_zero, Finset.sum_singleton, one_apply_eq, abs_one, one_mul,
        cons_val_fin_one, abs_zero, zero_add]
      rw [abs_of_pos (by norm_num : (0 : ℝ) < 50)]
      nlinarith
    have h3 : ((1 + 2 * (1 / 2) ^ 53 : ℝ) ^ (3 * 1 + 5) - 1) ≤ 1 / 10 ^ 6 := by norm_num
    have h4 : (0 : ℝ) ≤ ((1 + 2 * (1 / 2) ^ 53 : ℝ) ^ (3 * 1 + 5) - 1) := by norm_num
    nlinarith

end Kalepy
