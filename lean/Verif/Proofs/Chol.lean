import Mathlib.Analysis.Matrix.PosDef
import Mathlib.Algebra.BigOperators.Fin
import Mathlib.Algebra.Order.Star.Real
import Mathlib.Tactic.Linarith
import Mathlib.Tactic.FieldSimp
import Verif.Model.LinAlg

/-!
# Correctness of the Cholesky algorithm of `Verif.Model.LinAlg` (helper lemmas)
-/

namespace Kalepy

open Matrix

lemma cholesky_succ {n : ℕ} (A : Matrix (Fin (n+1)) (Fin (n+1)) ℝ) :
    cholesky A = if A 0 0 ≤ 0 then none else
      (cholesky (Matrix.of fun i j : Fin n => A i.succ j.succ -
          (A 0 i.succ / Real.sqrt (A 0 0)) * (A 0 j.succ / Real.sqrt (A 0 0)))).map fun V =>
        Matrix.of (Fin.cons (Fin.cons (Real.sqrt (A 0 0))
          (fun j => A 0 j.succ / Real.sqrt (A 0 0))) (fun i => Fin.cons 0 (V i))) := by
  rw [cholesky]

/-- A successful factorisation of a symmetric matrix multiplies back to it. -/
theorem cholesky_mul {n : ℕ} {A U : Matrix (Fin n) (Fin n) ℝ} (hA : A.IsSymm)
    (h : cholesky A = some U) : Uᵀ * U = A := by
  induction n with
  | zero => ext i; exact i.elim0
  | succ n ih =>
    rw [cholesky_succ] at h
    split_ifs at h with h0
    rw [Option.map_eq_some_iff] at h
    obtain ⟨V, hV, rfl⟩ := h
    push Not at h0
    have hs : 0 < Real.sqrt (A 0 0) := Real.sqrt_pos.mpr h0
    have hss : Real.sqrt (A 0 0) * Real.sqrt (A 0 0) = A 0 0 := Real.mul_self_sqrt h0.le
    have hS := ih (A := Matrix.of fun i j : Fin n => A i.succ j.succ -
          (A 0 i.succ / Real.sqrt (A 0 0)) * (A 0 j.succ / Real.sqrt (A 0 0)))
        (by ext i j; simp [hA.apply j.succ i.succ, mul_comm]) hV
    ext i j
    rw [Matrix.mul_apply, Fin.sum_univ_succ]
    refine Fin.cases ?_ (fun i => ?_) i <;> refine Fin.cases ?_ (fun j => ?_) j
    · simp [hss]
    · simp; field_simp
    · simp; rw [← hA.apply 0 i.succ]; field_simp
    · have := congrFun (congrFun hS i) j
      rw [Matrix.mul_apply] at this
      simp only [Matrix.transpose_apply, Matrix.of_apply] at this
      simp [this]

/-- The factor is upper triangular. -/
theorem cholesky_upper {n : ℕ} {A U : Matrix (Fin n) (Fin n) ℝ}
    (h : cholesky A = some U) : ∀ i j, j < i → U i j = 0 := by
  induction n with
  | zero => intro i; exact i.elim0
  | succ n ih =>
    rw [cholesky_succ] at h
    split_ifs at h with h0
    rw [Option.map_eq_some_iff] at h
    obtain ⟨V, hV, rfl⟩ := h
    intro i j
    refine Fin.cases (fun h => absurd h (by simp)) (fun i hij => ?_) i
    revert hij
    refine Fin.cases (fun _ => by simp) (fun j hij => ?_) j
    simpa using ih hV i j (by simpa using hij)

/-- The factor has a positive diagonal. -/
theorem cholesky_diag_pos {n : ℕ} {A U : Matrix (Fin n) (Fin n) ℝ}
    (h : cholesky A = some U) : ∀ i, 0 < U i i := by
  induction n with
  | zero => intro i; exact i.elim0
  | succ n ih =>
    rw [cholesky_succ] at h
    split_ifs at h with h0
    rw [Option.map_eq_some_iff] at h
    obtain ⟨V, hV, rfl⟩ := h
    push Not at h0
    intro i
    refine Fin.cases ?_ (fun i => ?_) i
    · simpa using h0
    · simpa using ih hV i

lemma cholesky_det_pos {n : ℕ} {A U : Matrix (Fin n) (Fin n) ℝ}
    (h : cholesky A = some U) : 0 < U.det := by
  rw [Matrix.det_of_isUpperTriangular (M := U) (fun i j hij => cholesky_upper h i j hij)]
  exact Finset.prod_pos fun i _ => cholesky_diag_pos h i

/-- The algorithm succeeds on every positive definite matrix. -/
theorem cholesky_of_posDef {n : ℕ} {A : Matrix (Fin n) (Fin n) ℝ} (hA : A.PosDef) :
    ∃ U, cholesky A = some U := by
  induction n with
  | zero => exact ⟨0, by rw [cholesky]⟩
  | succ n ih =>
    have h0 : 0 < A 0 0 := hA.diag_pos
    have hs : 0 < Real.sqrt (A 0 0) := Real.sqrt_pos.mpr h0
    have hss : Real.sqrt (A 0 0) * Real.sqrt (A 0 0) = A 0 0 := Real.mul_self_sqrt h0.le
    have hsym : ∀ i j, A i j = A j i := fun i j => by
      simpa using hA.isHermitian.apply j i
    set r : Fin n → ℝ := fun j => A 0 j.succ / Real.sqrt (A 0 0) with hr
    have hS : (Matrix.of fun i j : Fin n => A i.succ j.succ - r i * r j).PosDef := by
      apply PosDef.of_dotProduct_mulVec_pos
      · ext i j
        simp [hsym i.succ j.succ, mul_comm]
      · intro x hx
        set t : ℝ := -(∑ j, r j * x j) / Real.sqrt (A 0 0) with ht
        have hy : (Fin.cons t x : Fin (n+1) → ℝ) ≠ 0 := by
          intro h; apply hx; ext i; simpa using congrFun h i.succ
        have hpos := hA.dotProduct_mulVec_pos hy
        have e1 : ∀ j, A 0 j.succ = Real.sqrt (A 0 0) * r j := by
          intro j; rw [hr]; field_simp
        have e2 : ∀ j, A j.succ 0 = Real.sqrt (A 0 0) * r j := by
          intro j; rw [hsym]; exact e1 j
        have hts : t * Real.sqrt (A 0 0) = -(∑ j, r j * x j) := by rw [ht]; field_simp
        simp only [dotProduct, mulVec, star_trivial, Fin.sum_univ_succ, Fin.cons_zero,
          Fin.cons_succ, e1, e2, Matrix.of_apply] at hpos ⊢
        have k1 : ∑ j, Real.sqrt (A 0 0) * r j * x j = Real.sqrt (A 0 0) * ∑ j, r j * x j := by
          rw [Finset.mul_sum]; exact Finset.sum_congr rfl fun _ _ => by ring
        have k2 : ∀ i, ∑ j, (A i.succ j.succ - r i * r j) * x j
            = ∑ j, A i.succ j.succ * x j - r i * ∑ j, r j * x j := by
          intro i
          rw [Finset.mul_sum, ← Finset.sum_sub_distrib]
          exact Finset.sum_congr rfl fun _ _ => by ring
        have k3 : ∀ c : ℝ, ∑ i, x i * (r i * c) = (∑ i, r i * x i) * c := by
          intro c; rw [Finset.sum_mul]; exact Finset.sum_congr rfl fun _ _ => by ring
        have k4 : ∑ i, x i * (Real.sqrt (A 0 0) * r i * t)
            = (∑ i, r i * x i) * (t * Real.sqrt (A 0 0)) := by
          rw [Finset.sum_mul]; exact Finset.sum_congr rfl fun _ _ => by ring
        rw [k1] at hpos
        simp only [mul_add, Finset.sum_add_distrib] at hpos
        rw [k4, hts] at hpos
        simp only [k2, mul_sub, Finset.sum_sub_distrib, k3]
        have h5 : t * (A 0 0 * t) = (∑ i, r i * x i) ^ 2 := by
          rw [← hss]
          calc t * (Real.sqrt (A 0 0) * Real.sqrt (A 0 0) * t)
              = (t * Real.sqrt (A 0 0)) ^ 2 := by ring
            _ = _ := by rw [hts]; ring
        have h6 : t * (Real.sqrt (A 0 0) * ∑ j, r j * x j) = -(∑ j, r j * x j) ^ 2 := by
          calc t * (Real.sqrt (A 0 0) * ∑ j, r j * x j)
              = (t * Real.sqrt (A 0 0)) * ∑ j, r j * x j := by ring
            _ = _ := by rw [hts]; ring
        rw [h5, h6] at hpos
        nlinarith [hpos]
    obtain ⟨V, hV⟩ := ih hS
    rw [cholesky_succ, if_neg (not_le.mpr h0), hV]
    exact ⟨_, rfl⟩

/-- For symmetric matrices the algorithm succeeds exactly on the positive definite ones. -/
theorem cholesky_isSome_iff {n : ℕ} {A : Matrix (Fin n) (Fin n) ℝ} (hA : A.IsSymm) :
    (∃ U, cholesky A = some U) ↔ A.PosDef := by
  refine ⟨fun ⟨U, hU⟩ => ?_, cholesky_of_posDef⟩
  have hdet := cholesky_det_pos hU
  have := Matrix.PosDef.conjTranspose_mul_self U (by
    apply Matrix.mulVec_injective_of_isUnit
    rw [Matrix.isUnit_iff_isUnit_det]
    exact hdet.ne'.isUnit)
  rw [← cholesky_mul hA hU]
  simpa using this

/-- Whitening: for positive definite `M`, `|W x − W d|² = (x−d)ᵀ M⁻¹ (x−d)` is what the model's
Cholesky factor of `M⁻¹` gives. -/
theorem cholesky_quadForm {n : ℕ} {B U : Matrix (Fin n) (Fin n) ℝ} (hB : B.IsSymm)
    (h : cholesky B = some U) (v : Fin n → ℝ) :
    ∑ k, (∑ l, U k l * v l) ^ 2 = v ⬝ᵥ B *ᵥ v := by
  rw [← cholesky_mul hB h, ← Matrix.mulVec_mulVec, Matrix.dotProduct_mulVec,
    Matrix.vecMul_transpose]
  simp [dotProduct, mulVec, sq]

end Kalepy
