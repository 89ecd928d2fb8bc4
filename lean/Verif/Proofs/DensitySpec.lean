import Verif.Proofs.Density
import Verif.Spec.Density

/-!
# The kernel sum of the model equals the specification's kernel sum (helper lemmas)
-/

namespace Kalepy

open Matrix

variable {m : ℕ}

lemma shape_eq (D : Dist) (s : ℝ) : Spec.shape D s = D.eval s := by
  cases D with
  | gaussian => rfl
  | box => rfl
  | parabola =>
    simp only [Spec.shape, Dist.eval]
    split_ifs with h
    · rw [max_eq_left]; linarith
    · rw [max_eq_right]; linarith
  | triweight =>
    simp only [Spec.shape, Dist.eval]
    split_ifs with h
    · rw [max_eq_left]; exact pow_nonneg (by linarith) 3
    · rw [max_eq_right]
      have : (1 - s) < 0 := by linarith
      exact (Odd.pow_neg (by decide) this).le

lemma isSymm_of_posDef {M : Matrix (Fin m) (Fin m) ℝ} (hM : M.PosDef) : M.IsSymm := by
  have := hM.isHermitian
  rwa [Matrix.IsHermitian, Matrix.conjTranspose_eq_transpose_of_trivial] at this

lemma whitenedDist2_eq {M W : Matrix (Fin m) (Fin m) ℝ} (hM : M.PosDef)
    (hW : cholesky M⁻¹ = some W) (x d : Fin m → ℝ) :
    whitenedDist2 W x d = Spec.dist2 M (x - d) := by
  rw [Spec.dist2, ← cholesky_quadForm (isSymm_of_posDef hM.inv) hW]
  unfold whitenedDist2
  refine Finset.sum_congr rfl fun k _ => ?_
  rw [← Finset.sum_sub_distrib]
  congr 1
  exact Finset.sum_congr rfl fun l _ => by simp [mul_sub]

lemma weighted_eq {α : Type*} (data : List α) (w : Option (List ℝ)) :
    Spec.weighted data w = data.zip (usedWeights data w) := by
  cases w with
  | none =>
    simp only [Spec.weighted, usedWeights]
    induction data with
    | nil => rfl
    | cons a l ih => simp [List.replicate_succ, ih]
  | some w => rfl

lemma kval_eq_kernelSum {M W : Matrix (Fin m) (Fin m) ℝ} (hM : M.PosDef)
    (hW : cholesky M⁻¹ = some W) (D : Dist) (data : List (Fin m → ℝ)) (w : List ℝ) (x) :
    kval W D.eval data w x = Spec.kernelSum D M (data.zip w) x := by
  rw [kval_eq_zip, Spec.kernelSum]
  congr 1
  refine List.map_congr_left fun p _ => ?_
  rw [whitenedDist2_eq hM hW, shape_eq, mul_comm]

lemma mirror_eq (i : Fin m) (b : ℝ) : Spec.mirror i b = reflectCol i b := by
  funext x j
  simp only [Spec.mirror, reflectCol, Function.update_apply]
  split_ifs with h
  · subst h; ring
  · rfl

lemma outsideRow_iff (r : Option ℝ × Option ℝ) (x : ℝ) :
    outsideRow r x = true ↔ Spec.Violates (some r) x := by
  obtain ⟨a, b⟩ := r
  cases a <;> cases b <;> simp [outsideRow, Spec.Violates]

lemma Dist.norm_pos (D : Dist) (d : ℕ) (hd : 0 < d) : 0 < D.norm d := by
  have h0 : (0:ℝ) < d := by exact_mod_cast hd
  have hv : 0 < Dist.nballVol d :=
    div_pos (Real.rpow_pos_of_pos Real.pi_pos _) (Real.Gamma_pos_of_pos (by positivity))
  cases D with
  | gaussian => exact Real.rpow_pos_of_pos (by positivity) _
  | box => exact hv
  | parabola => simp only [Dist.norm]; positivity
  | triweight =>
    simp only [Dist.norm, Dist.betaKernelNorm, Dist.spBeta]
    have h1 : 0 < Real.Gamma (3 + 1) := Real.Gamma_pos_of_pos (by norm_num)
    have h2 : 0 < Real.Gamma ((d:ℝ) / 2) := Real.Gamma_pos_of_pos (by positivity)
    have h3 : 0 < Real.Gamma (3 + 1 + (d:ℝ) / 2) := Real.Gamma_pos_of_pos (by positivity)
    positivity

/-- Plan of `Kernel.density` on a fresh kernel with positive definite matrix. -/
lemma density_fresh (E : Ext) (D : Dist) (bw cov : Matrix (Fin m) (Fin m) ℝ) (h : Bool) (c : ℕ)
    (pts : List (Fin m → ℝ)) (data : List (Fin m → ℝ)) (w : Option (List ℝ))
    (refl : Option (List ReflRow)) :
    ((Kernel.init D bw cov h c).density E ⟨m, pts⟩ data w refl).1
      = (corePlan D (Real.sqrt |(Spec.kernelMatrix cov bw).det|)
          (matrixInvert E (Spec.kernelMatrix cov bw)) data w refl).map fun f => pts.map f := by
  rw [← densityCore_eq_plan]; rfl

lemma matrixInvert_posDef (E : Ext) {M : Matrix (Fin m) (Fin m) ℝ} (hM : M.PosDef) :
    matrixInvert E M = M⁻¹ := by
  rw [matrixInvert, if_neg]
  exact (hM.det_pos).ne'

lemma sqrt_abs_det_ne {M : Matrix (Fin m) (Fin m) ℝ} (hM : M.PosDef) : Real.sqrt |M.det| ≠ 0 :=
  (Real.sqrt_pos.mpr (abs_pos.mpr hM.det_pos.ne')).ne'

lemma sqrt_det_ne {M : Matrix (Fin m) (Fin m) ℝ} (hM : M.PosDef) : Real.sqrt M.det ≠ 0 :=
  (Real.sqrt_pos.mpr hM.det_pos).ne'

lemma corePlan_posDef (E : Ext) (D : Dist) {M : Matrix (Fin m) (Fin m) ℝ} (hM : M.PosDef) (nrm : ℝ)
    (hn : nrm ≠ 0)
    (data : List (Fin m → ℝ)) (w : Option (List ℝ)) (hw : badWeights data w = false)
    (refl : Option (List ReflRow)) (hr : ∀ r, refl = some r → r.length = m) :
    ∃ W, cholesky M⁻¹ = some W ∧
      corePlan D nrm (matrixInvert E M) data w refl = .ok fun x =>
        coreAt W D.eval data (usedWeights data w)
          (refl.map fun r i => r.getD i none) x / (nrm * D.norm m) := by
  obtain ⟨W, hW⟩ := cholesky_of_posDef hM.inv
  refine ⟨W, hW, ?_⟩
  rw [corePlan, hw, matrixInvert_posDef E hM, hW]
  simp only [hn, if_false]
  cases refl with
  | none => simp
  | some r =>
    have := hr r rfl
    subst this
    simp

/-- The data-independent part of the plan. -/
noncomputable def planEnv (nrm : ℝ) (minv : Matrix (Fin m) (Fin m) ℝ) (refl : Option (List ReflRow)) :
    Res (Matrix (Fin m) (Fin m) ℝ × Option (Fin m → ReflRow)) :=
  match cholesky minv with
  | none => .error .linAlgError
  | some white =>
    if nrm = 0 then .error .unmodelled
    else match refl with
    | none => .ok (white, none)
    | some r => if hr : r.length = m then .ok (white, some fun i => r.get (Fin.cast hr.symm i))
        else .error .valueError

lemma corePlan_eq_env (D : Dist) (nrm : ℝ) (minv : Matrix (Fin m) (Fin m) ℝ)
    (data : List (Fin m → ℝ)) (w : Option (List ℝ)) (hw : badWeights data w = false)
    (refl : Option (List ReflRow)) :
    corePlan D nrm minv data w refl = (planEnv nrm minv refl).map fun e x =>
      coreAt e.1 D.eval data (usedWeights data w) e.2 x / (nrm * D.norm m) := by
  rw [corePlan, planEnv, hw]
  cases cholesky minv with
  | none => rfl
  | some W =>
    by_cases h0 : nrm = 0
    · simp [h0, Except.map]
    simp only [h0, if_false]
    cases refl with
    | none => rfl
    | some r =>
      by_cases hr : r.length = m
      · simp [hr, Except.map]
      · simp [hr, Except.map]

lemma Kernel.normVal_dist (k : Kernel m) : k.normVal.2.dist = k.dist := by
  unfold Kernel.normVal; cases k.cacheNorm <;> rfl

lemma Kernel.normVal_matrix (k : Kernel m) : k.normVal.2.matrix = k.matrix := by
  unfold Kernel.normVal; cases k.cacheNorm <;> rfl

lemma Kernel.matrixInv_dist (E : Ext) (k : Kernel m) : (k.matrixInv E).2.dist = k.dist := by
  unfold Kernel.matrixInv; cases k.cacheInv <;> rfl

lemma Kernel.matrixInv_matrix (E : Ext) (k : Kernel m) : (k.matrixInv E).2.matrix = k.matrix := by
  unfold Kernel.matrixInv; cases k.cacheInv <;> rfl

lemma Kernel.density_fst (E : Ext) (k : Kernel m) (pts data w refl) :
    (k.density E pts data w refl).1
      = densityCore (k.matrixInv E).2.normVal.2.dist (k.matrixInv E).2.normVal.1
          (k.matrixInv E).1 pts data w refl := rfl

lemma Kernel.densityParams_fst (E : Ext) (k : Kernel m) (ps : List (Fin m)) (pts data w refl) :
    (k.densityParams E ps pts data w refl).1
      = densityCore (k.matrixInv E).2.normVal.2.dist
          (Real.sqrt ((k.matrixInv E).2.normVal.2.matrix.submatrix ps.get ps.get).det)
          (matrixInvert E ((k.matrixInv E).2.normVal.2.matrix.submatrix ps.get ps.get))
          pts data w refl := rfl

lemma density_eq_env (E : Ext) (k : Kernel m) (data : List (Fin m → ℝ)) (w : Option (List ℝ))
    (hw : badWeights data w = false) (refl : Option (List ReflRow)) (pts : List (Fin m → ℝ)) :
    (k.density E ⟨m, pts⟩ data w refl).1
      = (planEnv (k.matrixInv E).2.normVal.1 (k.matrixInv E).1 refl).map fun e => pts.map fun x =>
        coreAt e.1 k.dist.eval data (usedWeights data w) e.2 x
          / ((k.matrixInv E).2.normVal.1 * k.dist.norm m) := by
  rw [Kernel.density_fst, Kernel.normVal_dist, Kernel.matrixInv_dist, densityCore_eq_plan,
    corePlan_eq_env _ _ _ _ _ hw]
  cases planEnv (k.matrixInv E).2.normVal.1 (k.matrixInv E).1 refl <;> rfl

end Kalepy
