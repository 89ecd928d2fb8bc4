import Verif.Model.RemCov
import Verif.Props.Affine
import Verif.Props.LinAlg

/-!
# C167: `rem_cov` without a covariance
-/

namespace Kalepy

open Matrix

variable {d : ℕ}

/-- Specification: the unbiased covariance of points without weights. -/
noncomputable def Spec.dataCov (data : List (Fin d → ℝ)) : Matrix (Fin d) (Fin d) ℝ :=
  Matrix.of fun i j => (data.map fun x => (x i - (data.map fun y => y i).sum / data.length)
    * (x j - (data.map fun y => y j).sum / data.length)).sum / (data.length - 1)

lemma dataCov_eq (data : List (Fin d → ℝ)) (hne : data ≠ []) : Spec.sampleCov (Spec.weighted data none) = Spec.dataCov data := by
  have h : (data.length : ℝ) ≠ 0 := by
    rw [Nat.cast_ne_zero]; exact fun h => hne (List.eq_nil_of_length_eq_zero h)
  ext i j
  simp [Spec.sampleCov, Spec.dataCov, Spec.mean, Spec.weighted, Function.comp_def, h]

/-- The full claim of C167: without a covariance, `rem_cov` returns data whose covariance is the unit matrix. -/
def C167_Claim : Prop :=
  ∀ {d : ℕ} (data : List (Fin d → ℝ)), 0 < d → 2 ≤ data.length → (Spec.dataCov data).PosDef →
    ∃ white, remCovAuto data = .ok white ∧ white.length = data.length ∧ Spec.dataCov white = 1

/-- **C167**, in any dimension: removing the covariance of the data leaves the unit matrix. -/
theorem C167_whitens (data : List (Fin d → ℝ)) (hne : data ≠ []) (hC : (Spec.dataCov data).PosDef) :
    ∃ white, remCov data (Spec.dataCov data) = .ok white ∧ white.length = data.length ∧ Spec.dataCov white = 1 := by
  obtain ⟨U, hU⟩ := cholesky_of_posDef hC
  have hs : (Spec.dataCov data).IsSymm := by
    have := hC.isHermitian
    rwa [Matrix.IsHermitian, Matrix.conjTranspose_eq_transpose_of_trivial] at this
  have hm := cholesky_mul hs hU
  have hu := cholesky_det_ne_zero hU
  refine ⟨data.map fun x => (U⁻¹)ᵀ *ᵥ x, by simp [remCov, hU], by simp, ?_⟩
  have hw : (data.map fun x => (U⁻¹)ᵀ *ᵥ x) = Spec.affineData (U⁻¹)ᵀ 0 data := by simp [Spec.affineData]
  rw [hw, ← dataCov_eq _ (by simpa [Spec.affineData] using hne), weighted_affine, sampleCov_affine, dataCov_eq data hne, ← hm,
    transpose_transpose, ← Matrix.mul_assoc, ← transpose_mul, mul_nonsing_inv _ hu, transpose_one, Matrix.one_mul,
    mul_nonsing_inv _ hu]
  have : ((Spec.weighted data none).map Prod.snd).sum = data.length := by simp [Spec.weighted, Function.comp_def]
  rw [this, Nat.cast_ne_zero]
  exact fun h => hne (List.eq_nil_of_length_eq_zero h)

/-- **C167**, as far as it holds: in one and two dimensions.  The full claim includes all dimensions; it is false
(`C167_refuted`), see `C167_fails`. -/
theorem C167_partial (data : List (Fin d → ℝ)) (hd : 0 < d) (hd2 : d ≤ 2) (hn : 2 ≤ data.length)
    (hC : (Spec.dataCov data).PosDef) :
    ∃ white, remCovAuto data = .ok white ∧ white.length = data.length ∧ Spec.dataCov white = 1 := by
  have hne : data ≠ [] := by rintro rfl; simp at hn
  obtain ⟨white, h1, h2⟩ := C167_whitens data hne hC
  refine ⟨white, ?_, h2⟩
  have hf : 0 < covFact data none := by
    have : (2 : ℝ) ≤ data.length := by exact_mod_cast hn
    simp only [covFact]; linarith
  rw [remCovAuto, if_neg (by omega), if_pos hd2, if_neg (by omega), npCov_eq data hne none (by simp), if_neg (not_le.mpr hf),
    dataCov_eq data hne]
  exact h1

/-- **C167**, exactly when it fails: in three and more dimensions `rem_cov(data)` always raises an exception; in one or two
dimensions, if there are less than two points or their covariance is not positive definite. -/
theorem C167_fails (data : List (Fin d → ℝ)) :
    (3 ≤ d → 2 ≤ data.length → ∃ e, remCovAuto data = .error e ∧ (e = .valueError ∨ e = .typeError)) ∧
    (0 < d → d ≤ 2 → data.length < 2 → remCovAuto data = .error .valueError) ∧
    (0 < d → d ≤ 2 → 2 ≤ data.length → ¬ (Spec.dataCov data).PosDef → remCovAuto data = .error .linAlgError) := by
  refine ⟨fun h1 h2 => ?_, fun h1 h2 h3 => ?_, fun h1 h2 h3 h4 => ?_⟩
  · rw [remCovAuto, if_neg (by omega), if_neg (by omega), if_neg (by omega)]
    split_ifs
    · exact ⟨_, rfl, .inl rfl⟩
    · exact ⟨_, rfl, .inr rfl⟩
  · rw [remCovAuto, if_neg (by omega), if_pos h2, if_pos h3]
  · have hne : data ≠ [] := by rintro rfl; simp at h3
    have hf : 0 < covFact data none := by
      have : (2 : ℝ) ≤ data.length := by exact_mod_cast h3
      simp only [covFact]; linarith
    rw [remCovAuto, if_neg (by omega), if_pos h2, if_neg (by omega), npCov_eq data hne none (by simp),
      if_neg (not_le.mpr hf), dataCov_eq data hne]
    refine (C62_add_cov_not_posDef _ ?_ h4 data).2
    ext i j
    simp only [Spec.dataCov, Matrix.transpose_apply, Matrix.of_apply]
    congr 2
    exact List.map_congr_left fun x _ => mul_comm _ _

/-- Six points on the axes of space. -/
def exAxes : List (Fin 3 → ℝ) := [![1, 0, 0], ![-1, 0, 0], ![0, 1, 0], ![0, -1, 0], ![0, 0, 1], ![0, 0, -1]]

lemma exAxes_posDef : (Spec.dataCov exAxes).PosDef := by
  have : Spec.dataCov exAxes = (2 / 5 : ℝ) • 1 := by
    ext i j
    fin_cases i <;> fin_cases j <;> norm_num [Spec.dataCov, exAxes]
  rw [this]
  exact Matrix.PosDef.one.smul (by norm_num)

/-- **C167 is false in full**: for six points on the axes of space. -/
theorem C167_refuted : ¬ C167_Claim := by
  intro h
  obtain ⟨w, hw, -⟩ := h exAxes (by norm_num) (by simp [exAxes]) exAxes_posDef
  obtain ⟨e, he, -⟩ := (C167_fails exAxes).1 le_rfl (by simp [exAxes])
  rw [hw] at he
  cases he

/-- The hypotheses of `C167_partial` are met by four points in the plane, and those of `C167_whitens` in space. -/
example : (∃ white, remCovAuto [![1, 0], ![-1, 0], ![0, 1], ![0, -1]] = .ok white ∧ Spec.dataCov (d := 2) white = 1) ∧
    ∃ white, remCov exAxes (Spec.dataCov exAxes) = .ok white ∧ Spec.dataCov white = 1 := by
  constructor
  · have hp : (Spec.dataCov (d := 2) [![1, 0], ![-1, 0], ![0, 1], ![0, -1]]).PosDef := by
      have : Spec.dataCov (d := 2) [![1, 0], ![-1, 0], ![0, 1], ![0, -1]] = (2 / 3 : ℝ) • 1 := by
        ext i j
        fin_cases i <;> fin_cases j <;> norm_num [Spec.dataCov]
      rw [this]
      exact Matrix.PosDef.one.smul (by norm_num)
    obtain ⟨w, h1, -, h2⟩ := C167_partial _ (by norm_num) le_rfl (by simp) hp
    exact ⟨w, h1, h2⟩
  · obtain ⟨w, h1, -, h2⟩ := C167_whitens exAxes (by simp [exAxes]) exAxes_posDef
    exact ⟨w, h1, h2⟩

end Kalepy
