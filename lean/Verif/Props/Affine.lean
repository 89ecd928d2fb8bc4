import Mathlib.LinearAlgebra.Matrix.Notation
import Verif.Props.Invariance

/-!
# Transformations of data and points (C08)
-/

namespace Kalepy

open Matrix

variable {d : ℕ}

/-- Whether given extrema are accepted does not depend on the data. -/
lemma parseExtrema_accept {eff eff' : Fin d → ℝ × ℝ} {x : Option (List ExtElem)} {ext : Fin d → ℝ × ℝ}
    (h : parseExtrema eff x = .ok ext) : ∃ ext', parseExtrema eff' x = .ok ext' := by
  cases x with
  | none => exact ⟨_, rfl⟩
  | some l =>
    simp only [parseExtrema, parseExtremaList] at h ⊢
    split_ifs at h ⊢ <;> first | exact ⟨_, rfl⟩ | cases h

/-- The image of the data under `x ↦ A x + b`. -/
def Spec.affineData (A : Matrix (Fin d) (Fin d) ℝ) (b : Fin d → ℝ) (l : List (Fin d → ℝ)) : List (Fin d → ℝ) :=
  l.map fun x => A *ᵥ x + b

lemma weighted_affine (A : Matrix (Fin d) (Fin d) ℝ) (b : Fin d → ℝ) (data : List (Fin d → ℝ))
    (w : Option (List ℝ)) : Spec.weighted (Spec.affineData A b data) w = Spec.affine A b (Spec.weighted data w) := by
  cases w with
  | none => simp [Spec.weighted, Spec.affine, Spec.affineData]
  | some l =>
    simp only [Spec.weighted, Spec.affine, Spec.affineData, List.zip_map_left]
    rfl

lemma onesIfNone_affine (A : Matrix (Fin d) (Fin d) ℝ) (b : Fin d → ℝ) (data : List (Fin d → ℝ))
    (w : Option (List ℝ)) : onesIfNone (Spec.affineData A b data) w = onesIfNone data w := by
  cases w <;> simp [onesIfNone, Spec.affineData]

/-- Transformed data are accepted as well; weights, effective number, bandwidth and kernel shape are the same. -/
lemma affine_init {E : Ext} {a : KDEArgs d} {k : KDE d} (h : KDE.init E a = .ok k) (hr : a.reflect = .none)
    (A : Matrix (Fin d) (Fin d) ℝ) (b : Fin d → ℝ) (hc : a.covariance = none) (hb : Spec.ScalarOrDiagonal a) :
    ∃ k', KDE.init E { a with dataset := Spec.affineData A b a.dataset } = .ok k' ∧ k'.weights = k.weights ∧
      k'.bandwidth = k.bandwidth ∧ k'.neff = k.neff ∧ k'.kernel.dist = k.kernel.dist ∧
      k'.covariance = A * k.covariance * Aᵀ := by
  have hB := scalarOrDiagonal_bandwidth h hb
  have hcov := (covariance_eq h hc).2
  have hval : ∀ l, k.weights = some l → Spec.ValidW a.dataset.length l := fun l hl => stored_valid h hl
  obtain ⟨reflect, w, cov, bw0, D, out, eff, ext, g1, g2, g3, g4, g5, g6, g7, g8, g9, g10, hk⟩ := init_inv h
  have hkw : k.weights = w := by rw [hk]
  have hkc : k.covariance = cov := by rw [hk]
  have hkb : k.bandwidth = rescaleBw bw0 a.rescale := by rw [hk]
  rw [hkw] at hval
  set data' := Spec.affineData A b a.dataset with hdata
  have hlen : data'.length = a.dataset.length := by simp [hdata, Spec.affineData]
  have hne' : data' ≠ [] := by simpa [hdata, Spec.affineData] using g2
  have hwl : ∀ l, w = some l → l.length = a.dataset.length := fun l hl => (hval l hl).1
  have hs : ((Spec.weighted a.dataset w).map Prod.snd).sum ≠ 0 := by
    rw [weighted_snd _ _ hwl]
    cases hk : w with
    | none => simpa [onesIfNone] using g2
    | some l => exact (validW_sum (hval l hk)).ne'
  have hf : covFact data' w = covFact a.dataset w := by
    rw [covFact_eq _ hne', covFact_eq _ g2, onesIfNone_affine]
  have hfpos : 0 < covFact a.dataset w := hkw ▸ (covariance_eq h hc).1
  have hcov' : Spec.sampleCov (Spec.weighted data' w) = A * cov * Aᵀ := by
    rw [weighted_affine, sampleCov_affine A b _ hs, ← hkw, ← hcov, hkc]
  have g4' : covArg data' w a.covariance = .ok (A * cov * Aᵀ) := by
    rw [hc, covArg, npCov_eq _ hne' _ (fun l hl => by rw [hlen]; exact hwl l hl), hf, if_neg (not_le.mpr hfpos), hcov']
  have hpsd : (A * cov * Aᵀ).PosSemidef := by
    rw [← hcov']
    exact sampleCov_posSemidef _ hne' _ (fun l hl => hlen ▸ hval l hl) (hf ▸ hfpos)
  have heff : effNum data'.length w a.neff = effNum a.dataset.length w a.neff := by rw [hlen]
  obtain ⟨dat, hd1, _⟩ := dataExtrema_spec hne'
  have g9' : ∃ eff', effExtrema data' (Kernel.init D (rescaleBw bw0 a.rescale) (A * cov * Aᵀ) a.helper
      a.chunk).matrix out = .ok eff' := by
    simp only [effExtrema, hd1]
    rw [if_pos]
    · exact ⟨_, rfl⟩
    · intro i
      exact mul_nonneg hpsd.diag_nonneg (sq_nonneg _)
  obtain ⟨eff', g9'⟩ := g9'
  obtain ⟨ext', g10'⟩ := parseExtrema_accept (eff' := eff') g10
  have g1' : checkReflect data' a.reflect = .ok reflect := by rw [hr] at g1 ⊢; exact g1
  have := init_of_stages (E := E) (a := { a with dataset := data' }) (bw0 := bw0) (out := out) g1' hne' (hlen ▸ g3) g4'
    (by rw [← g5]; simp only [heff]) g6 g7 (by rw [← g8]; simp only [heff]) g9' g10'
  refine ⟨_, this, hkw.symm, hkb.symm, ?_, ?_, ?_⟩
  · simp only [heff]; rw [hk]
  · rw [hk]; rfl
  · rw [hkc]

/-- Specification: a bandwidth that is a single number for all entries of the matrix: a number or one of the rules
(also the default), without `diagonal`, possibly rescaled by a number. -/
def Spec.ScalarBw (a : KDEArgs d) : Prop :=
  (a.bandwidth = .none ∨ ∃ v, a.bandwidth = .val v) ∧ a.diagonal = false ∧
    (a.rescale = .none ∨ ∃ c, a.rescale = .scalar c)

lemma ScalarBw.const {E : Ext} {a : KDEArgs d} {k : KDE d} (h : KDE.init E a = .ok k) (hb : Spec.ScalarBw a) :
    Spec.ScalarOrDiagonal a ∧ ∃ β, ∀ i j, k.bandwidth i j = β := by
  obtain ⟨hb, hd, hr⟩ := hb
  refine ⟨?_, ?_⟩
  · unfold Spec.ScalarOrDiagonal
    rcases hb with hb | ⟨v, hb⟩ <;> rw [hb] <;> exact Or.inr hr
  · obtain ⟨B, hB, hR⟩ := C18_bandwidth h
    have hB' : ∃ β, ∀ i j, B i j = β := by
      rcases hb with hb | ⟨v, hb⟩ <;> rw [hb] at hB <;> obtain ⟨β, _, h2⟩ := hB <;>
        exact ⟨β, fun i j => by rw [h2, if_neg (by simp [hd])]⟩
    obtain ⟨β, hβ⟩ := hB'
    rcases hr with hr | ⟨c, hr⟩ <;> rw [hr] at hR
    · exact ⟨β, fun i j => by rw [show k.bandwidth = B from hR]; exact hβ i j⟩
    · exact ⟨c * β, fun i j => by rw [hR i j, hβ]⟩

lemma dist2_affine {M A : Matrix (Fin d) (Fin d) ℝ} (hA : A.det ≠ 0) (u : Fin d → ℝ) :
    Spec.dist2 (A * M * Aᵀ) (A *ᵥ u) = Spec.dist2 M u := by
  have hu : IsUnit A.det := isUnit_iff_ne_zero.mpr hA
  simp only [Spec.dist2]
  rw [Matrix.mul_inv_rev, Matrix.mul_inv_rev, Matrix.mulVec_mulVec, Matrix.dotProduct_mulVec, ← Matrix.dotProduct_mulVec,
    ← Matrix.mul_assoc]
  rw [show Aᵀ⁻¹ * M⁻¹ * A⁻¹ * A = Aᵀ⁻¹ * M⁻¹ by rw [Matrix.mul_assoc, Matrix.nonsing_inv_mul _ hu, Matrix.mul_one],
    ← Matrix.mulVec_mulVec, ← Matrix.vecMul_transpose, ← Matrix.dotProduct_mulVec, Matrix.mulVec_mulVec,
    Matrix.mul_nonsing_inv _ (by rwa [Matrix.det_transpose]), Matrix.one_mulVec]

lemma kernelSum_affine {D : Dist} {M A : Matrix (Fin d) (Fin d) ℝ} (hA : A.det ≠ 0) (b : Fin d → ℝ)
    (p : List ((Fin d → ℝ) × ℝ)) (x : Fin d → ℝ) :
    Spec.kernelSum D (A * M * Aᵀ) (Spec.affine A b p) (A *ᵥ x + b) = Spec.kernelSum D M p x := by
  simp only [Spec.kernelSum, Spec.affine, List.map_map]
  congr 1
  refine List.map_congr_left fun q _ => ?_
  simp only [Function.comp]
  rw [show A *ᵥ x + b - (A *ᵥ q.1 + b) = A *ᵥ (x - q.1) by rw [Matrix.mulVec_sub]; abel, dist2_affine hA]

/-- **C08.** Transforming data and points by `x ↦ A x + b` with an invertible `A` divides the pdf by `|det A|`, for a
scalar bandwidth (or the rules of Scott and Silverman) and covariance computed from the data. -/
theorem C08_affine {E : Ext} {a : KDEArgs d} {k : KDE d} (h : KDE.init E a = .ok k) (hd : 0 < d)
    (hr : a.reflect = .none) (hc : a.covariance = none) (hb : Spec.ScalarBw a)
    (hM : (Spec.kernelMatrix k.covariance k.bandwidth).PosDef)
    (A : Matrix (Fin d) (Fin d) ℝ) (hA : A.det ≠ 0) (b : Fin d → ℝ) :
    ∃ k', KDE.init E { a with dataset := a.dataset.map fun x => A *ᵥ x + b } = .ok k' ∧
      ∀ srt (pts : List (Fin d → ℝ)), ∃ vals : List ℝ,
        (k.pdf E srt (some (.rows (Spec.rowsOf pts))) .none .none false).1
          = .ok (.rows (Spec.rowsOf pts), ⟨[pts.length], vals⟩) ∧
        (k'.pdf E srt (some (.rows (Spec.rowsOf (pts.map fun x => A *ᵥ x + b)))) .none .none false).1
          = .ok (.rows (Spec.rowsOf (pts.map fun x => A *ᵥ x + b)), ⟨[pts.length], vals.map (· / |A.det|)⟩) := by
  obtain ⟨hsd, β, hβ⟩ := ScalarBw.const h hb
  obtain ⟨k', hk', e1, e2, e3, e4, e5⟩ := affine_init h hr A b hc hsd
  refine ⟨k', hk', fun srt pts => ?_⟩
  have hM' : Spec.kernelMatrix k'.covariance k'.bandwidth
      = A * Spec.kernelMatrix k.covariance k.bandwidth * Aᵀ := by
    have h1 : ∀ C B : Matrix (Fin d) (Fin d) ℝ, (∀ i j, B i j = β) → Spec.kernelMatrix C B = β ^ 2 • C := by
      intro C B hB
      ext i j; simp [Spec.kernelMatrix, hB, mul_comm]
    rw [h1 _ _ (e2 ▸ hβ), h1 _ _ hβ, e5, Matrix.mul_smul, Matrix.smul_mul]
  have hpd : (Spec.kernelMatrix k'.covariance k'.bandwidth).PosDef := by
    rw [hM', ← Matrix.conjTranspose_eq_transpose_of_trivial]
    refine hM.mul_mul_conjTranspose_same ?_
    rw [Matrix.vecMul_injective_iff_isUnit, Matrix.isUnit_iff_isUnit_det]
    exact isUnit_iff_ne_zero.mpr hA
  refine ⟨_, (C02_kde_density h srt hd hr hM pts).2, ?_⟩
  rw [(C02_kde_density hk' srt hd hr hpd _).2, hM', e1, e4]
  have hw : (Spec.weighted (Spec.affineData A b a.dataset) k.weights)
      = Spec.affine A b (Spec.weighted a.dataset k.weights) := weighted_affine A b _ _
  have hw2 : (Spec.affine A b (Spec.weighted a.dataset k.weights)).map Prod.snd
      = (Spec.weighted a.dataset k.weights).map Prod.snd := by simp [Spec.affine]
  simp only [hw, hw2, List.length_map, List.map_map, Function.comp_def, kernelSum_affine hA]
  have hdet : Real.sqrt (A * Spec.kernelMatrix k.covariance k.bandwidth * Aᵀ).det
      = |A.det| * Real.sqrt (Spec.kernelMatrix k.covariance k.bandwidth).det := by
    rw [Matrix.det_mul, Matrix.det_mul, Matrix.det_transpose,
      show ∀ x y : ℝ, x * y * x = x ^ 2 * y by intros; ring, Real.sqrt_mul (sq_nonneg _), Real.sqrt_sq_eq_abs]
  rw [hdet]
  congr 3
  congr 1
  funext x
  simp only [div_eq_mul_inv, mul_inv]
  ring

lemma one_affine (b x : Fin d → ℝ) : (1 : Matrix (Fin d) (Fin d) ℝ) *ᵥ x + b = x + b := by
  rw [Matrix.one_mulVec]

/-- **C08.** Translating data and points changes nothing: for every bandwidth, also with a covariance given by the
user and also if the kernel matrix is singular, the same calls succeed with the same values. -/
theorem C08_translate {E : Ext} {a : KDEArgs d} {k : KDE d} (h : KDE.init E a = .ok k) (hd : 0 < d)
    (hr : a.reflect = .none) (b : Fin d → ℝ) :
    ∃ k', KDE.init E { a with dataset := a.dataset.map fun x => x + b } = .ok k' ∧
      k'.covariance = k.covariance ∧ k'.bandwidth = k.bandwidth ∧
      ∀ srt (pts : List (Fin d → ℝ)) (probability : Bool),
        (k'.density E srt (some (.rows (Spec.rowsOf (pts.map fun x => x + b)))) .none .none false probability).1
          = (k.density E srt (some (.rows (Spec.rowsOf pts))) .none .none false probability).1.map fun r =>
              (.rows (Spec.rowsOf (pts.map fun x => x + b)), r.2) := by
  have hval : ∀ l, k.weights = some l → Spec.ValidW a.dataset.length l := fun l hl => stored_valid h hl
  obtain ⟨reflect, w, cov, bw0, D, out, eff, ext, g1, g2, g3, g4, g5, g6, g7, g8, g9, g10, hk⟩ := init_inv h
  have hkw : k.weights = w := by rw [hk]
  rw [hkw] at hval
  set data' := a.dataset.map (fun x => x + b) with hdata
  have hdata' : data' = Spec.affineData 1 b a.dataset := by simp [hdata, Spec.affineData]
  have hlen : data'.length = a.dataset.length := by simp [hdata]
  have hne' : data' ≠ [] := by simpa [hdata] using g2
  have hwl : ∀ l, w = some l → l.length = a.dataset.length := fun l hl => (hval l hl).1
  have hs : ((Spec.weighted a.dataset w).map Prod.snd).sum ≠ 0 := by
    rw [weighted_snd _ _ hwl]
    cases hk : w with
    | none => simpa [onesIfNone] using g2
    | some l => exact (validW_sum (hval l hk)).ne'
  have g4' : covArg data' w a.covariance = .ok cov := by
    cases hc : a.covariance with
    | some C => rw [hc] at g4; exact g4
    | none =>
      rw [hc] at g4
      simp only [covArg] at g4 ⊢
      have hf : covFact data' w = covFact a.dataset w := by
        rw [covFact_eq _ hne', covFact_eq _ g2, hdata', onesIfNone_affine]
      rw [npCov_eq _ hne' _ (fun l hl => by rw [hlen]; exact hwl l hl), hf, hdata', weighted_affine,
        sampleCov_affine 1 b _ hs, Matrix.one_mul, Matrix.transpose_one, Matrix.mul_one, ← npCov_eq _ g2 _ hwl]
      exact g4
  have heff : effNum data'.length w a.neff = effNum a.dataset.length w a.neff := by rw [hlen]
  obtain ⟨dat, hd1, _⟩ := dataExtrema_spec hne'
  have g9' : ∃ eff', effExtrema data' (Kernel.init D (rescaleBw bw0 a.rescale) cov a.helper
      a.chunk).matrix out = .ok eff' := by
    simp only [effExtrema, hd1] at g9 ⊢
    split_ifs at g9 ⊢
    exact ⟨_, rfl⟩
  obtain ⟨eff', g9'⟩ := g9'
  obtain ⟨ext', g10'⟩ := parseExtrema_accept (eff' := eff') g10
  have g1' : checkReflect data' a.reflect = .ok reflect := by rw [hr] at g1 ⊢; exact g1
  have hk' := init_of_stages (E := E) (a := { a with dataset := data' }) (bw0 := bw0) (out := out) g1' hne'
    (hlen ▸ g3) g4' (by rw [← g5]; simp only [heff]) g6 g7 (by rw [← g8]; simp only [heff]) g9' g10'
  refine ⟨_, hk', by rw [hk], by rw [hk], fun srt pts probability => ?_⟩
  have hrow : reflect = none := by rw [hr] at g1; simpa [checkReflect, eq_comm] using g1
  subst hrow
  rw [kde_density_eq hk' srt hd, kde_density_eq h srt hd, hk]
  simp only
  have hdens : ((Kernel.init D (rescaleBw bw0 a.rescale) cov a.helper a.chunk).density E
      ⟨d, pts.map fun x => x + b⟩ data' w none).1
      = ((Kernel.init D (rescaleBw bw0 a.rescale) cov a.helper a.chunk).density E ⟨d, pts⟩ a.dataset w none).1 := by
    have hb : badWeights a.dataset w = false := by
      cases w with | none => rfl | some l => exact badWeights_some_false (hwl l rfl)
    have hb' : badWeights data' w = false := by
      cases w with | none => rfl | some l => exact badWeights_some_false (by rw [hlen]; exact hwl l rfl)
    rw [density_eq_env E _ _ _ hb, density_eq_env E _ _ _ hb']
    have hpe : ∀ (n : ℝ) (M : Matrix (Fin d) (Fin d) ℝ) e, planEnv n M none = .ok e → e.2 = none := by
      intro n M e he
      simp only [planEnv] at he
      cases hc : cholesky M with
      | none => rw [hc] at he; cases he
      | some W =>
        rw [hc] at he
        simp only at he
        split_ifs at he
        cases he
        rfl
    cases he : planEnv ((Kernel.init D (rescaleBw bw0 a.rescale) cov a.helper a.chunk).matrixInv E).2.normVal.1
        ((Kernel.init D (rescaleBw bw0 a.rescale) cov a.helper a.chunk).matrixInv E).1 none with
    | error e => rfl
    | ok e =>
      simp only [Except.map, List.map_map, Except.ok.injEq]
      refine List.map_congr_left fun x _ => ?_
      simp only [Function.comp, hpe _ _ e he, coreAt]
      congr 1
      have hu : usedWeights data' w = usedWeights a.dataset w := by cases w <;> simp [usedWeights, hlen]
      rw [hu, kval_eq_zip, kval_eq_zip, hdata, List.zip_map_left, List.map_map]
      congr 1
      refine List.map_congr_left fun q _ => ?_
      have hwd : whitenedDist2 e.1 (x + b) (q.1 + b) = whitenedDist2 e.1 x q.1 := by
        simp only [whitenedDist2, Pi.add_apply, mul_add, Finset.sum_add_distrib, add_sub_add_right_eq_sub]
      simp only [Function.comp, Prod.map, id, hwd]
  rw [hdens]
  cases ((Kernel.init D (rescaleBw bw0 a.rescale) cov a.helper a.chunk).density E ⟨d, pts⟩ a.dataset w none).1 with
  | error e => rfl
  | ok vs =>
    simp only [Except.map, List.length_map, KDE.totalWeight, hlen]

/-- Concrete case of the hypotheses of `C08_affine` and `C08_translate`: two points on the line, bandwidth 2, box
kernel, and the map `x ↦ 3 x + 1`. -/
example : ∃ (a : KDEArgs 1) (k : KDE 1), KDE.init ⟨fun A => A, id⟩ a = .ok k ∧ a.reflect = .none ∧
    a.covariance = none ∧ Spec.ScalarBw a ∧ (Spec.kernelMatrix k.covariance k.bandwidth).PosDef ∧
    (!![3] : Matrix (Fin 1) (Fin 1) ℝ).det ≠ 0 := by
  obtain ⟨k, hk, hw⟩ := auto_init ⟨fun A => A, id⟩ [![(0:ℝ)], ![2]] (by simp) none (by simp)
    (by norm_num [covFact]) .box rfl 2
  refine ⟨_, k, hk, rfl, rfl, ⟨Or.inr ⟨_, rfl⟩, rfl, Or.inl rfl⟩, ?_, by simp⟩
  have h2 := C19_kernel_matrix hk (Or.inr (Or.inl rfl)) (by simp)
  rw [← (C18_matrix hk).1]
  apply h2.2.2.2
  · rw [(C19_covariance hk rfl).1, hw]
    have : Spec.sampleCov (Spec.weighted [![(0:ℝ)], ![2]] none) = Matrix.diagonal fun _ => 2 := by
      ext i j
      have hi : i = 0 := Subsingleton.elim _ _
      have hj : j = 0 := Subsingleton.elim _ _
      subst hi hj
      norm_num [Spec.sampleCov, Spec.weighted, Spec.mean]
    rw [this]
    exact PosDef.diagonal fun i => by norm_num
  · intro i
    obtain ⟨B, ⟨b, rfl, hB⟩, hR⟩ := C18_bandwidth hk
    simp only [Spec.Rescaled] at hR
    rw [hR, hB]
    simp

end Kalepy
