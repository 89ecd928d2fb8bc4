import Mathlib.LinearAlgebra.Matrix.PosDef
import Verif.Props.Bandwidth
import Verif.Proofs.DensitySpec

/-!
# Covariance and kernel matrix (C19)
-/

namespace Kalepy

open Matrix

variable {d : ℕ}

/-- Specification: mean of weighted points. -/
noncomputable def Spec.mean (p : List ((Fin d → ℝ) × ℝ)) (i : Fin d) : ℝ :=
  (p.map fun q => q.2 * q.1 i).sum / (p.map Prod.snd).sum

/-- Specification: unbiased covariance of weighted points: the weighted products of the deviations from the mean,
summed and divided by `V₁ - V₂ / V₁` with the sums of the weights and of their squares. For `n` points of weight 1
this divisor is `n - 1`. -/
noncomputable def Spec.sampleCov (p : List ((Fin d → ℝ) × ℝ)) : Matrix (Fin d) (Fin d) ℝ :=
  Matrix.of fun i j => (p.map fun q => q.2 * (q.1 i - Spec.mean p i) * (q.1 j - Spec.mean p j)).sum
    / ((p.map Prod.snd).sum - (p.map fun q => q.2 ^ 2).sum / (p.map Prod.snd).sum)

/-- Sum of the weighted products of deviations from `m`. -/
noncomputable def scatter (m : Fin d → ℝ) (p : List ((Fin d → ℝ) × ℝ)) : Matrix (Fin d) (Fin d) ℝ :=
  (p.map fun q => q.2 • vecMulVec (q.1 - m) (q.1 - m)).sum

lemma scatter_apply (m : Fin d → ℝ) (p : List ((Fin d → ℝ) × ℝ)) (i j : Fin d) :
    scatter m p i j = (p.map fun q => q.2 * (q.1 i - m i) * (q.1 j - m j)).sum := by
  induction p with
  | nil => simp [scatter]
  | cons q p ih =>
    simp only [scatter, List.map_cons, List.sum_cons, Matrix.add_apply] at ih ⊢
    rw [ih]
    simp [vecMulVec_apply, mul_assoc]

lemma sampleCov_eq (p : List ((Fin d → ℝ) × ℝ)) :
    Spec.sampleCov p
      = ((p.map Prod.snd).sum - (p.map fun q => q.2 ^ 2).sum / (p.map Prod.snd).sum)⁻¹ • scatter (Spec.mean p) p := by
  ext i j
  rw [Matrix.smul_apply, scatter_apply, Spec.sampleCov, Matrix.of_apply, smul_eq_mul, div_eq_inv_mul]

lemma scatter_posSemidef (m : Fin d → ℝ) (p : List ((Fin d → ℝ) × ℝ)) (h : ∀ q ∈ p, 0 ≤ q.2) :
    (scatter m p).PosSemidef := by
  induction p with
  | nil => exact PosSemidef.zero
  | cons q p ih =>
    simp only [scatter, List.map_cons, List.sum_cons]
    refine PosSemidef.add ?_ (ih fun q hq => h q (by simp [hq]))
    have := posSemidef_vecMulVec_self_star (q.1 - m)
    rw [star_trivial] at this
    exact this.smul (h q (by simp))

/-- The image of weighted points under `x ↦ A x + b`. -/
def Spec.affine (A : Matrix (Fin d) (Fin d) ℝ) (b : Fin d → ℝ) (p : List ((Fin d → ℝ) × ℝ)) :
    List ((Fin d → ℝ) × ℝ) := p.map fun q => (A *ᵥ q.1 + b, q.2)

lemma scatter_affine (A : Matrix (Fin d) (Fin d) ℝ) (b m : Fin d → ℝ) (p : List ((Fin d → ℝ) × ℝ)) :
    scatter (A *ᵥ m + b) (Spec.affine A b p) = A * scatter m p * Aᵀ := by
  induction p with
  | nil => simp [scatter, Spec.affine]
  | cons q p ih =>
    simp only [scatter, Spec.affine, List.map_cons, List.sum_cons, List.map_map] at ih ⊢
    rw [ih, Matrix.mul_add, Matrix.add_mul]
    congr 1
    rw [show A *ᵥ q.1 + b - (A *ᵥ m + b) = A *ᵥ (q.1 - m) by rw [Matrix.mulVec_sub]; abel,
      Matrix.mul_smul, Matrix.smul_mul, Matrix.mul_vecMulVec, Matrix.vecMulVec_mul, Matrix.vecMul_transpose]

lemma mean_affine (A : Matrix (Fin d) (Fin d) ℝ) (b : Fin d → ℝ) (p : List ((Fin d → ℝ) × ℝ))
    (h : (p.map Prod.snd).sum ≠ 0) : Spec.mean (Spec.affine A b p) = A *ᵥ Spec.mean p + b := by
  have hs : ∀ p : List ((Fin d → ℝ) × ℝ), ∀ i,
      ((Spec.affine A b p).map fun q => q.2 * q.1 i).sum
        = ∑ j, A i j * (p.map fun q => q.2 * q.1 j).sum + b i * (p.map Prod.snd).sum := by
    intro p i
    induction p with
    | nil => simp [Spec.affine]
    | cons q p ih =>
      simp only [Spec.affine, List.map_cons, List.sum_cons, List.map_map] at ih ⊢
      rw [ih]
      simp only [mul_add, Finset.sum_add_distrib, Pi.add_apply, Matrix.mulVec, dotProduct, Finset.mul_sum]
      rw [show ∀ x y z u v : ℝ, (x + y) + (z + v) = x + z + (y + v) by intros; ring]
      · congr 1
        · congr 1
          exact Finset.sum_congr rfl fun j _ => by ring
        · ring
      · exact 0
  funext i
  have h2 : ((Spec.affine A b p).map Prod.snd) = p.map Prod.snd := by simp [Spec.affine]
  rw [Spec.mean, hs, h2, add_div, mul_div_cancel_right₀ _ h, Pi.add_apply, Matrix.mulVec, dotProduct, Finset.sum_div]
  congr 1
  exact Finset.sum_congr rfl fun j _ => by rw [Spec.mean, mul_div_assoc]

/-- The covariance of transformed points. -/
lemma sampleCov_affine (A : Matrix (Fin d) (Fin d) ℝ) (b : Fin d → ℝ) (p : List ((Fin d → ℝ) × ℝ))
    (h : (p.map Prod.snd).sum ≠ 0) : Spec.sampleCov (Spec.affine A b p) = A * Spec.sampleCov p * Aᵀ := by
  rw [sampleCov_eq, mean_affine A b p h, scatter_affine, sampleCov_eq, Matrix.mul_smul, Matrix.smul_mul]
  simp [Spec.affine, Function.comp_def]

lemma sampleCov_perm {p p' : List ((Fin d → ℝ) × ℝ)} (h : p.Perm p') : Spec.sampleCov p = Spec.sampleCov p' := by
  have hm : Spec.mean p = Spec.mean p' := by
    funext i; rw [Spec.mean, Spec.mean, (h.map _).sum_eq, (h.map Prod.snd).sum_eq]
  ext i j
  simp only [Spec.sampleCov, Matrix.of_apply, hm]
  rw [(h.map _).sum_eq, (h.map Prod.snd).sum_eq, (h.map fun q => q.2 ^ 2).sum_eq]

lemma weighted_snd (data : List (Fin d → ℝ)) (w : Option (List ℝ))
    (hw : ∀ l, w = some l → l.length = data.length) :
    (Spec.weighted data w).map Prod.snd = onesIfNone data w := by
  cases w with
  | none => simp [Spec.weighted, onesIfNone, Function.comp_def]
  | some l => simp only [Spec.weighted, onesIfNone]; rw [List.map_snd_zip]; exact (hw l rfl).le

lemma covFact_eq (data : List (Fin d → ℝ)) (hne : data ≠ []) (w : Option (List ℝ)) :
    covFact data w = (onesIfNone data w).sum - ((onesIfNone data w).map (· ^ 2)).sum / (onesIfNone data w).sum := by
  cases w with
  | none =>
    have : (data.length : ℝ) ≠ 0 := by
      rw [Nat.cast_ne_zero]; exact fun h => hne (List.eq_nil_of_length_eq_zero h)
    simp [covFact, onesIfNone, this]
  | some l => rfl

/-- `np.cov` computes the unbiased weighted covariance. -/
lemma npCov_eq (data : List (Fin d → ℝ)) (hne : data ≠ []) (w : Option (List ℝ))
    (hw : ∀ l, w = some l → l.length = data.length) :
    npCov data w = if covFact data w ≤ 0 then .error .unmodelled
      else .ok (Spec.sampleCov (Spec.weighted data w)) := by
  have hz : ∀ f : (Fin d → ℝ) → ℝ → ℝ, List.zipWith f data (onesIfNone data w)
      = (Spec.weighted data w).map fun q => f q.1 q.2 := by
    intro f
    rw [weighted_eq]
    show _ = (data.zip (onesIfNone data w)).map _
    rw [List.zip_eq_zipWith, List.map_zipWith]
  have hm : wMean data (onesIfNone data w) = Spec.mean (Spec.weighted data w) := by
    funext i
    rw [wMean, hz, Spec.mean, weighted_snd data w hw]
  have h2 : ((Spec.weighted data w).map fun q => q.2 ^ 2) = (onesIfNone data w).map (· ^ 2) := by
    rw [← weighted_snd data w hw, List.map_map]
    rfl
  rw [npCov]
  congr 2
  ext i j
  simp only [Matrix.of_apply, Spec.sampleCov]
  rw [wCross, hz, hm, covFact_eq data hne, h2, weighted_snd data w hw]
  simp only [mul_assoc]

/-- What the stored covariance is. -/
lemma covariance_eq {E : Ext} {a : KDEArgs d} {k : KDE d} (h : KDE.init E a = .ok k) (hc : a.covariance = none) :
    0 < covFact a.dataset k.weights ∧ k.covariance = Spec.sampleCov (Spec.weighted a.dataset k.weights) := by
  have hw : ∀ l, k.weights = some l → l.length = a.dataset.length := fun l hl => (stored_valid h hl).1
  obtain ⟨_, w, cov, _, _, _, _, _, _, hne, _, hcov, _, _, _, _, _, _, rfl⟩ := init_inv h
  rw [hc, covArg, npCov_eq _ hne _ hw] at hcov
  split_ifs at hcov with hf
  exact ⟨not_le.mp hf, (Except.ok.inj hcov).symm⟩

lemma sampleCov_posSemidef (data : List (Fin d → ℝ)) (hne : data ≠ []) (w : Option (List ℝ))
    (hw : ∀ l, w = some l → Spec.ValidW data.length l) (hf : 0 < covFact data w) :
    (Spec.sampleCov (Spec.weighted data w)).PosSemidef := by
  have hl : ∀ l, w = some l → l.length = data.length := fun l hl => (hw l hl).1
  rw [sampleCov_eq]
  refine (scatter_posSemidef _ _ ?_).smul ?_
  · intro q hq
    have : q.2 ∈ onesIfNone data w := by
      rw [← weighted_snd _ _ hl]; exact List.mem_map_of_mem hq
    cases hk : w with
    | none =>
      rw [hk] at this
      have := List.eq_of_mem_replicate this
      rw [this]; norm_num
    | some l => rw [hk] at this; exact (hw l hk).2.1 _ this
  · rw [inv_nonneg]
    have h2 : ((Spec.weighted data w).map fun q => q.2 ^ 2) = (onesIfNone data w).map (· ^ 2) := by
      rw [← weighted_snd _ _ hl, List.map_map]
      rfl
    rw [h2, weighted_snd _ _ hl, ← covFact_eq _ hne]
    exact hf.le

/-- **C19.** The covariance of a KDE (unless given by the user) is the unbiased covariance of the weighted data;
it is symmetric and positive semidefinite. -/
theorem C19_covariance {E : Ext} {a : KDEArgs d} {k : KDE d} (h : KDE.init E a = .ok k) (hc : a.covariance = none) :
    k.covariance = Spec.sampleCov (Spec.weighted a.dataset k.weights) ∧ k.covariance.IsSymm ∧
      k.covariance.PosSemidef := by
  obtain ⟨hf, he⟩ := covariance_eq h hc
  have hps : k.covariance.PosSemidef := by
    rw [he]
    exact sampleCov_posSemidef _ (C16_weights h).1 _ (fun l hl => stored_valid h hl) hf
  refine ⟨he, ?_, hps⟩
  have := hps.isHermitian
  rwa [Matrix.IsHermitian, conjTranspose_eq_transpose_of_trivial] at this

/-- **C19.** The covariance does not depend on the order of the data or on a translation; in general it is
transformed by `C ↦ A C Aᵀ` if the data are transformed by `x ↦ A x + b`. -/
theorem C19_covariance_transform {E : Ext} {a a' : KDEArgs d} {k k' : KDE d} (h : KDE.init E a = .ok k)
    (h' : KDE.init E a' = .ok k') (hc : a.covariance = none) (hc' : a'.covariance = none)
    (A : Matrix (Fin d) (Fin d) ℝ) (b : Fin d → ℝ)
    (hp : (Spec.weighted a'.dataset k'.weights).Perm
      ((Spec.weighted a.dataset k.weights).map fun q => (A *ᵥ q.1 + b, q.2))) :
    k'.covariance = A * k.covariance * Aᵀ ∧ (A = 1 → k'.covariance = k.covariance) := by
  have hw : ∀ l, k.weights = some l → l.length = a.dataset.length := fun l hl => (stored_valid h hl).1
  have hs : ((Spec.weighted a.dataset k.weights).map Prod.snd).sum ≠ 0 := by
    rw [weighted_snd _ _ hw]
    cases hk : k.weights with
    | none =>
      have := (C16_weights h).1
      simpa [onesIfNone] using this
    | some l => exact (validW_sum (stored_valid h hk)).ne'
  have key : k'.covariance = A * k.covariance * Aᵀ := by
    rw [(covariance_eq h hc).2, (covariance_eq h' hc').2, sampleCov_perm hp]
    exact sampleCov_affine A b _ hs
  exact ⟨key, fun h1 => by rw [key, h1]; simp⟩

/-- Specification: the bandwidth argument is a scalar (or omitted), possibly rescaled by a number, or the bandwidth
matrix is diagonal by request or by form. -/
def Spec.ScalarOrDiagonal (a : KDEArgs d) : Prop :=
  match a.bandwidth with
  | .none | .val _ => a.diagonal = true ∨ a.rescale = .none ∨ ∃ c, a.rescale = .scalar c
  | .vec _ => True
  | .mat _ _ _ => False

lemma scalarOrDiagonal_bandwidth {E : Ext} {a : KDEArgs d} {k : KDE d} (h : KDE.init E a = .ok k)
    (hb : Spec.ScalarOrDiagonal a) :
    (∃ b, ∀ i j, k.bandwidth i j = b) ∨ (∀ i j, i ≠ j → k.bandwidth i j = 0) := by
  obtain ⟨B, hB, hR⟩ := C18_bandwidth h
  have key : ∀ b, (∀ i j, B i j = if a.diagonal = true ∧ i ≠ j then 0 else b) →
      (a.diagonal = true ∨ a.rescale = .none ∨ ∃ c, a.rescale = .scalar c) →
      (∃ b, ∀ i j, k.bandwidth i j = b) ∨ (∀ i j, i ≠ j → k.bandwidth i j = 0) := by
    intro b hb hr
    cases hdg : a.diagonal with
    | true =>
      right
      intro i j hij
      have hz : B i j = 0 := by rw [hb, if_pos ⟨hdg, hij⟩]
      cases hs : a.rescale <;> rw [hs] at hR <;> simp only [Spec.Rescaled] at hR
      · rw [hR]; exact hz
      all_goals rw [hR, hz, mul_zero]
    | false =>
      left
      have hb' : ∀ i j, B i j = b := fun i j => by rw [hb, if_neg (by simp [hdg])]
      rcases hr with hr | hr | ⟨c, hr⟩
      · rw [hdg] at hr; cases hr
      · rw [hr] at hR; exact ⟨b, fun i j => by rw [show k.bandwidth = B from hR]; exact hb' i j⟩
      · rw [hr] at hR; exact ⟨c * b, fun i j => by rw [hR i j, hb']⟩
  unfold Spec.ScalarOrDiagonal at hb
  cases hbw : a.bandwidth with
  | none => rw [hbw] at hb hB; obtain ⟨b, _, h2⟩ := hB; exact key b h2 hb
  | val v => rw [hbw] at hb hB; obtain ⟨b, _, h2⟩ := hB; exact key b h2 hb
  | vec l =>
    rw [hbw] at hB
    right
    intro i j hij
    have hz : B i j = 0 := by have := hB.2 i j; rwa [if_neg hij] at this
    cases hs : a.rescale <;> rw [hs] at hR <;> simp only [Spec.Rescaled] at hR
    · rw [hR]; exact hz
    all_goals rw [hR, hz, mul_zero]
  | mat r c f => rw [hbw] at hb; exact hb.elim

lemma kernelMatrix_psd {C B : Matrix (Fin d) (Fin d) ℝ}
    (hB : (∃ b, ∀ i j, B i j = b) ∨ (∀ i j, i ≠ j → B i j = 0)) :
    (C.PosSemidef → (Spec.kernelMatrix C B).PosSemidef) ∧
      (C.PosDef → (∀ i, B i i ≠ 0) → (Spec.kernelMatrix C B).PosDef) := by
  rcases hB with ⟨b, hb⟩ | hb
  · have : Spec.kernelMatrix C B = b ^ 2 • C := by
      ext i j; simp [Spec.kernelMatrix, hb, mul_comm]
    rw [this]
    refine ⟨fun hC => hC.smul (sq_nonneg b), fun hC h0 => ?_⟩
    by_cases hd : Nonempty (Fin d)
    · obtain ⟨i⟩ := hd
      have := h0 i
      rw [hb] at this
      exact hC.smul (by positivity)
    · rw [not_nonempty_iff] at hd
      exact ⟨by ext i; exact hd.elim i, fun x hx => absurd (Subsingleton.elim x 0) hx⟩
  · have : Spec.kernelMatrix C B = Matrix.diagonal fun i => C i i * B i i ^ 2 := by
      ext i j
      by_cases hij : i = j
      · subst hij; simp [Spec.kernelMatrix]
      · simp [Spec.kernelMatrix, hb i j hij, Matrix.diagonal_apply_ne _ hij]
    rw [this]
    refine ⟨fun hC => PosSemidef.diagonal fun i => mul_nonneg hC.diag_nonneg (sq_nonneg _), fun hC h0 => ?_⟩
    refine PosDef.diagonal fun i => ?_
    have := h0 i
    have := hC.diag_pos (i := i)
    positivity

/-- **C19.** The kernel matrix is the covariance times the squared bandwidth, entry by entry.  With a scalar or
diagonal bandwidth it is symmetric and positive semidefinite; it is positive definite if the covariance is and no
bandwidth vanishes.  (The covariance may be given by the user, then it must itself be positive semidefinite.) -/
theorem C19_kernel_matrix {E : Ext} {a : KDEArgs d} {k : KDE d} (h : KDE.init E a = .ok k)
    (hb : Spec.ScalarOrDiagonal a) (hc : ∀ C, a.covariance = some C → C.PosSemidef) :
    (∀ i j, k.kernel.matrix i j = k.covariance i j * k.bandwidth i j ^ 2) ∧
    k.kernel.matrix.IsSymm ∧ k.kernel.matrix.PosSemidef ∧
    (k.covariance.PosDef → (∀ i, k.bandwidth i i ≠ 0) → k.kernel.matrix.PosDef) := by
  have hk := C18_matrix h
  have hB := scalarOrDiagonal_bandwidth h hb
  have hC : k.covariance.PosSemidef := by
    cases hcov : a.covariance with
    | none => exact (C19_covariance h hcov).2.2
    | some C =>
      obtain ⟨_, w, cov, _, _, _, _, _, _, hne, _, hcov', _, _, _, _, _, _, rfl⟩ := init_inv h
      rw [hcov] at hcov'
      cases hcov'
      exact hc _ hcov
  have hM : k.kernel.matrix = Spec.kernelMatrix k.covariance k.bandwidth := hk.1
  have hps : k.kernel.matrix.PosSemidef := by rw [hM]; exact (kernelMatrix_psd hB).1 hC
  refine ⟨fun i j => by rw [hM]; rfl, ?_, hps, fun h1 h2 => by rw [hM]; exact (kernelMatrix_psd hB).2 h1 h2⟩
  have := hps.isHermitian
  rwa [Matrix.IsHermitian, conjTranspose_eq_transpose_of_trivial] at this

/-! ## Concrete cases -/

/-- With more than one effective point, a finite kernel and a number as bandwidth the construction from data and
weights alone succeeds. -/
lemma auto_init (E : Ext) (data : List (Fin d → ℝ)) (hne : data ≠ []) (w : Option (List ℝ))
    (hw : ∀ l, w = some l → Spec.ValidW data.length l) (hf : 0 < covFact data w) (D : Dist) (hD : D.finite = true)
    (b : ℝ) :
    ∃ k, KDE.init E
      { dataset := data
        weights := w.elim .none fun l => .arr (l.map Flt.fin)
        kernel := .cls D
        bandwidth := .val (.num b) } = .ok k ∧ k.weights = w := by
  obtain ⟨dat, h1, h2⟩ := dataExtrema_spec hne
  have hcw : checkWeights data.length (w.elim .none fun l => .arr (l.map Flt.fin)) = .ok w := by
    cases w with
    | none => rfl
    | some l => exact checkWeights_valid (hw l rfl)
  unfold KDE.init
  simp only [checkReflect, if_neg hne, hcw, covArg, npCov_eq data hne w fun l hl => (hw l hl).1,
    if_neg (not_le.mpr hf), bwMatrix, computeBw, Except.map, getDistribution, kernelOut, hD, if_true, effExtrema, h1]
  rw [if_neg (by simp), if_pos]
  · exact ⟨_, rfl, rfl⟩
  · intro i
    simp only [Kernel.init, rescaleBw, Matrix.of_apply]
    exact mul_nonneg (sampleCov_posSemidef data hne w hw hf).diag_nonneg (sq_nonneg _)

/-- Concrete case of the hypotheses of the C19 theorems: two weighted points in the plane. -/
example : ∃ (a : KDEArgs 2) (k : KDE 2), KDE.init ⟨fun A => A, id⟩ a = .ok k ∧ a.covariance = none ∧
    Spec.ScalarOrDiagonal a ∧ (∀ C, a.covariance = some C → C.PosSemidef) := by
  obtain ⟨k, hk, _⟩ := auto_init ⟨fun A => A, id⟩ [![0, 1], ![2, 5]] (by simp) (some [1, 3])
    (by rintro l h; cases h; exact ⟨rfl, by simp, 1, by simp, by norm_num⟩) (by norm_num [covFact]) .box rfl 2
  exact ⟨_, k, hk, rfl, Or.inr (Or.inl rfl), by simp⟩

/-- A positive definite covariance and kernel matrix. -/
example : ∃ (k : KDE 1), KDE.init ⟨fun A => A, id⟩
      { dataset := [![0], ![2]]
        kernel := .cls .box
        bandwidth := .val (.num 2) } = .ok k ∧ k.covariance.PosDef ∧ ∀ i, k.bandwidth i i ≠ 0 := by
  obtain ⟨k, hk, hw⟩ := auto_init ⟨fun A => A, id⟩ [![(0:ℝ)], ![2]] (by simp) none (by simp)
    (by norm_num [covFact]) .box rfl 2
  refine ⟨k, hk, ?_, ?_⟩
  · rw [(C19_covariance hk rfl).1, hw]
    have : Spec.sampleCov (Spec.weighted [![(0:ℝ)], ![2]] none) = Matrix.diagonal fun _ => 2 := by
      ext i j
      have hi : i = 0 := Subsingleton.elim _ _
      have hj : j = 0 := Subsingleton.elim _ _
      subst hi hj
      norm_num [Spec.sampleCov, Spec.weighted, Spec.mean]
    rw [this]
    exact PosDef.diagonal fun i => by norm_num
  · intro i
    obtain ⟨B, ⟨b, rfl, hB⟩, hR⟩ := C18_bandwidth hk
    simp only [Spec.Rescaled] at hR
    rw [hR, hB]
    simp

end Kalepy
