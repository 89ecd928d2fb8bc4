import Verif.Proofs.Moments

/-!
# Fourth moments of radial functions
-/

namespace Kalepy

open MeasureTheory Matrix

variable {d : ℕ}

/-- Reflection in the plane of two coordinates by which their product becomes the difference of their squares. -/
noncomputable def flip45 (i j : Fin d) : (Fin d → ℝ) →ₗ[ℝ] (Fin d → ℝ) where
  toFun x k := if k = i then (x i + x j) / Real.sqrt 2 else if k = j then (x i - x j) / Real.sqrt 2 else x k
  map_add' x y := by
    funext k
    simp only [Pi.add_apply]
    split_ifs <;> ring
  map_smul' c x := by
    funext k
    simp only [Pi.smul_apply, smul_eq_mul, RingHom.id_apply]
    split_ifs <;> ring

lemma flip45_left (i j : Fin d) (x : Fin d → ℝ) : flip45 i j x i = (x i + x j) / Real.sqrt 2 := by simp [flip45]

lemma flip45_right {i j : Fin d} (hij : i ≠ j) (x : Fin d → ℝ) : flip45 i j x j = (x i - x j) / Real.sqrt 2 := by
  simp [flip45, hij.symm]

lemma flip45_other {i j k : Fin d} (hi : k ≠ i) (hj : k ≠ j) (x : Fin d → ℝ) : flip45 i j x k = x k := by
  simp [flip45, hi, hj]

lemma sqrt_two_sq : Real.sqrt 2 * Real.sqrt 2 = 2 := Real.mul_self_sqrt (by norm_num)

lemma flip45_flip45 {i j : Fin d} (hij : i ≠ j) (x : Fin d → ℝ) : flip45 i j (flip45 i j x) = x := by
  have h2 : Real.sqrt 2 ≠ 0 := by positivity
  have hs := sqrt_two_sq
  funext k
  by_cases hi : k = i
  · subst hi
    rw [flip45_left, flip45_left, flip45_right hij]
    field_simp
    rw [sq, hs]
    ring
  · by_cases hj : k = j
    · subst hj
      rw [flip45_right hij, flip45_left, flip45_right hij]
      field_simp
      rw [sq, hs]
      ring
    · rw [flip45_other hi hj, flip45_other hi hj]

lemma flip45_dot {i j : Fin d} (hij : i ≠ j) (x : Fin d → ℝ) : flip45 i j x ⬝ᵥ flip45 i j x = x ⬝ᵥ x := by
  have h : ∑ k, (flip45 i j x k * flip45 i j x k - x k * x k) = 0 := by
    rw [Finset.sum_eq_add i j hij]
    · rw [flip45_left, flip45_right hij, div_mul_div_comm, div_mul_div_comm, sqrt_two_sq]
      ring
    · rintro k _ ⟨h1, h2⟩
      rw [flip45_other h1 h2, sub_self]
    · simp
    · simp
  rw [Finset.sum_sub_distrib] at h
  simp only [dotProduct]
  linarith

lemma flip45_det {i j : Fin d} (hij : i ≠ j) : |(flip45 i j).toMatrix'.det| = 1 := by
  have h : (flip45 i j).toMatrix' * (flip45 i j).toMatrix' = 1 := by
    rw [← LinearMap.toMatrix'_comp, ← LinearMap.toMatrix'_id]
    congr 1
    ext x : 1
    exact LinearMap.ext fun t => by simpa using flip45_flip45 hij (Pi.single x t)
  have := congrArg det h
  rw [det_mul, det_one, ← abs_mul_abs_self] at this
  nlinarith [abs_nonneg (flip45 i j).toMatrix'.det]

/-- Integrals of a product of four coordinates against a radial function. -/
theorem integral_radial4 {φ : ℝ → ℝ} (hφ : Measurable φ) (h0 : ∀ s, 0 ≤ φ s)
    (hi : Integrable fun x : Fin d → ℝ => (x ⬝ᵥ x) ^ 2 * φ (x ⬝ᵥ x)) {i j : Fin d} (hij : i ≠ j) :
    ∫ x : Fin d → ℝ, x i ^ 2 * x j ^ 2 * φ (x ⬝ᵥ x)
      = (∫ x : Fin d → ℝ, (x ⬝ᵥ x) ^ 2 * φ (x ⬝ᵥ x)) / (d * (d + 2)) := by
  have hint : ∀ a b : Fin d, Integrable fun x : Fin d → ℝ => x a ^ 2 * x b ^ 2 * φ (x ⬝ᵥ x) := by
    intro a b
    refine hi.mono' ?_ (ae_of_all _ fun x => ?_)
    · exact ((((measurable_pi_apply a).pow_const 2).mul ((measurable_pi_apply b).pow_const 2)).mul
        (measurable_dot hφ)).aestronglyMeasurable
    · rw [Real.norm_eq_abs, abs_mul, abs_of_nonneg (h0 (x ⬝ᵥ x)), abs_of_nonneg (by positivity), sq (x ⬝ᵥ x)]
      have h1 := sq_le_dot x a
      have h2 := sq_le_dot x b
      exact mul_le_mul_of_nonneg_right (mul_le_mul h1 h2 (sq_nonneg _) ((sq_nonneg _).trans h1)) (h0 _)
  obtain ⟨I, hI⟩ : ∃ I, I = ∫ x : Fin d → ℝ, x i ^ 2 * x i ^ 2 * φ (x ⬝ᵥ x) := ⟨_, rfl⟩
  -- the fourth power of one coordinate
  have hdiag : ∀ a, ∫ x : Fin d → ℝ, x a ^ 2 * x a ^ 2 * φ (x ⬝ᵥ x) = I := by
    intro a
    rw [hI]
    have := integral_radial_swap φ (fun a b => a ^ 2 * b ^ 2) i a i i
    rwa [Equiv.swap_apply_left] at this
  -- two different coordinates
  have hoff : ∀ a b : Fin d, a ≠ b → ∫ x : Fin d → ℝ, x a ^ 2 * x b ^ 2 * φ (x ⬝ᵥ x)
      = I / 3 := by
    intro a b hab
    have hdet := flip45_det hab
    have hne : (flip45 a b).toMatrix'.det ≠ 0 := by
      intro h
      rw [h] at hdet
      norm_num at hdet
    have h := integral_comp_mulVec hne fun x => x a ^ 2 * x b ^ 2 * φ (x ⬝ᵥ x)
    have hm : ∀ x : Fin d → ℝ, (flip45 a b).toMatrix' *ᵥ x = flip45 a b x := fun x => LinearMap.toMatrix'_mulVec _ _
    simp only [hm, hdet, inv_one, one_mul, flip45_dot hab, flip45_left, flip45_right hab] at h
    have he : ∀ x : Fin d → ℝ, ((x a + x b) / Real.sqrt 2) ^ 2 * ((x a - x b) / Real.sqrt 2) ^ 2 * φ (x ⬝ᵥ x)
        = 1 / 4 * (x a ^ 2 * x a ^ 2 * φ (x ⬝ᵥ x)) + 1 / 4 * (x b ^ 2 * x b ^ 2 * φ (x ⬝ᵥ x))
          - 1 / 2 * (x a ^ 2 * x b ^ 2 * φ (x ⬝ᵥ x)) := by
      intro x
      rw [div_pow, div_pow, Real.sq_sqrt (by norm_num)]
      ring
    simp only [he] at h
    have hadd : Integrable fun x : Fin d → ℝ => 1 / 4 * (x a ^ 2 * x a ^ 2 * φ (x ⬝ᵥ x))
        + 1 / 4 * (x b ^ 2 * x b ^ 2 * φ (x ⬝ᵥ x)) := ((hint a a).const_mul _).add ((hint b b).const_mul _)
    rw [integral_sub hadd ((hint a b).const_mul _), integral_add ((hint a a).const_mul _) ((hint b b).const_mul _)] at h
    simp only [integral_const_mul, hdiag a, hdiag b] at h
    linarith
  have hsum : ∀ x : Fin d → ℝ, (x ⬝ᵥ x) ^ 2 * φ (x ⬝ᵥ x) = ∑ a, ∑ b, x a ^ 2 * x b ^ 2 * φ (x ⬝ᵥ x) := by
    intro x
    simp only [← Finset.sum_mul, ← Finset.mul_sum]
    simp only [dotProduct, sq]
  simp only [hsum]
  rw [integral_finsetSum _ fun a _ => integrable_finset_sum _ fun b _ => hint a b]
  simp only [integral_finsetSum _ fun b _ => hint _ b]
  have hval : ∀ a b : Fin d, ∫ x : Fin d → ℝ, x a ^ 2 * x b ^ 2 * φ (x ⬝ᵥ x)
      = I / 3
        + if a = b then 2 / 3 * I else 0 := by
    intro a b
    split_ifs with h
    · subst h; rw [hdiag]; ring
    · rw [hoff a b h]; ring
  simp only [hval, Finset.sum_add_distrib, Finset.sum_const, Finset.card_univ, Fintype.card_fin, nsmul_eq_mul,
    Finset.sum_ite_eq, Finset.mem_univ, if_true, if_neg hij, add_zero]
  have hd : (0:ℝ) < d := by exact_mod_cast (Fin.pos i)
  field_simp

end Kalepy
