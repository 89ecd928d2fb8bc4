import Verif.Props.GridPdfAll
import Verif.Props.ReflectDims
import Verif.Props.ResampleReflect

/-!
# C176: the integral of the pdf over large grids, with boundaries
-/

namespace Kalepy

open MeasureTheory

variable {d : ℕ}

private lemma box_total {F : (Fin d → ℝ) → ℝ} (hI : Integrable F) (hFn : ∀ x, 0 ≤ F x) {ε : ℝ} (hε : 0 < ε) :
    ∃ R : ℝ, ∀ u v : Fin d → ℝ, (∀ i, u i ≤ -R) → (∀ i, R ≤ v i) → (∫ y, F y) - ε < ∫ y in Spec.box u v, F y := by
  rcases (integral_nonneg (μ := volume) (f := F) hFn).eq_or_lt with h0 | h0
  · exact ⟨0, fun u v _ _ => by
      rw [← h0]
      exact lt_of_lt_of_le (by linarith) (integral_nonneg hFn)⟩
  · obtain ⟨R, hR⟩ := box_mass (F := fun y => F y / ∫ y, F y) (hI.div_const _) (fun x => div_nonneg (hFn x) h0.le)
      (by rw [integral_div, div_self h0.ne']) (div_pos hε h0)
    refine ⟨R, fun u v hu hv => ?_⟩
    have := hR u v hu hv
    rw [integral_div, lt_div_iff₀ h0, sub_mul, one_mul, div_mul_cancel₀ _ h0.ne'] at this
    exact this

/-- **C176**, integral of the pdf over everything, for every `KDE`, with or without boundaries: on every sufficiently large box (which may
reach beyond the boundaries) and every grid that covers it in sufficiently small steps, `trapz_nd` of the pdf returned for the grid is
within `τ` of the integral of the pdf over the whole space. -/
theorem C176_total {E : Ext} {a : KDEArgs d} {k : KDE d} (h : KDE.init E a = .ok k) (hd : 0 < d) (srt : List ℝ → List ℕ)
    (hM : (Spec.kernelMatrix k.covariance k.bandwidth).PosDef) {F : (Fin d → ℝ) → ℝ} (hF : Spec.Reports E srt k F) {τ : ℝ} (hτ : 0 < τ) :
    ∃ R : ℝ, ∀ u v : Fin d → ℝ, (∀ i, u i ≤ -R) → (∀ i, R ≤ v i) →
    ∃ δ > 0, ∀ rows : List (List ℝ), Spec.IsGrid d rows → Spec.lowNode rows = u → Spec.topNode rows = v →
      (∀ (i : Fin d) (j : ℕ), j + 1 < (rows.getD i []).length →
        (rows.getD i []).getD (j + 1) 0 - (rows.getD i []).getD j 0 ≤ δ) →
      ∃ p arr T, (k.pdf E srt (some (.rows rows)) .none .none true).1 = .ok (p, arr) ∧
        trapzNd (arr.toND rows : NDArr d ℝ) rows = .ok T ∧ |T - ∫ y, F y| ≤ τ := by
  have hI := pdf_integrable h hd srt hM hF
  have hFn := (C132_mostly h hd srt hM hF 0 0).1
  obtain ⟨R, hR⟩ := box_total hI hFn (half_pos hτ)
  refine ⟨R, fun u v hu hv => ?_⟩
  have h1 := hR u v hu hv
  have h2 : ∫ y in Spec.box u v, F y ≤ ∫ y, F y := setIntegral_le_integral hI (Filter.Eventually.of_forall hFn)
  obtain ⟨δ, hδ, hgrid⟩ := C176_all_integral h hd srt hM hF u v (half_pos hτ)
  refine ⟨δ, hδ, fun rows hg hlo hto hmesh => ?_⟩
  obtain ⟨p, arr, T, h3, h4, h5⟩ := hgrid rows hg hlo hto hmesh
  refine ⟨p, arr, T, h3, h4, ?_⟩
  rw [abs_le] at h5 ⊢
  constructor <;> linarith [h5.1, h5.2]

/-- **C176**, integral of the pdf over everything with at most one boundary in each dimension, for kernels which do not couple dimensions with
boundaries to others: as `C176_unit`, the result is within `τ` of 1. -/
theorem C176_unit_one_sided {E : Ext} {a : KDEArgs d} {k : KDE d} (h : KDE.init E a = .ok k) (hd : 0 < d) (srt : List ℝ → List ℕ)
    (hM : (Spec.kernelMatrix k.covariance k.bandwidth).PosDef) (bnds : List ReflRow) (hr : k.reflect = some bnds)
    (hone : ∀ j : Fin d, (Spec.bounds (bnds.getD j none)).length ≤ 1)
    (hunc : ∀ j : Fin d, Spec.bounds (bnds.getD j none) ≠ [] → ∀ i, i ≠ j →
      Spec.kernelMatrix k.covariance k.bandwidth j i = 0 ∧ Spec.kernelMatrix k.covariance k.bandwidth i j = 0) {τ : ℝ} (hτ : 0 < τ) :
    ∃ R : ℝ, ∀ u v : Fin d → ℝ, (∀ i, u i ≤ -R) → (∀ i, R ≤ v i) →
    ∃ δ > 0, ∀ rows : List (List ℝ), Spec.IsGrid d rows → Spec.lowNode rows = u → Spec.topNode rows = v →
      (∀ (i : Fin d) (j : ℕ), j + 1 < (rows.getD i []).length →
        (rows.getD i []).getD (j + 1) 0 - (rows.getD i []).getD j 0 ≤ δ) →
      ∃ p arr T, (k.pdf E srt (some (.rows rows)) .none .none true).1 = .ok (p, arr) ∧
        trapzNd (arr.toND rows : NDArr d ℝ) rows = .ok T ∧ |T - 1| ≤ τ := by
  obtain ⟨F, hF, h1⟩ := C12_one_sided_total h srt hd hM bnds hr hone hunc
  rw [← h1]
  exact C176_total h hd srt hM (fun pts => hF [] pts) hτ

/-- Concrete case of the hypotheses of `C176_total` and `C176_unit_one_sided`: one point in the plane, a lower boundary in the first and an upper
boundary in the second dimension, and the parabola kernel. -/
example (E : Ext) (srt : List ℝ → List ℕ) : ∃ (a : KDEArgs 2) (k : KDE 2) (bnds : List ReflRow) (F : (Fin 2 → ℝ) → ℝ),
    KDE.init E a = .ok k ∧ (Spec.kernelMatrix k.covariance k.bandwidth).PosDef ∧ k.reflect = some bnds ∧
    bnds = [some (some 0, none), some (none, some 3)] ∧ (∀ j : Fin 2, (Spec.bounds (bnds.getD j none)).length ≤ 1) ∧
    (∀ j : Fin 2, Spec.bounds (bnds.getD j none) ≠ [] → ∀ i, i ≠ j →
      Spec.kernelMatrix k.covariance k.bandwidth j i = 0 ∧ Spec.kernelMatrix k.covariance k.bandwidth i j = 0) ∧ Spec.Reports E srt k F := by
  obtain ⟨k, hk, hw, hD, hM, hr, _, _⟩ := unit_init_reflect E ([![1, 2]] : List (Fin 2 → ℝ)) (by simp) .parabola rfl
    [some (some 0, none), some (none, some 3)] rfl (by intro lo hi h; simp at h) ⟨(some 0, none), by simp⟩
  have hpd : (Spec.kernelMatrix k.covariance k.bandwidth).PosDef := by rw [hM]; exact Matrix.PosDef.one
  have h1 : ∀ j : Fin 2, (Spec.bounds (([some (some 0, none), some (none, some 3)] : List ReflRow).getD j none)).length ≤ 1 := by
    intro j; fin_cases j <;> simp [Spec.bounds]
  have h2 : ∀ j : Fin 2, Spec.bounds (([some (some 0, none), some (none, some 3)] : List ReflRow).getD j none) ≠ [] → ∀ i, i ≠ j →
      Spec.kernelMatrix k.covariance k.bandwidth j i = 0 ∧ Spec.kernelMatrix k.covariance k.bandwidth i j = 0 := by
    intro j _ i hij
    rw [hM]
    exact ⟨Matrix.one_apply_ne hij.symm, Matrix.one_apply_ne hij⟩
  obtain ⟨F, hF, _⟩ := C12_one_sided_total hk srt two_pos hpd _ hr h1 h2
  exact ⟨_, k, _, F, hk, hpd, hr, rfl, h1, h2, fun pts => hF [] pts⟩

end Kalepy
