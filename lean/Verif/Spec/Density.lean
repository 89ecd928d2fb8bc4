import Mathlib.LinearAlgebra.Matrix.PosDef
import Verif.Model.Kernels

/-!
# Specification vocabulary for density properties

Independent of the evaluation code: no whitening, no loops over reflections.
-/

namespace Kalepy.Spec

open Matrix

/-- Documented kernel shapes as functions of the squared scaled distance `s = |u|²`. -/
noncomputable def shape : Dist → ℝ → ℝ
  | .gaussian, s => Real.exp (-s / 2)
  | .box, s => if s ≤ 1 then 1 else 0
  | .parabola, s => if s ≤ 1 then 1 - s else 0
  | .triweight, s => if s ≤ 1 then (1 - s) ^ 3 else 0

/-- Squared distance of `u` from the origin in the metric `M⁻¹`. -/
noncomputable def dist2 {d : ℕ} (M : Matrix (Fin d) (Fin d) ℝ) (u : Fin d → ℝ) : ℝ :=
  u ⬝ᵥ M⁻¹ *ᵥ u

/-- Sum over weighted data `(d_j, w_j)` of `w_j K((x-d_j)ᵀ M⁻¹ (x-d_j))`. -/
noncomputable def kernelSum {d : ℕ} (D : Dist) (M : Matrix (Fin d) (Fin d) ℝ)
    (wdata : List ((Fin d → ℝ) × ℝ)) (x : Fin d → ℝ) : ℝ :=
  (wdata.map fun p => p.2 * shape D (dist2 M (x - p.1))).sum

/-- The kernel matrix: covariance times bandwidth squared, entry by entry. -/
def kernelMatrix {d : ℕ} (cov bw : Matrix (Fin d) (Fin d) ℝ) : Matrix (Fin d) (Fin d) ℝ :=
  Matrix.of fun i j => cov i j * bw i j ^ 2

/-- Data with weights; omitted weights mean weight 1 each. -/
def weighted {α : Type*} (data : List α) : Option (List ℝ) → List (α × ℝ)
  | none => data.map fun a => (a, 1)
  | some w => data.zip w

/-- `x` violates the boundaries of row `r` (strictly beyond a given location). -/
def Violates (r : ReflRow) (x : ℝ) : Prop :=
  ∃ lo hi, r = some (lo, hi) ∧ ((∃ l, lo = some l ∧ x < l) ∨ (∃ h, hi = some h ∧ h < x))

/-- Mirror image of a point in the hyperplane `x i = b`. -/
def mirror {d : ℕ} (i : Fin d) (b : ℝ) (x : Fin d → ℝ) : Fin d → ℝ :=
  fun j => if j = i then b - (x j - b) else x j

end Kalepy.Spec
