import Mathlib.MeasureTheory.Integral.Bochner.Basic
import Mathlib.MeasureTheory.Constructions.Pi
import Mathlib.MeasureTheory.Measure.Lebesgue.Basic
import Verif.Model.NDArr

/-!
# Specification vocabulary for grids
-/

namespace Kalepy.Spec

/-- Multilinear interpolant of the corner values of cell `idx`, at relative position `t ∈ [0,1]^D`. -/
noncomputable def multilinear {d : ℕ} (a : NDArr d ℝ) (idx : Fin d → ℕ) (t : Fin d → ℝ) : ℝ :=
  ∑ c : Fin d → Fin 2, a.get (fun j => idx j + c j) * ∏ j, if c j = 1 then t j else 1 - t j

/-- The unit cell `[0,1]^D`. -/
def unitCell (d : ℕ) : Set (Fin d → ℝ) := Set.univ.pi fun _ => Set.Icc 0 1

end Kalepy.Spec
