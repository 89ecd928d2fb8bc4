import Mathlib.MeasureTheory.Integral.IntervalIntegral.Basic
import Verif.Model.NDArr

/-!
# Specification vocabulary for grid sampling
-/

namespace Kalepy.Spec

/-- Mean of the array over the corners of cell `b` on its lower (`s = 0`) or upper (`s = 1`) face
along axis `i`. -/
noncomputable def faceMean {d : ℕ} (a : NDArr d ℝ) (i : Fin d) (b : Fin d → ℕ) (s : Fin 2) : ℝ :=
  (∑ c : Fin d → Fin 2, if c i = s then a.get (fun j => b j + c j) else 0) / 2 ^ (d - 1)

/-- Integral from 0 to `t` of the linear function with value `y0` at 0 and `y1` at 1. -/
noncomputable def linearCdf (y0 y1 t : ℝ) : ℝ := ∫ τ in (0 : ℝ)..t, (y0 * (1 - τ) + y1 * τ)

/-- `x` lies in the (closed) bin `b` of the grid. -/
def InBin {d : ℕ} (edges : List (List ℝ)) (b : Fin d → ℕ) (x : Fin d → ℝ) : Prop :=
  ∀ i : Fin d, (edges.getD i []).getD (b i) 0 ≤ x i ∧ x i ≤ (edges.getD i []).getD (b i + 1) 0

/-- `x` lies strictly inside the bin `b` of the grid. -/
def InBinInterior {d : ℕ} (edges : List (List ℝ)) (b : Fin d → ℕ) (x : Fin d → ℝ) : Prop :=
  ∀ i : Fin d, (edges.getD i []).getD (b i) 0 < x i ∧ x i < (edges.getD i []).getD (b i + 1) 0

/-- Volume of bin `b` of the grid. -/
noncomputable def binVolume {d : ℕ} (edges : List (List ℝ)) (b : Fin d → ℕ) : ℝ :=
  ∏ i : Fin d, ((edges.getD i []).getD (b i + 1) 0 - (edges.getD i []).getD (b i) 0)

/-- Mean of the array over the `2^d` corners of cell `b`. -/
noncomputable def cornerMean {d : ℕ} (a : NDArr d ℝ) (b : Fin d → ℕ) : ℝ :=
  (∑ c : Fin d → Fin 2, a.get fun i => b i + c i) / 2 ^ d

end Kalepy.Spec
