import Mathlib.Probability.Distributions.Gaussian.Real
import Mathlib.Probability.HasLaw
import Mathlib.Probability.Independence.Basic
import Mathlib.MeasureTheory.Constructions.Pi
import Verif.Model.Resample

/-!
# Specification of numpy's random numbers

The numbers of one `Draw` as a tuple, and what the generator promises about them: uniform and standard normal numbers,
all independent of each other.
-/

namespace Kalepy

open MeasureTheory ProbabilityTheory

/-- The random numbers of one sample: `gauss`, `unif`, `sym`, `trip`, `pick`. -/
abbrev DrawTuple (d : ℕ) : Type := (Fin d → ℝ) × (Fin d → ℝ) × (Fin d → ℝ) × (Fin d → ℝ × ℝ × ℝ) × ℝ

/-- The numbers of a draw. -/
def Draw.tuple {d : ℕ} (r : Draw d) : DrawTuple d := (r.gauss, r.unif, r.sym, r.trip, r.pick)

namespace Spec

/-- The uniform distribution on `[0, 1)`. -/
noncomputable def unitLaw : Measure ℝ := volume.restrict (Set.Ico 0 1)

/-- The uniform distribution on `[-1, 1)`. -/
noncomputable def symLaw : Measure ℝ := (2 : ENNReal)⁻¹ • volume.restrict (Set.Ico (-1) 1)

instance : IsProbabilityMeasure unitLaw := ⟨by simp [unitLaw]⟩

instance : IsProbabilityMeasure symLaw := ⟨by
  simp only [symLaw, Measure.smul_apply, Measure.restrict_apply_univ, Real.volume_Ico, smul_eq_mul]
  norm_num
  rw [ENNReal.inv_mul_cancel] <;> simp⟩

/-- The law of the numbers of one sample: independent standard normal and uniform numbers. -/
noncomputable def drawLaw (d : ℕ) : Measure (DrawTuple d) :=
  (Measure.pi fun _ => gaussianReal 0 1).prod ((Measure.pi fun _ => unitLaw).prod ((Measure.pi fun _ => symLaw).prod
    ((Measure.pi fun _ => symLaw.prod (symLaw.prod symLaw)).prod unitLaw)))

instance (d : ℕ) : IsProbabilityMeasure (drawLaw d) := by unfold drawLaw; infer_instance

/-- What numpy promises: every draw has this law, and different draws are independent. -/
structure RandomNumbers {Ω : Type*} [MeasurableSpace Ω] {d : ℕ} (μ : Measure Ω) (rnd : Ω → ℕ → ℕ → Draw d) : Prop where
  law : ∀ m n, HasLaw (fun ω => (rnd ω m n).tuple) (drawLaw d) μ
  indep : iIndepFun (fun (p : ℕ × ℕ) ω => (rnd ω p.1 p.2).tuple) μ

end Spec

end Kalepy
