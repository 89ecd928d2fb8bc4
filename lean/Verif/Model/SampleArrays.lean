import Verif.Model.Resample
import Verif.Model.Sample

/-!
# Model of the arrays returned by `resample`, `sample_grid` and `sample_outliers`
-/

namespace Kalepy

variable {d : ℕ}

/-- The `(D, N)` array of samples, in C order (one row after another); `squeeze()` removes all axes of length one. -/
def sampleArr (squeeze : Bool) (l : List (Fin d → ℝ)) : Arr where
  shape := if squeeze then squeezeShape [d, l.length] else [d, l.length]
  vals := (List.finRange d).flatMap fun i => l.map fun x => x i

/-- `kde.py:531-572` `KDE.resample` and `kernels.py:166-169`: the returned array. -/
noncomputable def KDE.resampleArr (k : KDE d) (size : Option ℕ := none) (keep : KeepArg := .none)
    (reflect : Reflect := .none) (squeeze : Bool := true) (rnd : ℕ → ℕ → Draw d) : Res Arr :=
  (k.resample size keep reflect squeeze rnd).map fun s => sampleArr (decide (d = 1) && squeeze) s.points

/-- `sample.py:402-438` `sample_grid`: the returned array, and the scalars if there are some. -/
noncomputable def sampleGridArr (srt : List ℝ → List ℕ) (r : Rand d) (edges : List (List ℝ))
    (dens : NDArr d ℝ) (nsamp : Option ℝ := none) (mass scalarDens scalarMass : Option (NDArr d ℝ) := none)
    (squeeze : Option Bool := none) (interpolate : Bool := true) (returnScalar : Option Bool := none) :
    Res (Arr × List (Option ℝ)) :=
  (sampleGridFn srt r edges dens nsamp mass scalarDens scalarMass squeeze interpolate returnScalar).map fun out =>
    (sampleArr (squeeze.getD (decide (d = 1))) (out.map Prod.fst), out.map Prod.snd)

/-- `sample.py:450-486` `sample_outliers`: the returned values and weights. -/
noncomputable def sampleOutliersArr (srt : List ℝ → List ℕ) (r : Rand d) (pr : PoissonRand)
    (edges : List (List ℝ)) (dens : NDArr d ℝ) (threshold : ℝ) (nsamp : Option ℝ := none)
    (mass : Option (NDArr d ℝ) := none) (poissonInside poissonOutside : Bool := false)
    (interpolate : Bool := true) : Res (Arr × List ℝ) :=
  (sampleOutliersFn srt r pr edges dens threshold nsamp mass poissonInside poissonOutside interpolate).map fun out =>
    (sampleArr (decide (d = 1)) (out.map Prod.fst), out.map Prod.snd)

end Kalepy
