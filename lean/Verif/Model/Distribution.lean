import Verif.Model.KDE
import Verif.Model.Resample

/-!
# Model of the public methods of the distribution classes: `evaluate`, `grid`, `inside`, `sample`
-/

namespace Kalepy

/-- A 1D or 2D numpy array of points. -/
inductive PointsArr where
  | vec (l : List ℝ)
  | mat (c : Cols ℝ)

/-- `kernels.py:415-417`: `np.atleast_2d`, which turns `N` numbers into an array of shape `(1, N)`. -/
def PointsArr.cols : PointsArr → Cols ℝ
  | .vec l => ⟨1, l.map fun x _ => x⟩
  | .mat c => c

namespace Dist

/-- `kernels.py:412-420` `_Distribution.evaluate`; `np.linalg.norm(yy, axis=0)` is `rad`.  The argument `ndim` is
overwritten by the code. -/
noncomputable def evaluate (D : Dist) (yy : PointsArr) : List ℝ :=
  yy.cols.cols.map fun x => D.eval (rad x ^ 2) / D.norm yy.cols.dim

/-- `kernels.py:463-471` `_Distribution.grid`; `np.vstack` of no array raises `ValueError`. -/
noncomputable def grid (D : Dist) (edges : List (List ℝ)) : Res (NDArr edges.length ℝ) :=
  if edges = [] then .error .valueError
  else
    match toCols (meshRows edges) with
    | .error e => .error e
    | .ok coords =>
      let pdf := D.evaluate (.mat coords)
      .ok ⟨fun j => (edges.get j).length, fun idx => pdf.getD (ravelIdx (fun j => (edges.get j).length) idx) 0⟩

/-- `kernels.py:669-675` `_inside_unit_nball`.  For a 1D array the chained comparison takes the truth value of the array
`-1.0 < points`, which is an error for two or more elements. -/
noncomputable def insideUnitBall : PointsArr → Res (List Bool)
  | .vec [] => .ok []
  | .vec [x] => .ok [decide (-1 < x) && decide (x < 1)]
  | .vec _ => .error .valueError
  | .mat c => .ok (c.cols.map fun x => decide (rad x < 1))

/-- `inside`: `kernels.py:507-513` (Gaussian: a static method with two parameters, `cls` and `points`, so a call with the
points alone raises `TypeError`), `550-552`, `584-586`, `616-618`. -/
noncomputable def inside : Dist → PointsArr → Res (List Bool)
  | .gaussian, _ => .error .typeError
  | _, p => insideUnitBall p

/-- `kernels.py:422-434` `_Distribution.sample(size, ndim, squeeze)`: the samples, drawn as in `_sample`, and the shape of
the array; `squeeze()` removes all axes of length one. -/
noncomputable def sampleArray {d : ℕ} (D : Dist) (size : ℕ) (squeeze : Option Bool) (rnd : ℕ → Draw d) :
    Res (List ℕ × List (Fin d → ℝ)) :=
  match listSeq (fun k => D.sample (rnd k)) (List.range size) with
  | .error e => .error e
  | .ok l =>
    let shape := [d, size]
    .ok (if squeeze.getD (decide (d = 1)) then shape.filter (· ≠ 1) else shape, l)

end Dist

end Kalepy
