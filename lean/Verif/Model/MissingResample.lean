import Verif.Model.Missing
import Verif.Model.Resample

/-!
# Missing values: `KDE.resample` on data that contain NaN

As in `Verif.Model.Missing`, a number is a real number or NaN.  Samples are returned as columns (`squeeze=False`).
-/

namespace Kalepy

open Matrix

variable {d : ℕ}

/-- The data point chosen (`kernels.py:207`). -/
noncomputable def choiceDatumN (data : List (Fin d → Num)) (weights : Option (List ℝ)) (u : ℝ) : Res (Fin d → Num) :=
  match data[choiceIndex data.length weights u]? with
  | some x => .ok x
  | none => .error .indexError

/-- `kernels.py:171-210` `_resample_clear`.  `sp.linalg.cholesky` refuses a matrix that contains NaN with `ValueError`. -/
noncomputable def resampleClearN (D : Dist) (data : List (Fin d → Num)) (size : ℕ) (weights : Option (List ℝ))
    (matrix : Matrix (Fin d) (Fin d) Num) (keep : KeepArg) (rnd : ℕ → Draw d) : Res (List (Fin d → Num)) :=
  match listSeq (fun n => D.sample (rnd n)) (List.range size) with
  | .error e => .error e
  | .ok noise =>
    match completeMatrix matrix with
    | none => .error .valueError
    | some M =>
      match addCov noise M with
      | .error e => .error e
      | .ok noise =>
        match keepDims d keep with
        | .error e => .error e
        | .ok ps =>
          if choiceOk data.length size weights then
            match listSeq (fun n => choiceDatumN data weights (rnd n).pick) (List.range size) with
            | .error e => .error e
            | .ok means => .ok (List.zipWith (fun m x i => Num.add (m i) (some (zeroDims ps x i))) means noise)
          else .error .valueError

/-- `utils.py:206-223` `cov_keep_vars` with `reflect` given. -/
noncomputable def covKeepVarsN (matrix : Matrix (Fin d) (Fin d) Num) (keep : KeepArg) (reflect : List ReflRow) :
    Res (Matrix (Fin d) (Fin d) Num) :=
  let zero (ps : List (Fin d)) : Matrix (Fin d) (Fin d) Num :=
    Matrix.of fun i j => if i ∈ ps ∨ j ∈ ps then some 0 else matrix i j
  match keep with
  | .none => .ok matrix
  | .false => .ok matrix
  | .true => (listSeq (keepDim d reflect) ((List.range d).map fun n : ℕ => (n : ℤ))).map zero
  | .dims l => (listSeq (keepDim d reflect) l).map zero

/-- Mirror images of the data at one location (`kernels.py:314-320`). -/
noncomputable def mirrorDataN (i : Fin d) (old : List (Fin d → Num)) : Option ℝ → List (Fin d → Num)
  | none => []
  | some loc => old.map fun x => Function.update x i (Num.sub (some loc) (Num.sub (x i) (some loc)))

/-- The mirror images of one dimension (`kernels.py:302-320`). -/
noncomputable def mirrorDimN (old : List (Fin d → Num)) (i : Fin d) : ReflRow → List (Fin d → Num)
  | none => []
  | some (lo, hi) => mirrorDataN i old lo ++ mirrorDataN i old hi

/-- `kernels.py:290-326` `_reflect_data`. -/
noncomputable def reflectDataN (data : List (Fin d → Num)) (reflect : List ReflRow) : List (Fin d → Num) :=
  data ++ (List.finRange d).flatMap fun i => mirrorDimN data i (reflect.getD i none)

/-- `utils.py:67-90` `bound_indices` for one point and float bounds.  The bounds of a dimension without boundaries are
infinite (`kernels.py:303-305`), and the comparisons `-inf < NaN` and `NaN < inf` are false. -/
noncomputable def insideBoundsN (reflect : List ReflRow) (x : Fin d → Num) : Bool :=
  (List.finRange d).all fun i =>
    match x i with
    | none => false
    | some v => inRow false (boundOf (reflect.getD i none)).1 (boundOf (reflect.getD i none)).2 v

/-- `kernels.py:223-226, 328-340`: data to draw from. -/
noncomputable def drawDataN (data : List (Fin d → Num)) (reflect : List ReflRow) : List (Fin d → Num) :=
  (reflectDataN data reflect).filter fun x => insideBoundsN reflect x

/-- `kernels.py:223-226, 319-324, 336-338`: their weights. -/
noncomputable def drawWeightsN (data : List (Fin d → Num)) (weights : Option (List ℝ)) (reflect : List ReflRow) :
    Option (List ℝ) :=
  weights.map fun w =>
    let v := (((reflectDataN data reflect).zip (reflectWeights d w reflect)).filter
      fun p => insideBoundsN reflect p.1).map Prod.snd
    v.map (· / v.sum)

/-- `kernels.py:246-269`, the rejection loop; `done` is the number of iterations made. -/
noncomputable def rejectLoopN (D : Dist) (data : List (Fin d → Num)) (weights : Option (List ℝ))
    (matrix : Matrix (Fin d) (Fin d) Num) (reflect : List ReflRow) (size chunkSize chunk : ℕ)
    (rnd : ℕ → ℕ → Draw d) : ℕ → ℕ → ℕ → List (Fin d → Num) → Res (List (Fin d → Num))
  | 0, _, _, good => .ok good
  | fuel + 1, done, draw, good =>
    if size ≤ good.length then .ok good
    else
      match resampleClearN D data draw weights matrix .none (rnd done) with
      | .error e => .error e
      | .ok trial =>
        let good := good ++ (trial.filter fun x => insideBoundsN reflect x).take (size - good.length)
        rejectLoopN D data weights matrix reflect size chunkSize chunk rnd fuel (done + 1)
          (nextDraw d size good.length chunkSize chunk) good

/-- `kernels.py:212-286` `_resample_reflect`; `reflect` is the checked argument. -/
noncomputable def MissKDE.resampleReflect (k : MissKDE d) (chunk size : ℕ) (reflect : List ReflRow) (keep : KeepArg)
    (rnd : ℕ → ℕ → Draw d) : Res (List (Fin d → Num)) :=
  match covKeepVarsN k.matrix keep reflect with
  | .error e => .error e
  | .ok matrix =>
    if drawDataN k.dataset reflect = [] then .error .valueError
    else if chunk < size ∧ chunk = 0 then .error .zeroDivisionError
    else
      match rejectLoopN k.dist (drawDataN k.dataset reflect) (drawWeightsN k.dataset k.weights reflect) matrix reflect
          size (chunking size chunk).2 chunk rnd (10 * (chunking size chunk).1) 0 (chunking size chunk).2 [] with
      | .error e => .error e
      | .ok good => if good.length < size then .error .runtimeError else .ok good

/-- `kde.py:531-572` `KDE.resample` with `squeeze=False`; `chunk` is the argument of the constructor (default 100000),
`reflect` is `none` for the boundaries of the KDE, `some none` for `False`. -/
noncomputable def MissKDE.resample (k : MissKDE d) (chunk : ℕ) (size : Option ℕ) (keep : KeepArg)
    (reflect : Option (Option (List ReflRow))) (rnd : ℕ → ℕ → Draw d) : Res (List (Fin d → Num)) :=
  match checkReflect (k.dataset.map fillZero) (Reflect.ofChecked (reflect.getD k.reflect)) with
  | .error e => .error e
  | .ok none => resampleClearN k.dist k.dataset (size.getD k.dataset.length) k.weights k.matrix keep (rnd 0)
  | .ok (some rows) => k.resampleReflect chunk (size.getD k.dataset.length) rows keep rnd

end Kalepy
