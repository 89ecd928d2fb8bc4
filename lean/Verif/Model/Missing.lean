import Verif.Model.KDE

/-!
# Missing values: `KDE` on data or points that contain NaN

Everywhere else in the model data are real numbers.  Here a number is a real number or NaN.  Infinities do
not occur: sums, differences and products of real numbers and NaN are real numbers or NaN.

Not modelled here: automatic evaluation points, `grid=True`, boundaries given as `True`, the attribute
`extrema` (it does not influence the density at given points, and its computation from NaN does not raise).
-/

namespace Kalepy

open Matrix

/-- A floating point number that is a real number or NaN (`none`). -/
abbrev Num := Option ℝ

namespace Num

/-- `x + y`; NaN if one of them is. -/
noncomputable def add (x y : Num) : Num := Option.map₂ (· + ·) x y

/-- `x - y`. -/
noncomputable def sub (x y : Num) : Num := Option.map₂ (· - ·) x y

/-- `x * y`; in particular `0 * NaN` is NaN. -/
noncomputable def mul (x y : Num) : Num := Option.map₂ (· * ·) x y

/-- `x / y`. -/
noncomputable def div (x y : Num) : Num := Option.map₂ (· / ·) x y

/-- A loop `acc += x` starting from `0.0`. -/
noncomputable def sum (l : List Num) : Num := l.foldl add (some 0)

end Num

/-- `_evaluate(y2)` of the kernels for a number that may be NaN (`kernels.py:491-494, 524-535, 561-570,
597-606`): `np.exp(NaN)` and `np.maximum(NaN, 0.0)` are NaN, the comparison `NaN <= 1.0` is false. -/
noncomputable def Dist.evalN : Dist → Num → Num
  | D, some y2 => some (D.eval y2)
  | .box, none => some 0
  | _, none => none

/-- Inner loops of `_evaluate_numba` (`kernels.py:776-786`). -/
noncomputable def whitenedDist2N {m : ℕ} (white : Matrix (Fin m) (Fin m) ℝ) (x d : Fin m → Num) : Num :=
  Num.sum ((List.finRange m).map fun k =>
    let ss := Num.sub (Num.sum ((List.finRange m).map fun l => Num.mul (some (white k l)) (x l)))
      (Num.sum ((List.finRange m).map fun l => Num.mul (some (white k l)) (d l)))
    Num.mul ss ss)

/-- `kernels.py:768-791` `_evaluate_numba`. -/
noncomputable def evaluateN {m : ℕ} (white : Matrix (Fin m) (Fin m) ℝ) (data points : List (Fin m → Num))
    (weights : List ℝ) (kfunc : Num → Num) : List Num :=
  points.map fun x =>
    Num.sum (List.zipWith (fun d w => Num.mul (kfunc (whitenedDist2N white x d)) (some w)) data weights)

/-- `kernels.py:126-127`. -/
noncomputable def reflectColN {m : ℕ} (i : Fin m) (loc : ℝ) (x : Fin m → Num) : Fin m → Num :=
  Function.update x i (Num.sub (some (2 * loc)) (x i))

/-- `kernels.py:130-132`: comparisons with NaN are false. -/
noncomputable def outsideRowN (r : Option ℝ × Option ℝ) : Num → Bool
  | some x => outsideRow r x
  | none => false

/-- Body of the loop `for loc in reflect_dim` (`kernels.py:121-128`). -/
noncomputable def reflectAddN {m : ℕ} (white : Matrix (Fin m) (Fin m) ℝ) (data points : List (Fin m → Num))
    (weights : List ℝ) (kfunc : Num → Num) (i : Fin m) (result : List Num) : Option ℝ → List Num
  | none => result
  | some loc =>
    List.zipWith Num.add result (evaluateN white (data.map (reflectColN i loc)) points weights kfunc)

/-- Body of the loop over the dimensions (`kernels.py:117-133`). -/
noncomputable def reflectStepN {m : ℕ} (white : Matrix (Fin m) (Fin m) ℝ) (data points : List (Fin m → Num))
    (weights : List ℝ) (kfunc : Num → Num) (result : List Num) (i : Fin m) : ReflRow → List Num
  | none => result
  | some r =>
    let result := reflectAddN white data points weights kfunc i result r.1
    let result := reflectAddN white data points weights kfunc i result r.2
    List.zipWith (fun x v => if outsideRowN r (x i) then some 0 else v) points result

open Classical in
/-- The matrix of real numbers, if there is no NaN in it. -/
noncomputable def completeMatrix {m : ℕ} (A : Matrix (Fin m) (Fin m) Num) : Option (Matrix (Fin m) (Fin m) ℝ) :=
  if ∀ i j, A i j ≠ none then some (Matrix.of fun i j => (A i j).getD 0) else none

/-- `kernels.py:82-136`, after the selection of parameters.  `sp.linalg.cholesky` refuses a matrix that
contains NaN with `ValueError` (`check_finite=True` is its default). -/
noncomputable def densityCoreN {m : ℕ} (dist : Dist) (norm : Num) (matrixInv : Matrix (Fin m) (Fin m) Num)
    (points : Cols Num) (data : List (Fin m → Num)) (weights : Option (List ℝ))
    (reflect : Option (List ReflRow)) : Res (List Num) :=
  if h : points.dim = m then
    let pts : List (Fin m → Num) := points.cols.map fun c => fun i => c (Fin.cast h.symm i)
    let weights? : Res (List ℝ) :=
      match weights with
      | none => .ok (List.replicate data.length 1)
      | some w => if w.length ≠ data.length then .error .attributeError else .ok w
    match weights? with
    | .error e => .error e
    | .ok w =>
      let total := Num.mul norm (some (dist.norm points.dim))
      match completeMatrix matrixInv with
      | none => .error .valueError
      | some minv =>
        match cholesky minv with
        | none => .error .linAlgError
        | some white =>
          if norm = some 0 then .error .unmodelled
          else
            let result := evaluateN white data pts w dist.evalN
            match reflect with
            | none => .ok (result.map fun v => Num.div v total)
            | some refl =>
              if hr : refl.length = m then
                let result := (List.finRange m).foldl
                  (fun res i => reflectStepN white data pts w dist.evalN res i
                    (refl.get (Fin.cast hr.symm i))) result
                .ok (result.map fun v => Num.div v total)
              else .error .valueError
  else .error .valueError

/-- What `utils.matrix_invert` (`utils.py:312-320`) does with matrices that contain NaN: LAPACK's result, or
`LinAlgError` from `np.linalg.pinv` if an exact zero turned up as a pivot. -/
abbrev NanInv := {m : ℕ} → Matrix (Fin m) (Fin m) Num → Res (Matrix (Fin m) (Fin m) Num)

/-- `utils.py:312-320` `matrix_invert`. -/
noncomputable def matrixInvertN (E : Ext) (N : NanInv) {m : ℕ} (A : Matrix (Fin m) (Fin m) Num) :
    Res (Matrix (Fin m) (Fin m) Num) :=
  match completeMatrix A with
  | some M => .ok (Matrix.of fun i j => some (matrixInvert E M i j))
  | none => N A

/-- `np.sqrt(np.fabs(np.linalg.det(matrix)))` (`kernels.py:390`). -/
noncomputable def normN {m : ℕ} (A : Matrix (Fin m) (Fin m) Num) : Num :=
  (completeMatrix A).map fun M => Real.sqrt |M.det|

/-- `np.sqrt(np.linalg.det(matrix))` (`kernels.py:75`). -/
noncomputable def normParamsN {m : ℕ} (A : Matrix (Fin m) (Fin m) Num) : Num :=
  (completeMatrix A).map fun M => Real.sqrt M.det

/-! ### The `KDE` object -/

/-- Weighted mean of row `i` (as in `np.cov`). -/
noncomputable def wMeanN {d : ℕ} (data : List (Fin d → Num)) (w : List ℝ) (i : Fin d) : Num :=
  Num.div (Num.sum (List.zipWith (fun x a => Num.mul (some a) (x i)) data w)) (some w.sum)

/-- Weighted sum of products of deviations. -/
noncomputable def wCrossN {d : ℕ} (data : List (Fin d → Num)) (w : List ℝ) (i j : Fin d) : Num :=
  Num.sum (List.zipWith (fun x a => Num.mul (some a)
    (Num.mul (Num.sub (x i) (wMeanN data w i)) (Num.sub (x j) (wMeanN data w j)))) data w)

/-- `np.cov(dataset, rowvar=True, bias=False, aweights=weights)` (`kde.py:223`). -/
noncomputable def npCovN {d : ℕ} (data : List (Fin d → Num)) (weights : Option (List ℝ)) :
    Res (Matrix (Fin d) (Fin d) Num) :=
  if covFact data weights ≤ 0 then .error .unmodelled
  else .ok (Matrix.of fun i j => Num.div (wCrossN data (onesIfNone data weights) i j) (some (covFact data weights)))

/-- Arguments of `KDE(...)` with data that may contain NaN. -/
structure MissArgs (d : ℕ) where
  dataset : List (Fin d → Num)
  bandwidth : BwArg := .none
  weights : WArg := .none
  kernel : KernelArg := .none
  reflect : Option (List ReflRow) := none
  covariance : Option (Matrix (Fin d) (Fin d) ℝ) := none
  neff : Option ℝ := none
  diagonal : Bool := false
  rescale : Rescale d := .none

/-- The part of a `KDE` object that `density` uses. -/
structure MissKDE (d : ℕ) where
  dataset : List (Fin d → Num)
  weights : Option (List ℝ)
  matrix : Matrix (Fin d) (Fin d) Num
  dist : Dist
  reflect : Option (List ReflRow)

/-- Numbers in place of the missing ones; only for checks that do not look at the data. -/
noncomputable def fillZero {d : ℕ} (x : Fin d → Num) : Fin d → ℝ := fun i => (x i).getD 0

/-- The covariance (`kde.py:222-224`). -/
noncomputable def covArgN {d : ℕ} (data : List (Fin d → Num)) (weights : Option (List ℝ)) :
    Option (Matrix (Fin d) (Fin d) ℝ) → Res (Matrix (Fin d) (Fin d) Num)
  | some c => .ok (Matrix.of fun i j => some (c i j))
  | none => npCovN data weights

/-- `kde.py:134-273` `KDE.__init__`.  Nothing looks at whether the data are finite.  (Boundaries that are
numbers are checked without looking at the data.) -/
noncomputable def MissKDE.init {d : ℕ} (a : MissArgs d) : Res (MissKDE d) :=
  match checkReflect (a.dataset.map fillZero) (Reflect.ofChecked a.reflect) with
  | .error e => .error e
  | .ok reflect =>
    if a.dataset = [] then .error .valueError
    else
      match checkWeights a.dataset.length a.weights with
      | .error e => .error e
      | .ok weights =>
        match covArgN a.dataset weights a.covariance with
        | .error e => .error e
        | .ok cov =>
          match bwMatrix d (effNum a.dataset.length weights a.neff) a.diagonal a.bandwidth with
          | .error e => .error e
          | .ok bw0 =>
            match getDistribution a.kernel with
            | .error e => .error e
            | .ok D => .ok
                { dataset := a.dataset
                  weights := weights
                  matrix := Matrix.of fun i j => Num.mul (cov i j) (some ((rescaleBw bw0 a.rescale) i j ^ 2))
                  dist := D
                  reflect := reflect }

/-- `np.atleast_2d(points)` of arrays of equal lengths (`kernels.py:64`). -/
def toColsN : List (List Num) → Res (Cols Num)
  | [] => .error .unmodelled
  | r :: rs =>
    if rs.all fun s => s.length = r.length then
      .ok ⟨(r :: rs).length, (List.range r.length).map fun n i => ((r :: rs).get i).getD n none⟩
    else .error .unmodelled

/-- `kde.py:347`. -/
def selectColsN {d : ℕ} (data : List (Fin d → Num)) (ps : List (Fin d)) : List (Fin ps.length → Num) :=
  data.map fun x i => x (ps.get i)

/-- `kde.py:342-350`. -/
def MissKDE.defaultReflect {d : ℕ} (k : MissKDE d) (sel : Option (List (Fin d))) :
    Option (List ReflRow) → Option (List ReflRow)
  | none =>
    match sel with
    | none => k.reflect
    | some ps => k.reflect.map fun rows => selectRows rows ps
  | r => r

/-- `kernels.py:52-136` `Kernel.density`: the inverse of the whole matrix is computed first, also if only some
parameters are selected. -/
noncomputable def MissKDE.evalKernel {d : ℕ} (E : Ext) (N : NanInv) (k : MissKDE d) (sel : Option (List (Fin d)))
    (cols : Cols Num) (reflect : Option (List ReflRow)) : Res (List Num) :=
  match sel with
  | none =>
    match checkReflect (k.dataset.map fillZero) (Reflect.ofChecked reflect) with
    | .error e => .error e
    | .ok r =>
      match matrixInvertN E N k.matrix with
      | .error e => .error e
      | .ok minv => densityCoreN k.dist (normN k.matrix) minv cols k.dataset k.weights r
  | some ps =>
    match checkReflect ((selectColsN k.dataset ps).map fillZero) (Reflect.ofChecked reflect) with
    | .error e => .error e
    | .ok r =>
      match matrixInvertN E N k.matrix with
      | .error e => .error e
      | .ok _ =>
        match matrixInvertN E N (k.matrix.submatrix ps.get ps.get) with
        | .error e => .error e
        | .ok minv =>
          densityCoreN k.dist (normParamsN (k.matrix.submatrix ps.get ps.get)) minv cols
            (selectColsN k.dataset ps) k.weights r

/-- `kde.py:385-389`: the divisor of `probability=True`. -/
noncomputable def MissKDE.totalWeight {d : ℕ} (k : MissKDE d) : ℝ :=
  match k.weights with
  | none => k.dataset.length
  | some w => w.sum

/-- `kde.py:275-399` `KDE.density` with given `points` of shape `(D, M)` and `grid=False`: the values. -/
noncomputable def MissKDE.density {d : ℕ} (E : Ext) (N : NanInv) (k : MissKDE d) (points : List (List Num))
    (reflect : Option (List ReflRow) := none) (params : ParamArg := .none) (probability : Bool := false) :
    Res (List Num) :=
  match paramSel d params with
  | .error e => .error e
  | .ok (sel, _) =>
    match reflectLength d (numSel sel) (Reflect.ofChecked (k.defaultReflect sel reflect)) with
    | .error e => .error e
    | .ok _ =>
      match toColsN points with
      | .error e => .error e
      | .ok cols =>
        match k.evalKernel E N sel cols (k.defaultReflect sel reflect) with
        | .error e => .error e
        | .ok vals => .ok (if probability then vals.map fun v => Num.div v (some k.totalWeight) else vals)

end Kalepy
