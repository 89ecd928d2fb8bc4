import Verif.Model.KDE

/-!
# Model of densities of data with a given element type

`Kernel.density` copies the data and writes the mirror images into the copy, which has the element type of the data: for
integer data the mirror images are truncated.  `Model/Kernels.lean` models the case of float data; here the element type
is an argument (and `.float` gives back the other model, `densityT_float`).
-/

namespace Kalepy

/-- `kernels.py:126-127` for data of element type `dt`: `refl_data = np.array(data)` keeps the type, and the assignment
converts to it. -/
noncomputable def reflectColT {m : ℕ} (dt : DType) (i : Fin m) (loc : ℝ) (x : Fin m → ℝ) : Fin m → ℝ :=
  Function.update x i (dt.store (2 * loc - x i))

/-- `kernels.py:121-128`. -/
noncomputable def reflectAddT {m : ℕ} (dt : DType) (white : Matrix (Fin m) (Fin m) ℝ) (data points : List (Fin m → ℝ))
    (weights : List ℝ) (kfunc : ℝ → ℝ) (i : Fin m) (result : List ℝ) : Option ℝ → List ℝ
  | none => result
  | some loc =>
    List.zipWith (· + ·) result (evaluateNumba white (data.map (reflectColT dt i loc)) points weights kfunc)

/-- `kernels.py:117-133`. -/
noncomputable def reflectStepT {m : ℕ} (dt : DType) (white : Matrix (Fin m) (Fin m) ℝ) (data points : List (Fin m → ℝ))
    (weights : List ℝ) (kfunc : ℝ → ℝ) (result : List ℝ) (i : Fin m) : ReflRow → List ℝ
  | none => result
  | some r =>
    let result := reflectAddT dt white data points weights kfunc i result r.1
    let result := reflectAddT dt white data points weights kfunc i result r.2
    List.zipWith (fun x v => if outsideRow r (x i) then 0 else v) points result

/-- `kernels.py:82-136`, as `densityCore`, for data of element type `dt`. -/
noncomputable def densityCoreT {m : ℕ} (dt : DType) (dist : Dist) (norm : ℝ) (matrixInv : Matrix (Fin m) (Fin m) ℝ)
    (points : Cols ℝ) (data : List (Fin m → ℝ)) (weights : Option (List ℝ)) (reflect : Option (List ReflRow)) :
    Res (List ℝ) :=
  if h : points.dim = m then
    let pts : List (Fin m → ℝ) := points.cols.map fun c => fun i => c (Fin.cast h.symm i)
    let weights? : Res (List ℝ) :=
      match weights with
      | none => .ok (List.replicate data.length 1)
      | some w => if w.length ≠ data.length then .error .attributeError else .ok w
    match weights? with
    | .error e => .error e
    | .ok w =>
      let total := norm * dist.norm points.dim
      match cholesky matrixInv with
      | none => .error .linAlgError
      | some white =>
        if norm = 0 then .error .unmodelled
        else
          let result := evaluateNumba white data pts w dist.eval
          match reflect with
          | none => .ok (result.map (· / total))
          | some refl =>
            if hr : refl.length = m then
              let result := (List.finRange m).foldl
                (fun res i => reflectStepT dt white data pts w dist.eval res i
                  (refl.get (Fin.cast hr.symm i))) result
              .ok (result.map (· / total))
            else .error .valueError
  else .error .valueError

/-- `kernels.py:52-136` `Kernel.density`, `params=None`, for data of element type `dt`. -/
noncomputable def Kernel.densityT {d : ℕ} (dt : DType) (E : Ext) (k : Kernel d) (points : Cols ℝ)
    (data : List (Fin d → ℝ)) (weights : Option (List ℝ)) (reflect : Option (List ReflRow)) :
    Res (List ℝ) × Kernel d :=
  let (minv, k) := k.matrixInv E
  let (nrm, k) := k.normVal
  (densityCoreT dt k.dist nrm minv points data weights reflect, k)

/-- `kernels.py:52-136` `Kernel.density` with `params` given, for data of element type `dt`. -/
noncomputable def Kernel.densityParamsT {d : ℕ} (dt : DType) (E : Ext) (k : Kernel d) (params : List (Fin d))
    (points : Cols ℝ) (data : List (Fin params.length → ℝ)) (weights : Option (List ℝ))
    (reflect : Option (List ReflRow)) : Res (List ℝ) × Kernel d :=
  let (_, k) := k.matrixInv E
  let (_, k) := k.normVal
  let matrix := k.matrix.submatrix params.get params.get
  (densityCoreT dt k.dist (Real.sqrt matrix.det) (matrixInvert E matrix) points data weights reflect, k)

/-- `kde.py:381-383`, for data of element type `dt`.  The check of `reflect` multiplies extrema of the data with a float:
no truncation there. -/
noncomputable def KDE.evalKernelT {d : ℕ} (dt : DType) (E : Ext) (k : KDE d) (sel : Option (List (Fin d))) (cols : Cols ℝ)
    (reflect : Reflect) : Res (List ℝ) × KDE d :=
  match sel with
  | none =>
    match checkReflect k.dataset reflect with
    | .error e => (.error e, k)
    | .ok r =>
      let (v, kern) := k.kernel.densityT dt E cols k.dataset k.weights r
      (v, { k with kernel := kern })
  | some ps =>
    match checkReflect (selectCols k.dataset ps) reflect with
    | .error e => (.error e, k)
    | .ok r =>
      let (v, kern) := k.kernel.densityParamsT dt E ps cols (selectCols k.dataset ps) k.weights r
      (v, { k with kernel := kern })

/-- `kde.py:275-399` `KDE.density`, of a `KDE` whose `dataset` has element type `dt`.  (The constructor does not change the
type of the dataset, `kde.py:171`, and otherwise computes floats from it.) -/
noncomputable def KDE.densityT {d : ℕ} (dt : DType) (E : Ext) (srt : List ℝ → List ℕ) (k : KDE d)
    (points : Option Pts := none) (reflect : Reflect := .none) (params : ParamArg := .none)
    (grid : Bool := false) (probability : Bool := false) : Res (Pts × Arr) × KDE d :=
  match paramSel d params with
  | .error e => (.error e, k)
  | .ok (sel, squeeze) =>
    match reflectLength d (numSel sel) (k.defaultReflect sel reflect) with
    | .error e => (.error e, k)
    | .ok reflect =>
      match k.choosePoints srt points sel grid squeeze with
      | (.error e, k) => (.error e, k)
      | (.ok u, k) =>
        match toCols u.evalRows with
        | .error e => (.error e, k)
        | .ok cols =>
          match k.evalKernelT dt E sel cols reflect with
          | (.error e, k) => (.error e, k)
          | (.ok vals, k) =>
            (.ok (packResult u (if probability then vals.map (· / k.totalWeight) else vals)), k)

end Kalepy
