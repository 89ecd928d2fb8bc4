import Verif.Model.IntData
import Verif.Model.Resample

/-!
# Model of resampling data with a given element type

`_reflect_data` writes the mirror images into a copy of the data (`np.array(old_data)`), which has the element type of the
data: for integer data the mirror images are truncated.  `Model/Resample.lean` models float data; here the element type is an
argument (and `.float` gives back the other model, `resampleT_float`).
-/

namespace Kalepy

/-- `kernels.py:315-318` for data of element type `dt`: the copy keeps the type, and the assignment converts to it. -/
noncomputable def mirrorDataT {d : ℕ} (dt : DType) (i : Fin d) (old : List (Fin d → ℝ)) : Option ℝ → List (Fin d → ℝ)
  | none => []
  | some loc => old.map fun x => Function.update x i (dt.store (loc - (x i - loc)))

/-- The mirror images of one dimension (`kernels.py:302-320`). -/
noncomputable def mirrorDimT {d : ℕ} (dt : DType) (old : List (Fin d → ℝ)) (i : Fin d) : ReflRow → List (Fin d → ℝ)
  | none => []
  | some (lo, hi) => mirrorDataT dt i old lo ++ mirrorDataT dt i old hi

/-- `kernels.py:290-326` `_reflect_data`: the data followed by all mirror images. -/
noncomputable def reflectDataT {d : ℕ} (dt : DType) (data : List (Fin d → ℝ)) (reflect : List ReflRow) : List (Fin d → ℝ) :=
  data ++ (List.finRange d).flatMap fun i => mirrorDimT dt data i (reflect.getD i none)

/-- `kernels.py:223-226`: data to draw from. -/
noncomputable def drawDataT {d : ℕ} (dt : DType) (data : List (Fin d → ℝ)) (reflect : List ReflRow) : List (Fin d → ℝ) :=
  truncateData reflect (reflectDataT dt data reflect)

/-- `kernels.py:223-226`: their weights (floats, `kernels.py:324`). -/
noncomputable def drawWeightsT {d : ℕ} (dt : DType) (data : List (Fin d → ℝ)) (weights : Option (List ℝ))
    (reflect : List ReflRow) : Option (List ℝ) :=
  weights.map fun w => truncateWeights reflect (reflectDataT dt data reflect) (reflectWeights d w reflect)

/-- `kernels.py:212-286` `_resample_reflect`, for data of element type `dt`. -/
noncomputable def resampleReflectT {d : ℕ} (dt : DType) (k : Kernel d) (data : List (Fin d → ℝ)) (size : ℕ)
    (reflect : List ReflRow) (weights : Option (List ℝ)) (keep : KeepArg) (rnd : ℕ → ℕ → Draw d) :
    Res (List (Fin d → ℝ) × List ℕ) :=
  match covKeepVars k.matrix keep reflect with
  | .error e => .error e
  | .ok matrix =>
    if drawDataT dt data reflect = [] then .error .valueError
    else if k.chunk < size ∧ k.chunk = 0 then .error .zeroDivisionError
    else
      match rejectLoop k.dist (drawDataT dt data reflect) (drawWeightsT dt data weights reflect) matrix reflect size
          (chunking size k.chunk).2 k.chunk rnd (10 * (chunking size k.chunk).1) (chunking size k.chunk).2
          ⟨[], []⟩ with
      | .error e => .error e
      | .ok s => if s.good.length < size then .error .runtimeError else .ok (s.good, s.draws)

/-- `kernels.py:138-169` `Kernel.resample`, for data of element type `dt`.  Without boundaries the samples are sums with
floats (`kernels.py:209`), and the check of `reflect` multiplies extrema of the data with a float: no truncation there. -/
noncomputable def Kernel.resampleT {d : ℕ} (dt : DType) (k : Kernel d) (data : List (Fin d → ℝ))
    (weights : Option (List ℝ)) (size : Option ℕ) (keep : KeepArg) (reflect : Reflect) (squeeze : Bool)
    (rnd : ℕ → ℕ → Draw d) : Res (Samples d) :=
  match checkReflect data reflect with
  | .error e => .error e
  | .ok none =>
    (resampleClear k.dist data (size.getD data.length) weights k.matrix keep (rnd 0)).map
      (squeezeSamples squeeze)
  | .ok (some rows) =>
    (resampleReflectT dt k data (size.getD data.length) rows weights keep rnd).map fun r =>
      squeezeSamples squeeze r.1

/-- `kde.py:531-572` `KDE.resample` of a `KDE` whose `dataset` has element type `dt`. -/
noncomputable def KDE.resampleT {d : ℕ} (dt : DType) (k : KDE d) (size : Option ℕ := none) (keep : KeepArg := .none)
    (reflect : Reflect := .none) (squeeze : Bool := true) (rnd : ℕ → ℕ → Draw d) : Res (Samples d) :=
  match reflect with
  | .false => k.kernel.resampleT dt k.dataset k.weights size keep .none squeeze rnd
  | .none => k.kernel.resampleT dt k.dataset k.weights size keep (Reflect.ofChecked k.reflect) squeeze rnd
  | r => k.kernel.resampleT dt k.dataset k.weights size keep r squeeze rnd

end Kalepy
