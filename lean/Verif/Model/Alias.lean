import Verif.Spec.Calls

/-!
# Model of the memory a `KDE` object shares with its caller (`kalepy/kde.py`)

numpy arrays and lists are objects at addresses.  An object that keeps a reference sees later changes.
-/

namespace Kalepy

variable {d : ℕ}

/-- The memory: `(D, N)` data arrays, 1D arrays, matrices and lists of boundaries, by address.  The addresses below the
counters are in use. -/
structure Mem (d : ℕ) where
  data : ℕ → List (Fin d → ℝ)
  vecs : ℕ → List ℝ
  mats : ℕ → Matrix (Fin d) (Fin d) ℝ
  refl : ℕ → List ReflRow
  numData : ℕ
  numVecs : ℕ
  numMats : ℕ

/-- A new data array. -/
def Mem.newData (m : Mem d) (v : List (Fin d → ℝ)) : Mem d :=
  { m with
    data := Function.update m.data m.numData v
    numData := m.numData + 1 }

/-- A new matrix. -/
def Mem.newMat (m : Mem d) (C : Matrix (Fin d) (Fin d) ℝ) : Mem d :=
  { m with
    mats := Function.update m.mats m.numMats C
    numMats := m.numMats + 1 }

/-- New 1D arrays at consecutive addresses. -/
def Mem.newVecs (m : Mem d) (rows : List (List ℝ)) : Mem d :=
  { m with
    vecs := fun x => if m.numVecs ≤ x ∧ x < m.numVecs + rows.length then rows.getD (x - m.numVecs) [] else m.vecs x
    numVecs := m.numVecs + rows.length }

/-- The `dataset` argument: nested lists, or an array at an address. -/
inductive DataArg (d : ℕ) where
  | list (v : List (Fin d → ℝ))
  | array (x : ℕ)

/-- The arguments of the constructor; `weights`, `covariance` and `reflect` are given by the addresses of arrays (of a
list of pairs or `None`s in the case of `reflect`), or as in `rest`. -/
structure RefArgs (d : ℕ) where
  data : DataArg d
  weights : Option ℕ := none
  covariance : Option ℕ := none
  reflect : Option ℕ := none
  rest : KDEArgs d

/-- The values of the arguments at the time of the call. -/
def RefArgs.value (m : Mem d) (a : RefArgs d) : KDEArgs d :=
  { a.rest with
    dataset := (match a.data with | .list v => v | .array x => m.data x)
    weights := (match a.weights with | none => a.rest.weights | some x => .arr ((m.vecs x).map Flt.fin))
    covariance := (match a.covariance with | none => a.rest.covariance | some x => some (m.mats x))
    reflect := (match a.reflect with | none => a.rest.reflect | some x => Reflect.ofChecked (some (m.refl x))) }

/-- A `KDE` object with the addresses of the arrays it refers to: `_dataset`, `_covariance`, `_reflect` (if it is the
caller's list) and `_points` (once computed; one array for each dimension).  `core` holds the rest: the numbers and the
arrays that only the object knows.  The grid of `_cdf_func`, which scipy keeps as a reference to `_points`, is
considered a copy. -/
structure KDEObj (d : ℕ) where
  core : KDE d
  data : ℕ
  cov : ℕ
  refl : Option ℕ
  pts : Option (List ℕ)

/-- The object as its methods see it now. -/
def KDEObj.view (m : Mem d) (o : KDEObj d) : KDE d :=
  { o.core with
    dataset := m.data o.data
    covariance := m.mats o.cov
    kernel := { o.core.kernel with covariance := m.mats o.cov }
    reflect := (match o.refl with | none => o.core.reflect | some x => some (m.refl x))
    pointsVal := o.pts.map fun l => l.map m.vecs }

/-- `kde.py:134-273` `KDE.__init__`, references.  Line 171: `np.atleast_2d(dataset)` makes a new array from lists, and
otherwise returns the array or a view of it.  Line 207: `.astype(float)` copies the weights.  Line 224:
`np.atleast_2d(covariance)` refers to a given array; line 39 of `kernels.py` multiplies it into a new array.  Line 179:
`_reflect` is what `_check_reflect` returns, the given list itself unless it was converted into an array
(`kernels.py:713-714`).  Line 259: the
extrema made from the boundaries are copies. -/
noncomputable def KDEObj.new (E : Ext) (m : Mem d) (a : RefArgs d) : Res (Mem d × KDEObj d) :=
  match KDE.init E (a.value m) with
  | .error e => .error e
  | .ok k =>
    let m1 := match a.data with | .list v => m.newData v | .array _ => m
    let data := match a.data with | .list _ => m.numData | .array x => x
    let m2 := match a.covariance with | none => m1.newMat k.covariance | some _ => m1
    let cov := match a.covariance with | none => m1.numMats | some x => x
    let refl := match a.reflect with | none => none | some x => if (m.refl x).length = d then some x else none
    .ok (m2, ⟨k, data, cov, refl, none⟩)

/-- A method call: `Spec.call` on the current values.  The first use of the default points (`kde.py:639-660`) creates the
arrays `_points`, which `points` and `density` then return themselves. -/
noncomputable def KDEObj.call (E : Ext) (srt : List ℝ → List ℕ) (m : Mem d) (o : KDEObj d) (c : Spec.Call d) :
    Spec.Outcome d × Mem d × KDEObj d :=
  let r := Spec.call E srt (o.view m) c
  match o.pts, r.2.pointsVal with
  | none, some rows =>
    (r.1, m.newVecs rows, { o with core := r.2, pts := some ((List.range rows.length).map (m.numVecs + ·)) })
  | _, _ => (r.1, m, { o with core := r.2 })

/-- What a caller can do: call a method, or change an array or list in place. -/
inductive Act (d : ℕ) where
  | call (c : Spec.Call d)
  | writeData (x : ℕ) (v : List (Fin d → ℝ))
  | writeVec (x : ℕ) (v : List ℝ)
  | writeMat (x : ℕ) (C : Matrix (Fin d) (Fin d) ℝ)
  | writeRefl (x : ℕ) (rows : List ReflRow)

/-- Assignments `array[...] = v`: the shape of an array cannot change (numpy raises an exception otherwise). -/
noncomputable def Act.run (E : Ext) (srt : List ℝ → List ℕ) (s : Mem d × KDEObj d) : Act d → Mem d × KDEObj d
  | .call c => (KDEObj.call E srt s.1 s.2 c).2
  | .writeData x v =>
    (if v.length = (s.1.data x).length then { s.1 with data := Function.update s.1.data x v } else s.1, s.2)
  | .writeVec x v =>
    (if v.length = (s.1.vecs x).length then { s.1 with vecs := Function.update s.1.vecs x v } else s.1, s.2)
  | .writeMat x C => ({ s.1 with mats := Function.update s.1.mats x C }, s.2)
  | .writeRefl x rows => ({ s.1 with refl := Function.update s.1.refl x rows }, s.2)

end Kalepy
