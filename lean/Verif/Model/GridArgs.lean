import Verif.Model.Sample
import Verif.Model.Utils

/-!
# Model of the arguments of the grid sampler (`kalepy/sample.py`): lists and arrays, element types, shared memory
-/

namespace Kalepy

variable {d : ℕ}

/-! ### lists and arrays -/

/-- How an array-like argument is given: as nested lists, or as an array with elements of this type. -/
inductive Form where
  | list
  | array (dt : DType)
  deriving DecidableEq

/-- How the arguments of `Sample_Grid` are given. -/
structure GridForms where
  edges : Form
  dens : Form
  mass : Form
  scalarDens : Form
  scalarMass : Form

open Classical in
/-- `sample.py:37-108` `Sample_Grid.__init__` with `_init_data`, with lists or arrays.  `edges` and `dens` are converted to
arrays (lines 52, 58), and so are the scalar densities when their masses are computed (`utils.py:879`).  The masses are
not: `_data_to_cumulative` takes their attribute `flat` (line 563), which lists do not have. -/
noncomputable def SampleGrid.initForms (srt : List ℝ → List ℕ) (f : GridForms) (edges : List (List ℝ)) (dens : NDArr d ℝ)
    (mass scalarDens scalarMass : Option (NDArr d ℝ)) : Res (SampleGrid d) :=
  match initMasses edges dens mass scalarDens scalarMass with
  | .error e => .error e
  | .ok (m, sm) =>
    if f.mass = .list ∧ mass ≠ none then .error .attributeError
    else
      match dataToCumulative srt m.flat with
      | .error e => .error e
      | .ok (idx, csum) => .ok ⟨edges, dens, m, scalarDens, sm, idx, csum⟩

open Classical in
/-- `sample.py:110-201` `Sample_Grid.sample`, with lists or arrays.  A list `scalar_mass` is subscripted by a tuple of arrays
(line 164, `TypeError`); an integer array keeps its element type, so that the floats cannot be added in place (line 196,
`TypeError`).  The shape of the masses has been checked at the time of line 164; that of the scalar masses has not, and
the error for indices that do not exist comes from line 164 as well.  Scalar masses computed from scalar densities are
arrays of floats. -/
noncomputable def SampleGrid.sampleForms (g : SampleGrid d) (f : GridForms) (massGiven : Bool) (r : Rand d)
    (nsamp : Option ℝ := none) (interpolate : Bool := true) (returnScalar : Option Bool := none) :
    Res (List ((Fin d → ℝ) × Option ℝ)) :=
  let used : Prop := massGiven = true ∧ g.scalarDens ≠ none ∧ returnScalar ≠ some false
  if pyInt (nsamp.getD g.mass.sum) < 0 then .error .valueError
  else if used ∧ f.scalarMass = .list then .error .typeError
  else
    match g.sample r nsamp interpolate returnScalar with
    | .error e => .error e
    | .ok out => if used ∧ interpolate = true ∧ f.scalarMass = .array .int then .error .typeError else .ok out

/-- `Sample_Grid(edges, dens, mass, scalar_dens, scalar_mass).sample(nsamp, interpolate, return_scalar)`. -/
noncomputable def sampleForms (srt : List ℝ → List ℕ) (f : GridForms) (edges : List (List ℝ)) (dens : NDArr d ℝ)
    (mass scalarDens scalarMass : Option (NDArr d ℝ)) (r : Rand d) (nsamp : Option ℝ := none) (interpolate : Bool := true)
    (returnScalar : Option Bool := none) : Res (List ((Fin d → ℝ) × Option ℝ)) :=
  match SampleGrid.initForms srt f edges dens mass scalarDens scalarMass with
  | .error e => .error e
  | .ok g => g.sampleForms f scalarMass.isSome r nsamp interpolate returnScalar

/-! ### shared memory -/

/-- The memory: 1D arrays (of edges) and arrays with `d` axes, by address. -/
structure GridMem (d : ℕ) where
  vecs : ℕ → List ℝ
  arrs : ℕ → NDArr d ℝ

/-- An array of edges: a list, or an array at an address. -/
inductive VecArg where
  | list (l : List ℝ)
  | array (x : ℕ)

/-- The densities: nested lists, or an array at an address. -/
inductive ArrArg (d : ℕ) where
  | list (a : NDArr d ℝ)
  | array (x : ℕ)

/-- The arguments of `Sample_Grid`; masses and scalars are arrays. -/
structure GridArgs (d : ℕ) where
  edges : List VecArg
  dens : ArrArg d
  mass : Option ℕ := none
  scalarDens : Option ℕ := none
  scalarMass : Option ℕ := none

/-- Current value of an array of edges. -/
def VecArg.value (m : GridMem d) : VecArg → List ℝ
  | .list l => l
  | .array x => m.vecs x

/-- Current value of the densities. -/
def ArrArg.value (m : GridMem d) : ArrArg d → NDArr d ℝ
  | .list a => a
  | .array x => m.arrs x

/-- `sample.py:37-108` `Sample_Grid.__init__` on the current values of the arguments. -/
noncomputable def GridArgs.init (srt : List ℝ → List ℕ) (m : GridMem d) (a : GridArgs d) : Res (SampleGrid d) :=
  SampleGrid.init srt (a.edges.map (VecArg.value m)) (a.dens.value m) (a.mass.map m.arrs) (a.scalarDens.map m.arrs)
    (a.scalarMass.map m.arrs)

/-- A `Sample_Grid` object and what it refers to.  `np.asarray` (lines 52 and 58) returns arrays as they are, and new arrays
for lists; lines 84-93 keep the references.  Masses that are computed, `idx` and `csum` belong to the object. -/
structure GridObj (d : ℕ) where
  core : SampleGrid d
  args : GridArgs d

/-- `sample.py:37-108`: the constructor, with what the object refers to. -/
noncomputable def GridArgs.build (srt : List ℝ → List ℕ) (m : GridMem d) (a : GridArgs d) : Res (GridObj d) :=
  match a.init srt m with
  | .error e => .error e
  | .ok g => .ok ⟨g, a⟩

/-- The object as `sample` sees it now: the arrays it refers to have their current values. -/
def GridObj.view (m : GridMem d) (o : GridObj d) : SampleGrid d :=
  { o.core with
    edges := o.args.edges.map (VecArg.value m)
    dens := o.args.dens.value m
    mass := (match o.args.mass with | none => o.core.mass | some x => m.arrs x)
    scalarDens := o.args.scalarDens.map m.arrs
    scalarMass := (match o.args.scalarMass with | none => o.core.scalarMass | some x => some (m.arrs x)) }

/-- An assignment `array[...] = v` by the caller. -/
inductive GridWrite (d : ℕ) where
  | vec (x : ℕ) (v : List ℝ)
  | arr (x : ℕ) (a : NDArr d ℝ)

open Classical in
/-- Assignments keep the shape (numpy raises an exception otherwise). -/
noncomputable def GridWrite.run (m : GridMem d) : GridWrite d → GridMem d
  | .vec x v => if v.length = (m.vecs x).length then { m with vecs := Function.update m.vecs x v } else m
  | .arr x a => if a.shape = (m.arrs x).shape then { m with arrs := Function.update m.arrs x a } else m

/-- A sequence of assignments. -/
noncomputable def GridMem.writes (m : GridMem d) (ws : List (GridWrite d)) : GridMem d := ws.foldl GridWrite.run m

end Kalepy
