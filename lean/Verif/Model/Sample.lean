import Mathlib.Analysis.SpecialFunctions.Pow.NNReal
import Mathlib.Algebra.Order.Archimedean.Real.Basic
import Verif.Model.Grid
import Verif.Model.Np

/-!
# Model of `kalepy/sample.py`

Every call of a random generator is an argument (`Rand`).
-/

namespace Kalepy

variable {d : ℕ} {K : Type*}

/-- `sample.py:561-584` `_data_to_cumulative(mass, prefilter=False)` on the flat masses.
`srt` is `np.argsort`.  An empty array makes `csum[-1]` raise `IndexError`.
Negative masses make the sums unsorted, and numpy's binary search then differs from the count of `searchLeft`; the theorems assume
masses that are not negative. -/
def dataToCumulative [Field K] [LinearOrder K] (srt : List K → List ℕ) (mass : List K) :
    Res (List ℕ × List K) :=
  let idx := srt mass
  let csum := npCumsum (idx.map fun i => mass.getD i 0)
  match csum.getLast? with
  | none => .error .indexError
  | some last =>
    let temp := if last = 0 then 1 else last
    .ok (idx, 0 :: csum.map (· / temp))

/-- `sample.py:238-241` for one random value: `idx[np.searchsorted(csum, rand) - 1]`. -/
def pickBin [LinearOrder K] (idx : List ℕ) (csum : List K) (rand : K) : Res ℕ :=
  pyIndex idx ((searchLeft csum rand : ℤ) - 1)

/-- Random values consumed by one `sample` call: row 0 (`u`) and rows 1..D (`loc`) of the
`np.random.uniform(0, 1, (1+ndim, nsamp))` array at `sample.py:227-233`. -/
structure Rand (d : ℕ) where
  u : ℕ → ℝ
  loc : ℕ → Fin d → ℝ

/-- numpy's guarantee for `np.random.uniform(0.0, 1.0)`: values in `[0, 1)`. -/
def Rand.InRange (r : Rand d) : Prop :=
  (∀ k, 0 ≤ r.u k ∧ r.u k < 1) ∧ ∀ k i, 0 ≤ r.loc k i ∧ r.loc k i < 1

/-- `Sample_Grid` instances. -/
structure SampleGrid (d : ℕ) where
  edges : List (List ℝ)
  dens : NDArr d ℝ
  mass : NDArr d ℝ
  scalarDens : Option (NDArr d ℝ)
  scalarMass : Option (NDArr d ℝ)
  idx : List ℕ
  csum : List ℝ

/-- The checks of `sample.py:52-82`; `mass` (if given) must have one element less than `dens` on each
axis.  (A 1D edge array for 1D densities has already been wrapped in a list, lines 56-57; the
scalars and a given `mass` are arrays with D axes.) -/
def gridChecks (edges : List (List ℝ)) (dens : NDArr d ℝ) (mass : Option (NDArr d ℝ)) : Prop :=
  EdgesMatch dens.shape edges ∧ ∀ m, mass = some m → ∀ i, m.shape i + 1 = dens.shape i

/-- `sample.py:99-100`: the given masses, or those of the trapezoid rule. -/
noncomputable def massArg (edges : List (List ℝ)) (dens : NDArr d ℝ) (mass : Option (NDArr d ℝ)) : Res (NDArr d ℝ) :=
  match mass with
  | some m => .ok m
  | none => trapzDensToMass dens edges Finset.univ

/-- `sample.py:102-103`: the given scalar masses, or those of the scalar densities, or `None`. -/
noncomputable def scalarMassArg (edges : List (List ℝ)) (scalarDens scalarMass : Option (NDArr d ℝ)) :
    Res (Option (NDArr d ℝ)) :=
  match scalarMass, scalarDens with
  | some s, _ => .ok (some s)
  | none, none => .ok none
  | none, some s => (trapzDensToMass s edges Finset.univ).map some

open Classical in
/-- `sample.py:99-103` and `314-317`, the part of `_init_data` that `Sample_Grid` and
`Sample_Outliers` share, after the checks of `__init__`: masses and scalar masses. -/
noncomputable def initMasses (edges : List (List ℝ)) (dens : NDArr d ℝ) (mass : Option (NDArr d ℝ))
    (scalarDens scalarMass : Option (NDArr d ℝ)) : Res (NDArr d ℝ × Option (NDArr d ℝ)) :=
  if gridChecks edges dens mass then do
    let m ← massArg edges dens mass
    let sm ← scalarMassArg edges scalarDens scalarMass
    return (m, sm)
  else .error .valueError

/-- `sample.py:37-108` `Sample_Grid.__init__` with `_init_data`. -/
noncomputable def SampleGrid.init (srt : List ℝ → List ℕ) (edges : List (List ℝ)) (dens : NDArr d ℝ)
    (mass : Option (NDArr d ℝ) := none) (scalarDens scalarMass : Option (NDArr d ℝ) := none) :
    Res (SampleGrid d) := do
  let (m, sm) ← initMasses edges dens mass scalarDens scalarMass
  let (idx, csum) ← dataToCumulative srt m.flat
  return { edges := edges, dens := dens, mass := m, scalarDens := scalarDens, scalarMass := sm,
           idx := idx, csum := csum }

/-- `sample.py:525-542` `_intrabin_linear_interp` for one sample: relative position within the bin. -/
noncomputable def intrabin (loc grad : ℝ) : ℝ :=
  if 1 / 10 ^ 16 < |grad| then
    let y1 := 1 - grad / 2
    (Real.sqrt (2 * loc * grad + y1 ^ 2) - y1) / grad
  else loc

/-- `arr.flat[k]`. -/
def flatGet (a : NDArr d K) (k : ℕ) : Res K := pyIndex a.flat k

/-- `sample.py:160-177` for one sample and dimension: position between the edges of the bin.
`dens` is the normalised density of line 137, or `none` without interpolation. -/
noncomputable def samplePos (edges : List (List ℝ)) (dens : Option (NDArr d ℝ)) (bidx : Fin d → ℕ)
    (flat : ℕ) (loc : ℝ) (i : Fin d) : Res ℝ :=
  let lo := edgeAt edges i (bidx i)
  let wid := edgeAt edges i (bidx i + 1) - edgeAt edges i (bidx i)
  match dens with
  | none => .ok (lo + wid * loc)
  | some dn => do
    let grad ← gradAlong dn i
    let gr ← flatGet grad flat
    return lo + wid * intrabin loc gr

/-- `sample.py:185-192` for one sample and dimension: change of the scalar due to its gradient. -/
noncomputable def scalarIncr (sd : NDArr d ℝ) (flat : ℕ) (loc : ℝ) (i : Fin d) : Res ℝ := do
  let grad ← gradAlong sd i
  let gr ← flatGet grad flat
  return gr * (loc - 1 / 2)

/-- One sample, `sample.py:156-196`: chosen bin, position in each dimension, scalar value. -/
noncomputable def sampleOne (g : SampleGrid d) (dens : Option (NDArr d ℝ))
    (scalars : Option (NDArr d ℝ × NDArr d ℝ)) (u : ℝ) (loc : Fin d → ℝ) :
    Res ((Fin d → ℝ) × Option ℝ) :=
  match pickBin g.idx g.csum u with
  | .error e => .error e
  | .ok flat =>
    let bidx := unravelIdx (fun i => g.dens.shape i - 1) flat
    match finSeq fun i => samplePos g.edges dens bidx flat (loc i) i with
    | .error e => .error e
    | .ok vals =>
      match scalars with
      | none => .ok (vals, none)
      | some (sd, sm) =>
        if ∀ i, bidx i < sm.shape i then
          if dens.isSome then
            match finSeq fun i => scalarIncr sd flat (loc i) i with
            | .error e => .error e
            | .ok incr => .ok (vals, some (sm.get bidx + ∑ i, incr i))
          else .ok (vals, some (sm.get bidx))
        else .error .indexError

/-- `sample.py:110-201` `Sample_Grid.sample(nsamp, interpolate, return_scalar)`.
A zero total density with `interpolate=True` divides by zero (NaN): not modelled.  A negative number
of samples makes `np.random.uniform` raise `ValueError`.  The result is the list of samples, with
scalars if requested. -/
noncomputable def SampleGrid.sample (g : SampleGrid d) (r : Rand d) (nsamp : Option ℝ := none)
    (interpolate : Bool := true) (returnScalar : Option Bool := none) :
    Res (List ((Fin d → ℝ) × Option ℝ)) :=
  if interpolate = true ∧ g.dens.sum = 0 then .error .unmodelled
  else
    let dens : Option (NDArr d ℝ) :=
      if interpolate then some (g.dens.map (· / (g.dens.sum / g.dens.size))) else none
    let n : ℤ := pyInt (nsamp.getD g.mass.sum)
    if n < 0 then .error .valueError
    else
      let scalars : Option (NDArr d ℝ × NDArr d ℝ) :=
        match g.scalarDens, g.scalarMass with
        | some sd, some sm => if returnScalar = some false then none else some (sd, sm)
        | _, _ => none
      let us := npSort ((List.range n.toNat).map r.u)
      listSeq (fun p => sampleOne g dens scalars p.1 (r.loc p.2)) us.zipIdx

/-- `sample.py:402-438` `sample_grid`.  `squeeze=None` means: squeeze 1D results.  When scalars are
returned, `samples` is a tuple, which has no `squeeze` method.  (The change of array shape by
`squeeze` is not represented: the result is the list of samples.) -/
noncomputable def sampleGridFn (srt : List ℝ → List ℕ) (r : Rand d) (edges : List (List ℝ))
    (dens : NDArr d ℝ) (nsamp : Option ℝ := none) (mass scalarDens scalarMass : Option (NDArr d ℝ) := none)
    (squeeze : Option Bool := none) (interpolate : Bool := true) (returnScalar : Option Bool := none) :
    Res (List ((Fin d → ℝ) × Option ℝ)) :=
  let squeeze := squeeze.getD (decide (d = 1))
  match SampleGrid.init srt edges dens mass scalarDens scalarMass with
  | .error e => .error e
  | .ok g =>
    match g.sample r nsamp interpolate returnScalar with
    | .error e => .error e
    | .ok out =>
      let isTuple : Bool := g.scalarDens.isSome && decide (returnScalar ≠ some false)
      if squeeze && isTuple then .error .attributeError else .ok out

/-- `sample.py:442-444`: the ratio `dens / portion`, zero where `portion` vanishes. -/
noncomputable def portionRatio (dens portion : NDArr d ℝ) : NDArr d ℝ where
  shape := portion.shape
  get idx := if portion.get idx = 0 then 0 else dens.get idx / portion.get idx

open Classical in
/-- `sample.py:441-447` `sample_grid_proportional`.  The argument `mass` is not used by the code.  Arrays of different
shapes would be broadcast: not modelled.  With `return_scalar=False` there is only one array to unpack, whose number of
rows is the dimension: a `ValueError` except in two dimensions, which is not modelled. -/
noncomputable def sampleGridProportional (srt : List ℝ → List ℕ) (r : Rand d) (edges : List (List ℝ))
    (dens portion : NDArr d ℝ) (nsamp : ℝ) (_mass : Option (NDArr d ℝ) := none) (interpolate : Bool := true)
    (returnScalar : Option Bool := none) : Res (List ((Fin d → ℝ) × Option ℝ)) :=
  if dens.shape ≠ portion.shape then .error .unmodelled
  else
    match SampleGrid.init srt edges portion none (some (portionRatio dens portion)) none with
    | .error e => .error e
    | .ok g =>
      match g.sample r (some nsamp) interpolate returnScalar with
      | .error e => .error e
      | .ok out =>
        if returnScalar = some false then .error (if d = 2 then .unmodelled else .valueError) else .ok out

/-- `Sample_Outliers` instances (`sample.py:274-309`): `grid` is the inherited part, whose `idx` and
`csum` are those of the masses at or below the threshold. -/
structure SampleOutliers (d : ℕ) where
  grid : SampleGrid d
  threshold : ℝ
  massIns : NDArr d ℝ
  massOuts : NDArr d ℝ

/-- `sample.py:274-318` `Sample_Outliers.__init__`. -/
noncomputable def SampleOutliers.init (srt : List ℝ → List ℕ) (edges : List (List ℝ)) (dens : NDArr d ℝ)
    (threshold : ℝ) (mass : Option (NDArr d ℝ) := none) : Res (SampleOutliers d) := do
  let (m, sm) ← initMasses edges dens mass none none
  let massOuts : NDArr d ℝ := m.map fun x => if threshold < x then 0 else x
  let (idx, csum) ← dataToCumulative srt massOuts.flat
  let massIns : NDArr d ℝ := m.map fun x => if threshold < x then x else 0
  return { grid := { edges := edges, dens := dens, mass := m, scalarDens := none, scalarMass := sm,
                     idx := idx, csum := csum }
           threshold := threshold, massIns := massIns, massOuts := massOuts }

/-- Poisson draws used by `Sample_Outliers.sample` (`np.random.poisson`): one for the number of
outliers, one for the weight of each interior bin. -/
structure PoissonRand where
  outside : ℕ
  inside : ℕ → ℕ

/-- `sample.py:320-399` `Sample_Outliers.sample`; result: `nsamp` and the list of (sample, weight).
Interior bins are those with positive `mass_ins`; if some non-zero `mass_ins` is negative, the shapes
at line 389 do not match (`ValueError`). -/
noncomputable def SampleOutliers.sample (o : SampleOutliers d) (r : Rand d) (pr : PoissonRand)
    (poissonInside poissonOutside : Bool := false) (interpolate : Bool := true) :
    Res (ℤ × List ((Fin d → ℝ) × ℝ)) :=
  let nIns : ℕ := o.massIns.flat.countP fun x => decide (x ≠ 0)
  let nOut : ℤ := if poissonOutside then pr.outside else npAround o.massOuts.sum
  let bins : List ℕ := (List.range o.massIns.flat.length).filter fun k => decide (0 < o.massIns.flat.getD k 0)
  if bins.length ≠ nIns then .error .valueError
  else
    let interior : List ((Fin d → ℝ) × ℝ) := bins.map fun k =>
      let b := unravelIdx (fun i => o.grid.dens.shape i - 1) k
      (fun i => centroid o.grid.edges o.grid.dens b i,
        if poissonInside then (pr.inside k : ℝ) else o.massIns.get b)
    if 0 < nOut then
      match o.grid.sample r (some (nOut : ℝ)) interpolate (some false) with
      | .error e => .error e
      | .ok outs => .ok (nIns + nOut, interior ++ outs.map fun s => (s.1, 1))
    else .ok (nIns + nOut, interior)

/-- `sample.py:450-486` `sample_outliers`: a given `nsamp` is refused. -/
noncomputable def sampleOutliersFn (srt : List ℝ → List ℕ) (r : Rand d) (pr : PoissonRand)
    (edges : List (List ℝ)) (dens : NDArr d ℝ) (threshold : ℝ) (nsamp : Option ℝ := none)
    (mass : Option (NDArr d ℝ) := none) (poissonInside poissonOutside : Bool := false)
    (interpolate : Bool := true) : Res (List ((Fin d → ℝ) × ℝ)) :=
  match SampleOutliers.init srt edges dens threshold mass with
  | .error e => .error e
  | .ok o =>
    if nsamp.isSome then .error .valueError
    else (o.sample r pr poissonInside poissonOutside interpolate).map Prod.snd

end Kalepy
