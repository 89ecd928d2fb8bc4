import Verif.Model.KDE

/-!
# Model of `Kernel.resample` and `KDE.resample`

Every random number is part of a `Draw`; the methods take an arbitrary stream of draws.
-/

namespace Kalepy

open Matrix

/-- The random numbers used for one sample.
* `gauss`: standard normal deviates, `np.random.multivariate_normal(0, 1)` (`kernels.py:504`) and
  `np.random.normal` (`kernels.py:544, 610`);
* `unif`: `np.random.random` (`kernels.py:546, 612`), in `[0, 1)`;
* `sym`: `np.random.uniform(-1, 1)` (`kernels.py:542`), in `[-1, 1)`;
* `trip`: three of these (`kernels.py:580`);
* `pick`: the uniform number in `[0, 1)` from which `np.random.choice` (`kernels.py:199`) makes an index. -/
structure Draw (d : ℕ) where
  gauss : Fin d → ℝ
  unif : Fin d → ℝ
  sym : Fin d → ℝ
  trip : Fin d → ℝ × ℝ × ℝ
  pick : ℝ

/-- What numpy guarantees about the random numbers. -/
def Draw.Valid {d : ℕ} (r : Draw d) : Prop :=
  (∀ i, 0 ≤ r.unif i ∧ r.unif i < 1) ∧ (∀ i, -1 ≤ r.sym i ∧ r.sym i ≤ 1) ∧
  (∀ i, (-1 ≤ (r.trip i).1 ∧ (r.trip i).1 ≤ 1) ∧ (-1 ≤ (r.trip i).2.1 ∧ (r.trip i).2.1 ≤ 1) ∧
    (-1 ≤ (r.trip i).2.2 ∧ (r.trip i).2.2 ≤ 1)) ∧ 0 ≤ r.pick ∧ r.pick < 1

/-! ### Distributions -/

/-- `kernels.py:22-24` `_triweight_cdf`. -/
noncomputable def triweightCdf (x : ℝ) : ℝ := 70 / 32 * ((-1 / 7) * x ^ 7 + (3 / 5) * x ^ 5 - x ^ 3 + x)

/-- `kernels.py:27-29`: abscissae of the table, `np.linspace(0, 1, 1000)`. -/
noncomputable def triXs : List ℝ := (List.range 1000).map fun k : ℕ => (k : ℝ) / 999

/-- `kernels.py:28-29`: ordinates of the table, the last one set to 1. -/
noncomputable def triYs : List ℝ := (triXs.map triweightCdf).set 999 1

/-- `scipy.interpolate.interp1d(xp, fp, kind='linear', bounds_error=True)(x)`: linear between the neighbouring
points of the table; outside the table `ValueError`. -/
noncomputable def interp1d (xp fp : List ℝ) (x : ℝ) : Res ℝ :=
  if x < xp.getD 0 0 ∨ xp.getD (xp.length - 1) 0 < x then .error .valueError
  else
    let hi := min (max (searchLeft xp x) 1) (xp.length - 1)
    .ok ((fp.getD hi 0 - fp.getD (hi - 1) 0) / (xp.getD hi 0 - xp.getD (hi - 1) 0) * (x - xp.getD (hi - 1) 0)
      + fp.getD (hi - 1) 0)

/-- `kernels.py:30` `_triweight_inverse_func`. -/
noncomputable def triInverse (u : ℝ) : Res ℝ := interp1d triYs triXs u

/-- Median of three numbers (`np.median`). -/
noncomputable def median3 (t : ℝ × ℝ × ℝ) : ℝ :=
  max (min t.1 t.2.1) (min (max t.1 t.2.1) t.2.2)

/-- Euclidean length of the normal deviates (`kernels.py:545, 611`). -/
noncomputable def rad {d : ℕ} (g : Fin d → ℝ) : ℝ := Real.sqrt (∑ i, g i ^ 2)

/-- `_sample` for one sample: `kernels.py:501-505` (Gaussian), `537-548` (Box), `577-582` (Parabola),
`608-614` (Triweight).  Box and Triweight draw one radius *per component*.  A vanishing length (NaN) is not
modelled. -/
noncomputable def Dist.sample {d : ℕ} (D : Dist) (r : Draw d) : Res (Fin d → ℝ) :=
  match D with
  | .gaussian => .ok r.gauss
  | .box =>
    if d = 1 then .ok r.sym
    else if rad r.gauss = 0 then .error .unmodelled
    else .ok fun i => r.unif i ^ (1 / (d : ℝ)) * r.gauss i / rad r.gauss
  | .parabola => .ok fun i => median3 (r.trip i)
  | .triweight =>
    if rad r.gauss = 0 then .error .unmodelled
    else (finSeq fun i => triInverse (r.unif i)).map fun n i => n i * r.gauss i / rad r.gauss

/-! ### Resampling without reflection -/

/-- The `keep` argument: `None`, `True`, `False`, or dimension numbers (a single number is a list of one). -/
inductive KeepArg where
  | none
  | true
  | false
  | dims (l : List ℤ)

/-- `kernels.py:186-192`: the dimensions to keep. -/
def keepDims (d : ℕ) : KeepArg → Res (List (Fin d))
  | .none => .ok []
  | .true => .ok (List.finRange d)
  | .false => .ok []
  | .dims l => listSeq (dimIndex d) l

/-- `kernels.py:192-193`: set the noise of the given dimensions to zero. -/
def zeroDims {d : ℕ} (ps : List (Fin d)) (x : Fin d → ℝ) : Fin d → ℝ := fun i => if i ∈ ps then 0 else x i

/-- The checks made by `np.random.choice(n, size, p)` (`kernels.py:195-199`) on the normalised weights; a
vanishing sum gives NaN, which is refused. -/
noncomputable def choiceOk (n size : ℕ) (weights : Option (List ℝ)) : Bool :=
  match weights with
  | none => decide (n ≠ 0 ∨ size = 0)
  | some w => decide ((n ≠ 0 ∨ size = 0) ∧ w.length = n ∧ w.sum ≠ 0 ∧ ∀ x ∈ w, 0 ≤ x / w.sum)

/-- The index chosen by `np.random.choice(n, p=...)` from the uniform number `u`: without `p`, equally likely
indices; with `p`, `searchsorted(cumsum(p)/sum(p), u, side='right')`. -/
noncomputable def choiceIndex (n : ℕ) (weights : Option (List ℝ)) (u : ℝ) : ℕ :=
  match weights with
  | none => ⌊u * n⌋₊
  | some w =>
    searchRight ((npCumsum (w.map (· / w.sum))).map (· / (w.map (· / w.sum)).sum)) u

/-- The data point chosen. -/
noncomputable def choiceDatum {d : ℕ} (data : List (Fin d → ℝ)) (weights : Option (List ℝ)) (u : ℝ) :
    Res (Fin d → ℝ) :=
  match data[choiceIndex data.length weights u]? with
  | some x => .ok x
  | none => .error .indexError

/-- `kernels.py:171-210` `_resample_clear`. -/
noncomputable def resampleClear {d : ℕ} (D : Dist) (data : List (Fin d → ℝ)) (size : ℕ)
    (weights : Option (List ℝ)) (matrix : Matrix (Fin d) (Fin d) ℝ) (keep : KeepArg) (rnd : ℕ → Draw d) :
    Res (List (Fin d → ℝ)) :=
  match listSeq (fun n => D.sample (rnd n)) (List.range size) with
  | .error e => .error e
  | .ok noise =>
    match addCov noise matrix with
    | .error e => .error e
    | .ok noise =>
      match keepDims d keep with
      | .error e => .error e
      | .ok ps =>
        if choiceOk data.length size weights then
          match listSeq (fun n => choiceDatum data weights (rnd n).pick) (List.range size) with
          | .error e => .error e
          | .ok means => .ok (List.zipWith (fun m x => m + zeroDims ps x) means noise)
        else .error .valueError

/-! ### Resampling with reflection -/

/-- One dimension for `cov_keep_vars`: refused if it is also a reflecting one (`utils.py:219-221`). -/
def keepDim (d : ℕ) (reflect : List ReflRow) (p : ℤ) : Res (Fin d) :=
  match dimIndex d p with
  | .error e => .error e
  | .ok i => if (reflect.getD i none).isSome then .error .valueError else .ok i

/-- `utils.py:206-223` `cov_keep_vars` with `reflect` given: the rows and columns of the kept dimensions are set
to zero. -/
noncomputable def covKeepVars {d : ℕ} (matrix : Matrix (Fin d) (Fin d) ℝ) (keep : KeepArg)
    (reflect : List ReflRow) : Res (Matrix (Fin d) (Fin d) ℝ) :=
  let zero (ps : List (Fin d)) : Matrix (Fin d) (Fin d) ℝ :=
    Matrix.of fun i j => if i ∈ ps ∨ j ∈ ps then 0 else matrix i j
  match keep with
  | .none => .ok matrix
  | .false => .ok matrix
  | .true => (listSeq (keepDim d reflect) ((List.range d).map fun n : ℕ => (n : ℤ))).map zero
  | .dims l => (listSeq (keepDim d reflect) l).map zero

/-- Mirror images of the data at one location (`kernels.py:314-320`): `loc - (x - loc)`. -/
def mirrorData {d : ℕ} (i : Fin d) (old : List (Fin d → ℝ)) : Option ℝ → List (Fin d → ℝ)
  | none => []
  | some loc => old.map fun x => Function.update x i (loc - (x i - loc))

/-- The mirror images of one dimension (`kernels.py:302-320`). -/
def mirrorDim {d : ℕ} (old : List (Fin d → ℝ)) (i : Fin d) : ReflRow → List (Fin d → ℝ)
  | none => []
  | some (lo, hi) => mirrorData i old lo ++ mirrorData i old hi

/-- The bounds of one dimension (`none`: infinite), `kernels.py:302-314`. -/
def boundOf : ReflRow → Option ℝ × Option ℝ
  | none => (none, none)
  | some p => p

/-- `kernels.py:290-326` `_reflect_data`: the data followed by all mirror images. -/
def reflectData {d : ℕ} (data : List (Fin d → ℝ)) (reflect : List ReflRow) : List (Fin d → ℝ) :=
  data ++ (List.finRange d).flatMap fun i => mirrorDim data i (reflect.getD i none)

/-- Number of mirror images made of each data point. -/
def numMirrors {d : ℕ} (reflect : List ReflRow) : ℕ :=
  ((List.finRange d).map fun i : Fin d => match reflect.getD i none with
    | none => 0
    | some (lo, hi) => (if lo.isSome then 1 else 0) + (if hi.isSome then 1 else 0)).sum

/-- `kernels.py:319-324`: the weights, repeated for the mirror images and normalised. -/
noncomputable def reflectWeights (d : ℕ) (weights : List ℝ) (reflect : List ReflRow) : List ℝ :=
  let w := weights ++ (List.replicate (numMirrors (d := d) reflect) weights).flatten
  w.map (· / w.sum)

/-- `utils.py:67-90` `bound_indices` for one point and float bounds (`none`: infinite): strictly inside in
every dimension. -/
noncomputable def insideBounds {d : ℕ} (reflect : List ReflRow) (x : Fin d → ℝ) : Bool :=
  (List.finRange d).all fun i =>
    inRow false (boundOf (reflect.getD i none)).1 (boundOf (reflect.getD i none)).2 (x i)

/-- `kernels.py:328-340` `_truncate_reflections`: only the points inside the bounds are left. -/
noncomputable def truncateData {d : ℕ} (reflect : List ReflRow) (data : List (Fin d → ℝ)) :
    List (Fin d → ℝ) := data.filter fun x => insideBounds reflect x

/-- Weights of the points that are left, normalised (`kernels.py:336-338`). -/
noncomputable def truncateWeights {d : ℕ} (reflect : List ReflRow) (data : List (Fin d → ℝ))
    (weights : List ℝ) : List ℝ :=
  let w := ((data.zip weights).filter fun p => insideBounds reflect p.1).map Prod.snd
  w.map (· / w.sum)

/-- `kernels.py:223-226`: data to draw from. -/
noncomputable def drawData {d : ℕ} (data : List (Fin d → ℝ)) (reflect : List ReflRow) : List (Fin d → ℝ) :=
  truncateData reflect (reflectData data reflect)

/-- `kernels.py:223-226`: their weights. -/
noncomputable def drawWeights {d : ℕ} (data : List (Fin d → ℝ)) (weights : Option (List ℝ))
    (reflect : List ReflRow) : Option (List ℝ) :=
  weights.map fun w => truncateWeights reflect (reflectData data reflect) (reflectWeights d w reflect)

/-- `kernels.py:232-237`: number of chunks and chunk size. -/
def chunking (size chunk : ℕ) : ℕ × ℕ :=
  if chunk < size then
    let n := (size + chunk - 1) / chunk
    (n, (size + n - 1) / n)
  else (1, size)

/-- `kernels.py:267-269`: number of points to draw next. -/
def nextDraw (d size good chunkSize chunk : ℕ) : ℕ := min (2 ^ d * min (size - good) chunkSize) chunk

/-- Result of the rejection loop: the samples kept so far and the number of points drawn in each iteration. -/
structure LoopState (d : ℕ) where
  good : List (Fin d → ℝ)
  draws : List ℕ

/-- `kernels.py:246-269`, the rejection loop.  `fuel` is the number of iterations that are still allowed,
`draw` the number of points to draw. -/
noncomputable def rejectLoop {d : ℕ} (D : Dist) (data : List (Fin d → ℝ)) (weights : Option (List ℝ))
    (matrix : Matrix (Fin d) (Fin d) ℝ) (reflect : List ReflRow) (size chunkSize chunk : ℕ)
    (rnd : ℕ → ℕ → Draw d) : ℕ → ℕ → LoopState d → Res (LoopState d)
  | 0, _, s => .ok s
  | fuel + 1, draw, s =>
    if size ≤ s.good.length then .ok s
    else
      match resampleClear D data draw weights matrix .none (rnd s.draws.length) with
      | .error e => .error e
      | .ok trial =>
        let good := s.good ++ (trial.filter fun x => insideBounds reflect x).take (size - s.good.length)
        rejectLoop D data weights matrix reflect size chunkSize chunk rnd fuel
          (nextDraw d size good.length chunkSize chunk) ⟨good, s.draws ++ [draw]⟩

/-- `kernels.py:212-286` `_resample_reflect`; `reflect` is the checked argument. -/
noncomputable def resampleReflect {d : ℕ} (k : Kernel d) (data : List (Fin d → ℝ)) (size : ℕ)
    (reflect : List ReflRow) (weights : Option (List ℝ)) (keep : KeepArg) (rnd : ℕ → ℕ → Draw d) :
    Res (List (Fin d → ℝ) × List ℕ) :=
  match covKeepVars k.matrix keep reflect with
  | .error e => .error e
  | .ok matrix =>
    if drawData data reflect = [] then .error .valueError
    else if k.chunk < size ∧ k.chunk = 0 then .error .zeroDivisionError
    else
      match rejectLoop k.dist (drawData data reflect) (drawWeights data weights reflect) matrix reflect size
          (chunking size k.chunk).2 k.chunk rnd (10 * (chunking size k.chunk).1) (chunking size k.chunk).2
          ⟨[], []⟩ with
      | .error e => .error e
      | .ok s => if s.good.length < size then .error .runtimeError else .ok (s.good, s.draws)

/-- Samples as returned: a `(D, L)` array, or `(L,)` (`kernels.py:166-167`; `.squeeze()` of a single
one-dimensional sample gives a scalar array, here a list of length one). -/
inductive Samples (d : ℕ) where
  | cols (l : List (Fin d → ℝ))
  | flat (l : List ℝ)

/-- The samples as columns. -/
def Samples.points {d : ℕ} : Samples d → List (Fin d → ℝ)
  | .cols l => l
  | .flat l => l.map fun x _ => x

/-- `kernels.py:166-167`. -/
def squeezeSamples {d : ℕ} (squeeze : Bool) (l : List (Fin d → ℝ)) : Samples d :=
  if h : d = 1 ∧ squeeze then .flat (l.map fun x => x ⟨0, by omega⟩) else .cols l

/-- `kernels.py:138-169` `Kernel.resample`. `size` is a non-negative integer. -/
noncomputable def Kernel.resample {d : ℕ} (k : Kernel d) (data : List (Fin d → ℝ))
    (weights : Option (List ℝ)) (size : Option ℕ) (keep : KeepArg) (reflect : Reflect) (squeeze : Bool)
    (rnd : ℕ → ℕ → Draw d) : Res (Samples d) :=
  match checkReflect data reflect with
  | .error e => .error e
  | .ok none =>
    (resampleClear k.dist data (size.getD data.length) weights k.matrix keep (rnd 0)).map
      (squeezeSamples squeeze)
  | .ok (some rows) =>
    (resampleReflect k data (size.getD data.length) rows weights keep rnd).map fun r =>
      squeezeSamples squeeze r.1

/-- `kde.py:531-572` `KDE.resample`: `reflect=False` means no reflection, `None` the stored one. -/
noncomputable def KDE.resample {d : ℕ} (k : KDE d) (size : Option ℕ := none) (keep : KeepArg := .none)
    (reflect : Reflect := .none) (squeeze : Bool := true) (rnd : ℕ → ℕ → Draw d) : Res (Samples d) :=
  match reflect with
  | .false => k.kernel.resample k.dataset k.weights size keep .none squeeze rnd
  | .none => k.kernel.resample k.dataset k.weights size keep (Reflect.ofChecked k.reflect) squeeze rnd
  | r => k.kernel.resample k.dataset k.weights size keep r squeeze rnd

/-- `kalepy/__init__.py:212-255` `kalepy.resample`. -/
noncomputable def kalepyResample {d : ℕ} (E : Ext) (a : KDEArgs d) (size : Option ℕ := none)
    (keep : KeepArg := .none) (rnd : ℕ → ℕ → Draw d) : Res (Samples d) :=
  match KDE.init E a with
  | .error e => .error e
  | .ok k => k.resample size keep .none true rnd

end Kalepy
