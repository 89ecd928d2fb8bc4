import Verif.Model.Parse
import Verif.Model.NDArr
import Verif.Model.Grid

/-!
# Model of `kalepy/kde.py`: the `KDE` class
-/

namespace Kalepy

open Matrix

/-! ### Kernel lookup -/

/-- `str.lower` of one character.  Non-ASCII letters whose lower case is not ASCII either are left as
they are; this does not matter for the lookup, since all names are ASCII. -/
def pyLower (c : Char) : List Char :=
  if 'A' ≤ c ∧ c ≤ 'Z' then [Char.ofNat (c.toNat + 32)]
  else if c = Char.ofNat 0x212A then ['k']
  else if c = Char.ofNat 0x130 then ['i', Char.ofNat 0x307]
  else [c]

/-- Whitespace characters removed by `str.strip`. -/
def pySpace (c : Char) : Bool :=
  c.toNat ∈ [9, 10, 11, 12, 13, 28, 29, 30, 31, 32, 0x85, 0xA0, 0x1680, 0x2000, 0x2001, 0x2002, 0x2003,
    0x2004, 0x2005, 0x2006, 0x2007, 0x2008, 0x2009, 0x200A, 0x2028, 0x2029, 0x202F, 0x205F, 0x3000]

/-- `s.lower().strip()`. -/
def lowerStrip (s : List Char) : List Char :=
  ((((s.flatMap pyLower).dropWhile pySpace).reverse).dropWhile pySpace).reverse

/-- `kernels.py:623-631`: the table `DISTRIBUTIONS`. -/
def distTable : List (List Char × Dist) :=
  [("gaussian".toList, .gaussian), ("box".toList, .box), ("parabola".toList, .parabola),
   ("epanechnikov".toList, .parabola), ("triweight".toList, .triweight)]

/-- The `kernel` argument: `None`, one of the classes, a string, or anything else. -/
inductive KernelArg where
  | none
  | cls (D : Dist)
  | name (s : List Char)
  | other

/-- `kernels.py:649-666` `get_distribution_class`.  User-defined subclasses are not modelled. -/
def getDistribution : KernelArg → Res Dist
  | .none => .ok .gaussian
  | .cls D => .ok D
  | .name s =>
    match distTable.lookup (lowerStrip s) with
    | some D => .ok D
    | Option.none => .error .valueError
  | .other => .error .valueError

/-! ### Weights -/

/-- A floating point number as far as the validity tests are concerned. -/
inductive Flt where
  | fin (x : ℝ)
  | nan
  | pinf
  | ninf

/-- The `weights` argument: `None`, an array of shape `(N,)`, the same as a Python list, or something of
another shape. -/
inductive WArg where
  | none
  | arr (l : List Flt)
  | list (l : List Flt)
  | badShape

/-- `np.count_nonzero` counts this entry. -/
def Flt.nonzero : Flt → Prop
  | .fin x => x ≠ 0
  | _ => True

/-- `~np.isfinite(w) | (w < 0)`. -/
def Flt.bad : Flt → Prop
  | .fin x => x < 0
  | _ => True

/-- Value of a finite number. -/
noncomputable def Flt.val : Flt → ℝ
  | .fin x => x
  | _ => 0

open Classical in
/-- `kde.py:199-208`: the checks of `weights` and the conversion to floats.  For a Python list the
comparison `weights < 0` raises `TypeError`. -/
noncomputable def checkWeights (ndata : ℕ) : WArg → Res (Option (List ℝ))
  | .none => .ok none
  | .badShape => .error .valueError
  | .arr l =>
    if l.length ≠ ndata then .error .valueError
    else if (∀ w ∈ l, ¬ w.nonzero) ∨ (∃ w ∈ l, w.bad) then .error .valueError
    else .ok (some (l.map Flt.val))
  | .list l =>
    if l.length ≠ ndata then .error .valueError
    else if ∀ w ∈ l, ¬ w.nonzero then .error .valueError
    else .error .typeError

/-- `kde.py:210-214`: effective number of points. -/
noncomputable def effNum (ndata : ℕ) (weights : Option (List ℝ)) (neff : Option ℝ) : ℝ :=
  match neff with
  | some n => n
  | none =>
    match weights with
    | none => ndata
    | some w => w.sum ^ 2 / (w.map (· ^ 2)).sum

/-! ### Covariance -/

/-- Weighted mean of row `i`. -/
noncomputable def wMean {d : ℕ} (data : List (Fin d → ℝ)) (w : List ℝ) (i : Fin d) : ℝ :=
  (List.zipWith (fun x a => a * x i) data w).sum / w.sum

/-- Weighted sum of products of deviations. -/
noncomputable def wCross {d : ℕ} (data : List (Fin d → ℝ)) (w : List ℝ) (i j : Fin d) : ℝ :=
  (List.zipWith (fun x a => a * ((x i - wMean data w i) * (x j - wMean data w j))) data w).sum

/-- The weights used: ones if there are none. -/
def onesIfNone {α : Type*} (data : List α) : Option (List ℝ) → List ℝ
  | none => List.replicate data.length 1
  | some w => w

/-- Normalisation of `np.cov` with `ddof=1`: `N - 1` or `Σw - Σw²/Σw`. -/
noncomputable def covFact {α : Type*} (data : List α) : Option (List ℝ) → ℝ
  | none => data.length - 1
  | some w => w.sum - (w.map (· ^ 2)).sum / w.sum

/-- `np.cov(dataset, rowvar=True, bias=False, aweights=weights)` (`kde.py:223`).  If the normalisation is not
positive (one effective point), numpy divides by zero: not modelled. -/
noncomputable def npCov {d : ℕ} (data : List (Fin d → ℝ)) (weights : Option (List ℝ)) :
    Res (Matrix (Fin d) (Fin d) ℝ) :=
  if covFact data weights ≤ 0 then .error .unmodelled
  else .ok (Matrix.of fun i j => wCross data (onesIfNone data weights) i j / covFact data weights)

/-! ### Bandwidth -/

/-- One bandwidth value: a number, a string or anything else. -/
inductive BwVal where
  | num (x : ℝ)
  | str (s : String)
  | other

/-- The `bandwidth` argument: `None`, a single value, a sequence, or a 2D array. -/
inductive BwArg where
  | none
  | val (v : BwVal)
  | vec (l : List BwVal)
  | mat (r c : ℕ) (a : Fin r → Fin c → BwVal)

/-- `kde.py:771-772` `_scott_factor`; a non-positive `neff` (possible only if given) is not modelled. -/
noncomputable def scottFactor (d : ℕ) (neff : ℝ) : ℝ := neff ^ (-1 / ((d : ℝ) + 4))

/-- `kde.py:774-775` `_silverman_factor`. -/
noncomputable def silvermanFactor (d : ℕ) (neff : ℝ) : ℝ := (neff * ((d : ℝ) + 2) / 4) ^ (-1 / ((d : ℝ) + 4))

/-- `kde.py:743-769` `_compute_bandwidth`. -/
noncomputable def computeBw (d : ℕ) (neff : ℝ) : BwVal → Res ℝ
  | .num x => .ok x
  | .str s =>
    if s = "scott" then if 0 < neff then .ok (scottFactor d neff) else .error .unmodelled
    else if s = "silverman" then if 0 < neff then .ok (silvermanFactor d neff) else .error .unmodelled
    else .error .valueError
  | .other => .error .valueError

/-- The `bw_rescale` argument: a scalar, one factor per column, or a matrix.  (Other shapes that numpy
broadcasts are not modelled.) -/
inductive Rescale (d : ℕ) where
  | none
  | scalar (c : ℝ)
  | vec (v : Fin d → ℝ)
  | mat (m : Matrix (Fin d) (Fin d) ℝ)

/-- `kde.py:725-727`. -/
def rescaleBw {d : ℕ} (b : Matrix (Fin d) (Fin d) ℝ) : Rescale d → Matrix (Fin d) (Fin d) ℝ
  | .none => b
  | .scalar c => Matrix.of fun i j => c * b i j
  | .vec v => Matrix.of fun i j => v j * b i j
  | .mat m => Matrix.of fun i j => m i j * b i j

/-- `kde.py:692-717`, the bandwidth matrix before rescaling. A sequence or array of length one is passed as
a whole to `_compute_bandwidth`, which refuses it. -/
noncomputable def bwMatrix (d : ℕ) (neff : ℝ) (diagonal : Bool) : BwArg → Res (Matrix (Fin d) (Fin d) ℝ)
  | .none => (computeBw d neff (.str "scott")).map fun b =>
      Matrix.of fun i j => if diagonal ∧ i ≠ j then 0 else b
  | .val v => (computeBw d neff v).map fun b => Matrix.of fun i j => if diagonal ∧ i ≠ j then 0 else b
  | .vec l =>
    if l.length = 1 then .error .valueError
    else if l.length = d then
      (finSeq fun i : Fin d => computeBw d neff (l.getD i .other)).map Matrix.diagonal
    else .error .valueError
  | .mat r c a =>
    if r = 1 then .error .valueError
    else if h : r = d ∧ c = d then
      (finSeq fun i : Fin d => finSeq fun j : Fin d =>
        computeBw d neff (a (Fin.cast h.1.symm i) (Fin.cast h.2.symm j))).map Matrix.of
    else .error .valueError

/-! ### Constructor -/

/-- Arguments of `KDE(...)`.  `squeeze` tells whether the dataset was a 1D array (then `d = 1`); `extra` are
the names of further keyword arguments other than `chunk`. -/
structure KDEArgs (d : ℕ) where
  dataset : List (Fin d → ℝ)
  squeeze : Bool := false
  bandwidth : BwArg := .none
  weights : WArg := .none
  kernel : KernelArg := .none
  extrema : Option (List ExtElem) := none
  points : EdgeArg := .none
  reflect : Reflect := .none
  covariance : Option (Matrix (Fin d) (Fin d) ℝ) := none
  neff : Option ℝ := none
  diagonal : Bool := false
  helper : Bool := true
  rescale : Rescale d := .none
  chunk : ℕ := 100000
  extra : List String := []

/-- Cumulative distribution on its grid (`_cdf_grid`). -/
structure CdfGrid (d : ℕ) where
  rows : List (List ℝ)
  vals : NDArr d ℝ

/-- A `KDE` object.  `pointsVal` is the result of the first use of `points` (`_points` with
`_check_points_flag` cleared), `pointsSpec` the value given to the constructor. -/
structure KDE (d : ℕ) where
  squeeze : Bool
  dataset : List (Fin d → ℝ)
  weights : Option (List ℝ)
  neff : ℝ
  covariance : Matrix (Fin d) (Fin d) ℝ
  bandwidth : Matrix (Fin d) (Fin d) ℝ
  kernel : Kernel d
  extrema : Fin d → ℝ × ℝ
  reflect : Option (List ReflRow)
  pointsSpec : EdgeArg
  pointsVal : Option (List (List ℝ))
  cdfCache : Option (CdfGrid d)

/-- `kde.py:242-249`: how far the kernel extends, in units of its widths.  `1 - 1/neff` must be strictly
between 0 and 1 for a finite quantile; otherwise the result is infinite or NaN, not modelled. -/
noncomputable def kernelOut (E : Ext) (D : Dist) (neff : ℝ) : Res ℝ :=
  if D.finite then .ok (1 + numPad)
  else if 1 < neff then .ok (E.ppf (1 - 1 / neff) * (6 / 5)) else .error .unmodelled

/-- `kde.py:251-256`: the extrema.  `_parse_extrema` takes the minimum and maximum of the two values in each
dimension.  A negative diagonal (NaN) is not modelled. -/
noncomputable def effExtrema {d : ℕ} (data : List (Fin d → ℝ)) (M : Matrix (Fin d) (Fin d) ℝ) (out : ℝ) :
    Res (Fin d → ℝ × ℝ) :=
  if ∀ i, 0 ≤ M i i then
    match dataExtrema data with
    | .error e => .error e
    | .ok dat => .ok fun i =>
        let a := (dat i).1 - Real.sqrt (M i i) * out
        let b := (dat i).2 + Real.sqrt (M i i) * out
        (min a b, max a b)
  else .error .unmodelled

/-- `kde.py:258-259`: given extrema, or the (checked) reflection boundaries. -/
def extremaArg (extrema : Option (List ExtElem)) (reflect : Option (List ReflRow)) : Option (List ExtElem) :=
  match extrema with
  | some l => some l
  | none => reflect.map fun r => r.map ReflRow.toExt

/-- The covariance: given, or that of the data (`kde.py:222-224`). -/
noncomputable def covArg {d : ℕ} (data : List (Fin d → ℝ)) (weights : Option (List ℝ)) :
    Option (Matrix (Fin d) (Fin d) ℝ) → Res (Matrix (Fin d) (Fin d) ℝ)
  | some c => .ok c
  | none => npCov data weights

/-- `kde.py:134-273` `KDE.__init__`.  `_finalize` only logs. -/
noncomputable def KDE.init {d : ℕ} (E : Ext) (a : KDEArgs d) : Res (KDE d) :=
  match checkReflect a.dataset a.reflect with
  | .error e => .error e
  | .ok reflect =>
    if a.dataset = [] then .error .valueError
    else
      match checkWeights a.dataset.length a.weights with
      | .error e => .error e
      | .ok weights =>
        match covArg a.dataset weights a.covariance with
        | .error e => .error e
        | .ok cov =>
          match bwMatrix d (effNum a.dataset.length weights a.neff) a.diagonal a.bandwidth with
          | .error e => .error e
          | .ok bw0 =>
            match getDistribution a.kernel with
            | .error e => .error e
            | .ok D =>
              if a.extra ≠ [] then .error .typeError
              else
                match kernelOut E D (effNum a.dataset.length weights a.neff) with
                | .error e => .error e
                | .ok out =>
                  match effExtrema a.dataset (Kernel.init D (rescaleBw bw0 a.rescale) cov a.helper
                      a.chunk).matrix out with
                  | .error e => .error e
                  | .ok eff =>
                    match parseExtrema eff (extremaArg a.extrema reflect) with
                    | .error e => .error e
                    | .ok ext => .ok
                      { squeeze := a.squeeze
                        dataset := a.dataset
                        weights := weights
                        neff := effNum a.dataset.length weights a.neff
                        covariance := cov
                        bandwidth := rescaleBw bw0 a.rescale
                        kernel := Kernel.init D (rescaleBw bw0 a.rescale) cov a.helper a.chunk
                        extrema := ext
                        reflect := reflect
                        pointsSpec := a.points
                        pointsVal := none
                        cdfCache := none }

/-! ### Points -/

/-- Evaluation points: one 1D array, or a list of arrays. -/
inductive Pts where
  | flat (l : List ℝ)
  | rows (l : List (List ℝ))

/-- The arrays as a list of rows (`np.atleast_2d`). -/
def Pts.toRows : Pts → List (List ℝ)
  | .flat l => [l]
  | .rows l => l

/-- The extrema as an argument (`kde.py:649`). -/
def extremaList {d : ℕ} (ext : Fin d → ℝ × ℝ) : List ExtElem :=
  List.ofFn fun i => .seq [some (ext i).1, some (ext i).2]

/-- `kde.py:650-652`: the computation of the points from their specification. -/
noncomputable def KDE.computePoints {d : ℕ} (srt : List ℝ → List ℕ) (k : KDE d) : Res (List (List ℝ)) :=
  parseEdges srt k.dataset k.pointsSpec (some (extremaList k.extrema)) k.weights 3 200 (some 0)
    (Real.sqrt 10) (some k.bandwidth)

/-- `kde.py:654-656`: 1D data give a single array. -/
def KDE.shapePoints {d : ℕ} (k : KDE d) (rows : List (List ℝ)) : Pts :=
  if k.squeeze then .flat (rows.getD 0 []) else .rows rows

/-- `kde.py:639-660`, property `points` (lazy, cached). -/
noncomputable def KDE.points {d : ℕ} (srt : List ℝ → List ℕ) (k : KDE d) : Res Pts × KDE d :=
  match k.pointsVal with
  | some rows => (.ok (k.shapePoints rows), k)
  | none =>
    match k.computePoints srt with
    | .error e => (.error e, k)
    | .ok rows => (.ok (k.shapePoints rows), { k with pointsVal := some rows })

/-! ### Density -/

/-- An array of values: shape and C-order content. -/
structure Arr where
  shape : List ℕ
  vals : List ℝ

/-- The `params` argument. -/
inductive ParamArg where
  | none
  | scalar (p : ℤ)
  | list (l : List ℤ)

/-- Index of a dimension, Python style. -/
def dimIndex (d : ℕ) (p : ℤ) : Res (Fin d) := pyIndex (List.finRange d) p

/-- `kde.py:331-349`: the selected dimensions (`none`: all) and whether to squeeze.  For 1D data only the
scalar 0 is accepted (a list is never equal to 0). An empty list is not a valid index. -/
def paramSel (d : ℕ) : ParamArg → Res (Option (List (Fin d)) × Bool)
  | .none => .ok (none, false)
  | .scalar p =>
    if d = 1 then if p = 0 then .ok (none, false) else .error .valueError
    else (dimIndex d p).map fun i => (some [i], true)
  | .list l =>
    if d = 1 then .error .valueError
    else if l = [] then .error .indexError
    else (listSeq (dimIndex d) l).map fun ps => (some ps, false)

/-- The rows of `reflect` for the selected dimensions (`kde.py:342-345`). -/
def selectRows {d : ℕ} (rows : List ReflRow) (ps : List (Fin d)) : List ReflRow :=
  ps.map fun i : Fin d => rows.getD i none

/-- `kde.py:342-350`: the stored `reflect` (restricted to `params`) is used if none is given. -/
def KDE.defaultReflect {d : ℕ} (k : KDE d) (sel : Option (List (Fin d))) : Reflect → Reflect
  | .none =>
    Reflect.ofChecked (match sel with
      | Option.none => k.reflect
      | some ps => k.reflect.map fun rows => selectRows rows ps)
  | r => r

/-- A scalar in a `reflect` list. -/
def RefDim.scalar : RefDim → Bool
  | .seq _ => Bool.false
  | _ => Bool.true

/-- `kde.py:352-362`: length of `reflect` against the number of dimensions `m` of the (restricted) data;
`len` of a boolean is a `TypeError`. -/
def reflectLength (d m : ℕ) : Reflect → Res Reflect
  | .none => .ok .none
  | .true => .error .typeError
  | .false => .error .typeError
  | .rows l =>
    if l.length = m then .ok (.rows l)
    else if d = 1 ∧ l.length = 2 ∧ l.all RefDim.scalar then .ok (.rows l)
    else .error .valueError

/-- Number of selected dimensions. -/
def numSel {d : ℕ} (sel : Option (List (Fin d))) : ℕ :=
  match sel with
  | none => d
  | some ps => ps.length

/-- The points to be used, with the flags `grid` and `squeeze` (`kde.py:364-373`). -/
structure PtsUse where
  pts : Pts
  grid : Bool
  squeeze : Bool

/-- `kde.py:364-373`. -/
noncomputable def KDE.choosePoints {d : ℕ} (srt : List ℝ → List ℕ) (k : KDE d) (points : Option Pts)
    (sel : Option (List (Fin d))) (grid squeeze : Bool) : Res PtsUse × KDE d :=
  match points with
  | some (.flat l) => (.ok ⟨.rows [l], grid, true⟩, k)
  | some (.rows l) => (.ok ⟨.rows l, grid, squeeze⟩, k)
  | none =>
    match k.points srt with
    | (.error e, k) => (.error e, k)
    | (.ok pts, k) =>
      match sel with
      | none => (.ok ⟨pts, decide (1 < d), squeeze⟩, k)
      | some ps => (.ok ⟨.rows (ps.map fun i : Fin d => pts.toRows.getD i []), decide (1 < ps.length), squeeze⟩, k)

/-- `utils.meshgrid(*rows)[i]` (`utils.py:323-324`, `indexing='ij'`). -/
def meshgrid (rows : List (List ℝ)) (i : Fin rows.length) : NDArr rows.length ℝ where
  shape := fun j => (rows.get j).length
  get := fun idx => (rows.get i).getD (idx i) 0

/-- `kde.py:375-379`: the flattened mesh. -/
def meshRows (rows : List (List ℝ)) : List (List ℝ) := List.ofFn fun i => (meshgrid rows i).flat

/-- `np.atleast_2d(points)` of a list of arrays (`kernels.py:64`).  Arrays of different lengths, or no array at
all, are not modelled. -/
def toCols : List (List ℝ) → Res (Cols ℝ)
  | [] => .error .unmodelled
  | r :: rs =>
    if rs.all fun s => s.length = r.length then
      .ok ⟨(r :: rs).length, (List.range r.length).map fun n i => ((r :: rs).get i).getD n 0⟩
    else .error .unmodelled

/-- `kde.py:347`: the data restricted to the selected dimensions. -/
def selectCols {d : ℕ} (data : List (Fin d → ℝ)) (ps : List (Fin d)) : List (Fin ps.length → ℝ) :=
  data.map fun x i => x (ps.get i)

/-- `kde.py:381-383`: check of `reflect` and evaluation. -/
noncomputable def KDE.evalKernel {d : ℕ} (E : Ext) (k : KDE d) (sel : Option (List (Fin d))) (cols : Cols ℝ)
    (reflect : Reflect) : Res (List ℝ) × KDE d :=
  match sel with
  | none =>
    match checkReflect k.dataset reflect with
    | .error e => (.error e, k)
    | .ok r =>
      let (v, kern) := k.kernel.density E cols k.dataset k.weights r
      (v, { k with kernel := kern })
  | some ps =>
    match checkReflect (selectCols k.dataset ps) reflect with
    | .error e => (.error e, k)
    | .ok r =>
      let (v, kern) := k.kernel.densityParams E ps cols (selectCols k.dataset ps) k.weights r
      (v, { k with kernel := kern })

/-- `kde.py:385-389`: the divisor of `probability=True`. -/
noncomputable def KDE.totalWeight {d : ℕ} (k : KDE d) : ℝ :=
  match k.weights with
  | none => k.dataset.length
  | some w => w.sum

/-- Shape of the values before squeezing. -/
def valShape (rows : List (List ℝ)) (grid : Bool) (n : ℕ) : List ℕ :=
  if grid then rows.map List.length else [n]

/-- `values.squeeze()`. -/
def squeezeShape (s : List ℕ) : List ℕ := s.filter (· ≠ 1)

/-- `kde.py:391-399`: what is returned. -/
def packResult (u : PtsUse) (vals : List ℝ) : Pts × Arr :=
  let s := valShape u.pts.toRows u.grid vals.length
  if u.squeeze then (.flat (u.pts.toRows.getD 0 []), ⟨squeezeShape s, vals⟩) else (u.pts, ⟨s, vals⟩)

/-- The rows at which the kernel is evaluated. -/
def PtsUse.evalRows (u : PtsUse) : List (List ℝ) :=
  if u.grid then meshRows u.pts.toRows else u.pts.toRows

/-- `kde.py:275-399` `KDE.density`. -/
noncomputable def KDE.density {d : ℕ} (E : Ext) (srt : List ℝ → List ℕ) (k : KDE d)
    (points : Option Pts := none) (reflect : Reflect := .none) (params : ParamArg := .none)
    (grid : Bool := false) (probability : Bool := false) : Res (Pts × Arr) × KDE d :=
  match paramSel d params with
  | .error e => (.error e, k)
  | .ok (sel, squeeze) =>
    match reflectLength d (numSel sel) (k.defaultReflect sel reflect) with
    | .error e => (.error e, k)
    | .ok reflect =>
      match k.choosePoints srt points sel grid squeeze with
      | (.error e, k) => (.error e, k)
      | (.ok u, k) =>
        match toCols u.evalRows with
        | .error e => (.error e, k)
        | .ok cols =>
          match k.evalKernel E sel cols reflect with
          | (.error e, k) => (.error e, k)
          | (.ok vals, k) =>
            (.ok (packResult u (if probability then vals.map (· / k.totalWeight) else vals)), k)

/-- `kde.py:482-484` `KDE.pdf`. -/
noncomputable def KDE.pdf {d : ℕ} (E : Ext) (srt : List ℝ → List ℕ) (k : KDE d) (points : Option Pts := none)
    (reflect : Reflect := .none) (params : ParamArg := .none) (grid : Bool := false) :
    Res (Pts × Arr) × KDE d :=
  k.density E srt points reflect params grid true

/-! ### Cumulative distribution -/

/-- A C-order array of values as a `d`-dimensional array. -/
noncomputable def Arr.toND {d : ℕ} (a : Arr) (rows : List (List ℝ)) : NDArr d ℝ where
  shape := fun i => (rows.getD i []).length
  get := fun idx => a.vals.getD (ravelIdx (fun i : Fin d => (rows.getD i []).length) idx) 0

/-- Every row is strictly increasing with at least two values (required by
`scipy.interpolate.RegularGridInterpolator`). -/
def Ascending (rows : List (List ℝ)) : Prop := ∀ r ∈ rows, 2 ≤ r.length ∧ r.Pairwise (· < ·)

/-- Largest value of the array (`cdf.max()`). -/
noncomputable def NDArr.max {d : ℕ} (a : NDArr d ℝ) : ℝ :=
  match a.flat with
  | [] => 0
  | x :: l => npMax x l

open Classical in
/-- `kde.py:510-514`: the cumulative sums of the pdf on the grid, normalised to their maximum.  A vanishing
maximum (NaN) and grids that are not strictly increasing are not modelled. -/
noncomputable def cdfOf {d : ℕ} (rows : List (List ℝ)) (pdf : Arr) : Res (CdfGrid d) :=
  match cumtrapzNd (pdf.toND rows : NDArr d ℝ) rows true none with
  | .error e => .error e
  | .ok c =>
    if c.max = 0 then .error .unmodelled
    else if Ascending rows then .ok ⟨rows, c.map (· / c.max)⟩
    else .error .unmodelled

/-- Index of the grid cell used for `x` by `RegularGridInterpolator` (`fill_value=None`: the outermost cells
are used for extrapolation). -/
noncomputable def cellIdx (row : List ℝ) (x : ℝ) : ℕ := min (searchLeft row x - 1) (row.length - 2)

/-- Relative position in the cell. -/
noncomputable def cellPos (row : List ℝ) (x : ℝ) : ℝ :=
  (x - row.getD (cellIdx row x) 0) / (row.getD (cellIdx row x + 1) 0 - row.getD (cellIdx row x) 0)

/-- `RegularGridInterpolator(...)(x)`: multilinear interpolation. -/
noncomputable def CdfGrid.interp {d : ℕ} (g : CdfGrid d) (x : Fin d → ℝ) : ℝ :=
  ∑ c ∈ validIdx (fun _ : Fin d => 2),
    g.vals.get (fun i => cellIdx (g.rows.getD i []) (x i) + c i) *
      ∏ i, (if c i = 1 then cellPos (g.rows.getD i []) (x i) else 1 - cellPos (g.rows.getD i []) (x i))

/-- `kde.py:506-524`: the lazily computed grid. -/
noncomputable def KDE.cdfGrid {d : ℕ} (E : Ext) (srt : List ℝ → List ℕ) (k : KDE d) : Res (CdfGrid d) × KDE d :=
  match k.cdfCache with
  | some g => (.ok g, k)
  | none =>
    match k.points srt with
    | (.error e, k) => (.error e, k)
    | (.ok pts, k) =>
      match k.pdf E srt (points := some pts) (grid := true) with
      | (.error e, k) => (.error e, k)
      | (.ok (_, pdf), k) =>
        match cdfOf pts.toRows pdf with
        | .error e => (.error e, k)
        | .ok g => (.ok g, { k with cdfCache := some g })

/-- `kde.py:526-528`: the evaluation points, `np.asarray(pnts).T`.  scipy reshapes a flat array to `(-1, D)`, so that
consecutive groups of `D` values are the points; an array of points must have `D` columns. -/
def cdfPoints (d : ℕ) : Pts → Res (List (Fin d → ℝ))
  | .flat l =>
    if l.length % d = 0 then .ok ((List.range (l.length / d)).map fun n (i : Fin d) => l.getD (n * d + i) 0)
    else .error .valueError
  | .rows l =>
    match toCols l with
    | .error e => .error e
    | .ok c => if h : c.dim = d then .ok (c.cols.map fun x i => x (Fin.cast h.symm i)) else .error .valueError

/-- `kde.py:486-529` `KDE.cdf`; `params` or `reflect` given raise `NotImplementedError`. -/
noncomputable def KDE.cdf {d : ℕ} (E : Ext) (srt : List ℝ → List ℕ) (k : KDE d) (pnts : Pts)
    (params : ParamArg := .none) (reflect : Reflect := .none) : Res (List ℝ) × KDE d :=
  match params, reflect with
  | .none, .none =>
    match k.cdfGrid E srt with
    | (.error e, k) => (.error e, k)
    | (.ok g, k) => ((cdfPoints d pnts).map fun l => l.map g.interp, k)
  | _, _ => (.error .notImplementedError, k)

/-! ### Module-level functions -/

/-- `kalepy/__init__.py:71-140` `kalepy.density(data, points, weights, reflect, probability, grid, **kwargs)`; the
keyword arguments are part of `a`. -/
noncomputable def kalepyDensity {d : ℕ} (E : Ext) (srt : List ℝ → List ℕ) (a : KDEArgs d)
    (points : Option Pts := none) (probability grid : Bool := false) : Res (Pts × Arr) :=
  match KDE.init E a with
  | .error e => .error e
  | .ok k => (k.density E srt points .none .none grid probability).1

/-- `kalepy/__init__.py:143-209` `kalepy.pdf(data, points, weights, reflect, params, grid, **kwargs)`.  It passes
`params=params` on to `density`, which has no such parameter, so that it becomes a keyword argument of `KDE` and
from there of `Kernel` (`kde.py:232-234`), whatever its value. -/
noncomputable def kalepyPdf {d : ℕ} (E : Ext) (srt : List ℝ → List ℕ) (a : KDEArgs d)
    (points : Option Pts := none) (_params : ParamArg := .none) (grid : Bool := false) : Res (Pts × Arr) :=
  kalepyDensity E srt { a with extra := "params" :: a.extra } points true grid

/-! ### Histograms -/

/-- Floating point division of finite numbers (the sign of zero is ignored). -/
noncomputable def fltDiv (x y : ℝ) : Flt :=
  if y = 0 then if x = 0 then .nan else if 0 < x then .pinf else .ninf else .fin (x / y)

/-- `kde.py:430-431, 457-458`: bin width (that of the second bin) and bin centres of one dimension.  Fewer than
three edges raise `IndexError`. -/
noncomputable def histCenters (bins : List ℝ) : Res (ℝ × List ℝ) :=
  if bins.length < 3 then .error .indexError
  else
    .ok (bins.getD 2 0 - bins.getD 1 0,
      bins.dropLast.map (· + 1 / 2 * (bins.getD 2 0 - bins.getD 1 0)))

/-- `kde.py:426-445` `KDE.from_hist` for one-dimensional `bins`.  `bandwidth = none` is the default
`'bin width'`; the other keyword arguments are taken from `a`. -/
noncomputable def KDE.fromHist1 (E : Ext) (bins : List ℝ) (hist : Arr) (bandwidth : Option BwArg)
    (a : KDEArgs 1) : Res (KDE 1) :=
  match histCenters bins with
  | .error e => .error e
  | .ok (dx, points) =>
    KDE.init E { a with
      dataset := points.map fun x _ => x
      squeeze := true
      weights := if hist.shape = [points.length] then .arr (hist.vals.map fun h => fltDiv h (hist.vals.sum * dx))
        else .badShape
      bandwidth := bandwidth.getD (.val (.num dx)) }

/-- All combinations of the centres, in C order (`kde.py:468-469`). -/
def gridPoints {d : ℕ} (rows : Fin d → List ℝ) : List (Fin d → ℝ) :=
  (List.range (∏ i, (rows i).length)).map fun n i =>
    (rows i).getD (unravelIdx (fun j => (rows j).length) n i) 0

/-- `kde.py:447-480` `KDE.from_hist` for several dimensions.  The histogram is flattened, so that only its total
size matters. -/
noncomputable def KDE.fromHistN {d : ℕ} (E : Ext) (bins : Fin d → List ℝ) (hist : Arr)
    (bandwidth : Option BwArg) (a : KDEArgs d) : Res (KDE d) :=
  match finSeq fun i => histCenters (bins i) with
  | .error e => .error e
  | .ok c =>
    KDE.init E { a with
      dataset := gridPoints fun i => (c i).2
      squeeze := false
      weights := .arr (hist.vals.map fun h => fltDiv h (hist.vals.sum * ∏ i, (c i).1))
      bandwidth := bandwidth.getD (.vec (List.ofFn fun i => .num (c i).1)) }

end Kalepy
