import Mathlib.Analysis.SpecialFunctions.Gamma.Basic
import Mathlib.Analysis.SpecialFunctions.Exp
import Mathlib.Analysis.SpecialFunctions.Pow.Real
import Verif.Model.LinAlg

/-!
# Model of `kalepy/kernels.py`: distributions and `Kernel.density`
-/

namespace Kalepy

open Matrix

/-- The four kernel shapes: classes `Gaussian`, `Box`, `Parabola`, `Triweight`
(`kalepy/kernels.py:487-618`). -/
inductive Dist where
  | gaussian | box | parabola | triweight
  deriving DecidableEq, Repr

namespace Dist

/-- `_FINITE` flags, `kalepy/kernels.py:489, 518, 559, 591`. -/
def finite : Dist → Bool
  | gaussian => false
  | box => true
  | parabola => true
  | triweight => true

/-- `_evaluate(y2)`: kernel as a function of the squared distance, without normalisation.
`kalepy/kernels.py:491-494` (Gaussian), `524-535` (Box, a boolean used as 0/1),
`561-570` (Parabola), `597-606` (Triweight). -/
noncomputable def eval : Dist → ℝ → ℝ
  | gaussian, y2 => Real.exp (-y2 / 2)
  | box, y2 => if y2 ≤ 1 then 1 else 0
  | parabola, y2 => max (1 - y2) 0
  | triweight, y2 => max ((1 - y2) ^ 3) 0

/-- `kalepy/kernels.py:678-681` `_nball_vol` with `rad = 1`. -/
noncomputable def nballVol (d : ℕ) : ℝ :=
  Real.pi ^ ((d : ℝ) / 2) / Real.Gamma ((d : ℝ) / 2 + 1)

/-- `scipy.special.beta` on positive reals, `Γ(a)Γ(b)/Γ(a+b)`. -/
noncomputable def spBeta (a b : ℝ) : ℝ := Real.Gamma a * Real.Gamma b / Real.Gamma (a + b)

/-- `kalepy/kernels.py:684-693` `_beta_kernel_norm` (the `order` argument is ignored, `rr = 3`). -/
noncomputable def betaKernelNorm (_order : ℕ) (d : ℕ) : ℝ :=
  (d : ℝ) * (nballVol d / 2) * spBeta (3 + 1) ((d : ℝ) / 2)

/-- `norm(ndim)`: `kalepy/kernels.py:496-499` (Gaussian), `520-522` (Box), `572-575` (Parabola),
`593-595` (Triweight). -/
noncomputable def norm : Dist → ℕ → ℝ
  | gaussian, d => (2 * Real.pi) ^ ((d : ℝ) / 2)
  | box, d => nballVol d
  | parabola, d => 2 * nballVol d / ((d : ℝ) + 2)
  | triweight, d => betaKernelNorm 3 d

end Dist

/-- Squared Euclidean distance of the whitened point and the whitened datum; the inner loops
`kk`, `ll` of `kalepy/kernels.py:776-786`. -/
def whitenedDist2 {m : ℕ} (white : Matrix (Fin m) (Fin m) ℝ) (x d : Fin m → ℝ) : ℝ :=
  ∑ k, ((∑ l, white k l * x l) - (∑ l, white k l * d l)) ^ 2

/-- `kalepy/kernels.py:768-791` `_evaluate_numba`: for each point the weighted sum of kernels.
The accumulation loop `zz[ii] += kfunc(y2ij) * weights[jj]` is a list sum. -/
noncomputable def evaluateNumba {m : ℕ} (white : Matrix (Fin m) (Fin m) ℝ)
    (data : List (Fin m → ℝ)) (points : List (Fin m → ℝ)) (weights : List ℝ) (kfunc : ℝ → ℝ) :
    List ℝ :=
  points.map fun x =>
    (List.zipWith (fun d w => kfunc (whitenedDist2 white x d) * w) data weights).sum

/-- One row of a *checked* `reflect` argument: `None`, or a (lower, upper) pair of optional
locations. -/
abbrev ReflRow := Option (Option ℝ × Option ℝ)

/-- `kalepy/kernels.py:126-127`: `refl_data = np.array(data); refl_data[ii, :] = 2*loc - ...`. -/
def reflectCol {m : ℕ} (i : Fin m) (loc : ℝ) (x : Fin m → ℝ) : Fin m → ℝ :=
  Function.update x i (2 * loc - x i)

/-- Outside test of `kalepy/kernels.py:130-133`: `(x < lo) | (hi < x)` with missing bounds at
infinity. -/
noncomputable def outsideRow (r : Option ℝ × Option ℝ) (x : ℝ) : Bool :=
  (match r.1 with | none => false | some lo => decide (x < lo)) ||
  (match r.2 with | none => false | some hi => decide (hi < x))

/-- Body of the `for loc in reflect_dim` loop, `kalepy/kernels.py:121-128`. -/
noncomputable def reflectAdd {m : ℕ} (white : Matrix (Fin m) (Fin m) ℝ)
    (data points : List (Fin m → ℝ)) (weights : List ℝ) (kfunc : ℝ → ℝ) (i : Fin m)
    (result : List ℝ) : Option ℝ → List ℝ
  | none => result
  | some loc =>
    List.zipWith (· + ·) result
      (evaluateNumba white (data.map (reflectCol i loc)) points weights kfunc)

/-- Body of the `for ii, reflect_dim in enumerate(reflect)` loop, `kalepy/kernels.py:117-133`:
add the mirrored evaluations of both locations, then zero the points outside this dimension's
boundaries. -/
noncomputable def reflectStep {m : ℕ} (white : Matrix (Fin m) (Fin m) ℝ)
    (data points : List (Fin m → ℝ)) (weights : List ℝ) (kfunc : ℝ → ℝ)
    (result : List ℝ) (i : Fin m) : ReflRow → List ℝ
  | none => result
  | some r =>
    let result := reflectAdd white data points weights kfunc i result r.1
    let result := reflectAdd white data points weights kfunc i result r.2
    List.zipWith (fun x v => if outsideRow r (x i) then 0 else v) points result

/-- `kalepy/kernels.py:82-136`, the part of `Kernel.density` after the `params` selection:
argument checks, whitening, evaluation, reflection and normalisation.

* `norm`, `matrixInv` are the values selected at lines 63-76.
* the wrong-length `weights` branch contains the typo `np.shpae`, so it raises `AttributeError`
  rather than the intended `ValueError` (lines 90-93).
* `sp.linalg.cholesky` failures propagate as `LinAlgError` (lines 98-102).
* a vanishing norm (NaN and infinities), which needs a matrix with determinant zero, or negative in the case of
  `params`, is not modelled. -/
noncomputable def densityCore {m : ℕ} (dist : Dist) (norm : ℝ)
    (matrixInv : Matrix (Fin m) (Fin m) ℝ) (points : Cols ℝ) (data : List (Fin m → ℝ))
    (weights : Option (List ℝ)) (reflect : Option (List ReflRow)) : Res (List ℝ) :=
  if h : points.dim = m then
    let pts : List (Fin m → ℝ) := points.cols.map fun c => fun i => c (Fin.cast h.symm i)
    let weights? : Res (List ℝ) :=
      match weights with
      | none => .ok (List.replicate data.length 1)
      | some w => if w.length ≠ data.length then .error .attributeError else .ok w
    match weights? with
    | .error e => .error e
    | .ok w =>
      let total := norm * dist.norm points.dim
      match cholesky matrixInv with
      | none => .error .linAlgError
      | some white =>
        if norm = 0 then .error .unmodelled
        else
          let result := evaluateNumba white data pts w dist.eval
          match reflect with
          | none => .ok (result.map (· / total))
          | some refl =>
            if hr : refl.length = m then
              let result := (List.finRange m).foldl
                (fun res i => reflectStep white data pts w dist.eval res i
                  (refl.get (Fin.cast hr.symm i))) result
              .ok (result.map (· / total))
            else .error .valueError
  else .error .valueError

/-- `Kernel` objects, `kalepy/kernels.py:34-50`, with their two lazy caches
(`_matrix_inv`, `_norm`). -/
structure Kernel (d : ℕ) where
  dist : Dist
  bandwidth : Matrix (Fin d) (Fin d) ℝ
  covariance : Matrix (Fin d) (Fin d) ℝ
  matrix : Matrix (Fin d) (Fin d) ℝ
  helper : Bool
  chunk : ℕ
  cacheInv : Option (Matrix (Fin d) (Fin d) ℝ)
  cacheNorm : Option ℝ

namespace Kernel

/-- `kalepy/kernels.py:36-50` `Kernel.__init__`: `matrix = covariance * np.square(bandwidth)`
(elementwise), caches empty. -/
noncomputable def init {d : ℕ} (dist : Dist) (bandwidth covariance : Matrix (Fin d) (Fin d) ℝ)
    (helper : Bool := false) (chunk : ℕ := 100000) : Kernel d where
  dist := dist
  bandwidth := bandwidth
  covariance := covariance
  matrix := Matrix.of fun i j => covariance i j * (bandwidth i j) ^ 2
  helper := helper
  chunk := chunk
  cacheInv := none
  cacheNorm := none

/-- `kalepy/kernels.py:378-385`, property `matrix_inv` (lazy, cached). -/
noncomputable def matrixInv {d : ℕ} (E : Ext) (k : Kernel d) :
    Matrix (Fin d) (Fin d) ℝ × Kernel d :=
  match k.cacheInv with
  | some M => (M, k)
  | none => let M := matrixInvert E k.matrix; (M, { k with cacheInv := some M })

/-- `kalepy/kernels.py:387-391`, property `norm` (lazy, cached): `sqrt(|det matrix|)`. -/
noncomputable def normVal {d : ℕ} (k : Kernel d) : ℝ × Kernel d :=
  match k.cacheNorm with
  | some x => (x, k)
  | none => let x := Real.sqrt |k.matrix.det|; (x, { k with cacheNorm := some x })

/-- `kalepy/kernels.py:52-136` `Kernel.density` with `params=None`. Both caches are touched
(lines 63 and 66) before anything else, also when an exception follows. -/
noncomputable def density {d : ℕ} (E : Ext) (k : Kernel d) (points : Cols ℝ)
    (data : List (Fin d → ℝ)) (weights : Option (List ℝ)) (reflect : Option (List ReflRow)) :
    Res (List ℝ) × Kernel d :=
  let (minv, k) := k.matrixInv E
  let (nrm, k) := k.normVal
  (densityCore k.dist nrm minv points data weights reflect, k)

/-- `kalepy/kernels.py:52-136` `Kernel.density` with `params` given (valid indices): the kernel
matrix is restricted to the selected rows and columns, norm and inverse are recomputed
(`norm = sqrt(det)`, without the `fabs` of the cached norm; lines 71-80).  `data` has already been
restricted by the caller (`kde.py:347`). -/
noncomputable def densityParams {d : ℕ} (E : Ext) (k : Kernel d) (params : List (Fin d))
    (points : Cols ℝ) (data : List (Fin params.length → ℝ)) (weights : Option (List ℝ))
    (reflect : Option (List ReflRow)) : Res (List ℝ) × Kernel d :=
  let (_, k) := k.matrixInv E
  let (_, k) := k.normVal
  let matrix := k.matrix.submatrix params.get params.get
  (densityCore k.dist (Real.sqrt matrix.det) (matrixInvert E matrix) points data weights reflect, k)

end Kernel

end Kalepy
