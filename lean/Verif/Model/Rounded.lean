import Verif.Model.Kernels
import Verif.Model.Sample

/-!
# The evaluation of densities and the choice of bins, in rounded arithmetic

The other parts of the model compute with real numbers.  Here every single operation is followed by a rounding
`fl : ℝ → ℝ`, in the order of the code.  Overflow, NaN and infinities are not modelled.
-/

namespace Kalepy

open Matrix

/-- `kalepy/kernels.py:779-784`: one component of a whitened vector, `xhki += white[kk, ll] * points[ll, ii]`. -/
def whitenFl {m : ℕ} (fl : ℝ → ℝ) (white : Matrix (Fin m) (Fin m) ℝ) (k : Fin m) (x : Fin m → ℝ) : ℝ :=
  (List.finRange m).foldl (fun acc l => fl (acc + fl (white k l * x l))) 0

/-- `kalepy/kernels.py:776-786`: the squared distance, `ss = (xhki - dhkj); y2ij += ss * ss`. -/
def dist2Fl {m : ℕ} (fl : ℝ → ℝ) (white : Matrix (Fin m) (Fin m) ℝ) (x d : Fin m → ℝ) : ℝ :=
  (List.finRange m).foldl (fun acc k =>
    fl (acc + fl (fl (whitenFl fl white k x - whitenFl fl white k d) * fl (whitenFl fl white k x - whitenFl fl white k d)))) 0

/-- `_evaluate(y2)` (`kalepy/kernels.py:491-494, 524-535, 561-570, 597-606`).  The function `exp` is taken to be rounded
once; `** 3` is two products. -/
noncomputable def Dist.evalFl (fl : ℝ → ℝ) : Dist → ℝ → ℝ
  | .gaussian, y2 => fl (Real.exp (fl (-y2 / 2)))
  | .box, y2 => if y2 ≤ 1 then 1 else 0
  | .parabola, y2 => max (fl (1 - y2)) 0
  | .triweight, y2 => max (fl (fl (1 - y2) * fl (fl (1 - y2) * fl (1 - y2)))) 0

/-- `kalepy/kernels.py:774-789`, for one point: `zz[ii] += kfunc(y2ij) * weights[jj]`. -/
noncomputable def evaluateOneFl {m : ℕ} (fl : ℝ → ℝ) (D : Dist) (white : Matrix (Fin m) (Fin m) ℝ)
    (data : List (Fin m → ℝ)) (weights : List ℝ) (x : Fin m → ℝ) : ℝ :=
  (data.zip weights).foldl (fun acc p => fl (acc + fl (D.evalFl fl (dist2Fl fl white x p.1) * p.2))) 0

/-- `kalepy/kernels.py:768-791` `_evaluate_numba`. -/
noncomputable def evaluateFl {m : ℕ} (fl : ℝ → ℝ) (D : Dist) (white : Matrix (Fin m) (Fin m) ℝ)
    (data points : List (Fin m → ℝ)) (weights : List ℝ) : List ℝ :=
  points.map (evaluateOneFl fl D white data weights)

/-- `kalepy/kernels.py:121-128`: the evaluations with the data mirrored at `loc`, `2*loc - data[ii]`, are added. -/
noncomputable def reflectAddFl {m : ℕ} (fl : ℝ → ℝ) (D : Dist) (white : Matrix (Fin m) (Fin m) ℝ)
    (data points : List (Fin m → ℝ)) (weights : List ℝ) (i : Fin m) (result : List ℝ) : Option ℝ → List ℝ
  | none => result
  | some loc =>
    List.zipWith (fun a b => fl (a + b)) result
      (evaluateFl fl D white (data.map fun x => Function.update x i (fl (fl (2 * loc) - x i))) points weights)

/-- `kalepy/kernels.py:117-133`: both mirror images of one dimension, then zeros outside its boundaries. -/
noncomputable def reflectStepFl {m : ℕ} (fl : ℝ → ℝ) (D : Dist) (white : Matrix (Fin m) (Fin m) ℝ)
    (data points : List (Fin m → ℝ)) (weights : List ℝ) (result : List ℝ) (i : Fin m) : ReflRow → List ℝ
  | none => result
  | some r =>
    let result := reflectAddFl fl D white data points weights i result r.1
    let result := reflectAddFl fl D white data points weights i result r.2
    List.zipWith (fun x v => if outsideRow r (x i) then 0 else v) points result

/-- `kalepy/kernels.py:95-136`, the part of `Kernel.density` after the checks of its arguments, for a given whitening
matrix and norm (which numpy and scipy compute) and a checked `reflect` argument. -/
noncomputable def densityFl {m : ℕ} (fl : ℝ → ℝ) (D : Dist) (white : Matrix (Fin m) (Fin m) ℝ) (norm : ℝ)
    (data points : List (Fin m → ℝ)) (weights : List ℝ) (reflect : Option (Fin m → ReflRow)) : List ℝ :=
  let result := evaluateFl fl D white data points weights
  let result := match reflect with
    | none => result
    | some rows => (List.finRange m).foldl (fun res i => reflectStepFl fl D white data points weights res i (rows i)) result
  result.map fun v => fl (v / norm)

/-- `np.cumsum` in rounded arithmetic, starting from `acc`. -/
def cumsumFrom (fl : ℝ → ℝ) : ℝ → List ℝ → List ℝ
  | _, [] => []
  | acc, x :: l => fl (acc + x) :: cumsumFrom fl (fl (acc + x)) l

/-- `sample.py:561-584` `_data_to_cumulative(mass, prefilter=False)`, with rounded sums and quotients. -/
noncomputable def dataToCumulativeFl (fl : ℝ → ℝ) (srt : List ℝ → List ℕ) (mass : List ℝ) : Res (List ℕ × List ℝ) :=
  let idx := srt mass
  let csum := cumsumFrom fl 0 (idx.map fun i => mass.getD i 0)
  match csum.getLast? with
  | none => .error .indexError
  | some last =>
    let temp := if last = 0 then 1 else last
    .ok (idx, 0 :: csum.map fun x => fl (x / temp))

/-- The index chosen by `np.random.choice(n, p=...)` (`kernels.py:195-199`) from the uniform number `u`, with rounded
arithmetic: `weights / sum`, the cumulative sum, its division by its last element, and
`searchsorted(..., side='right')`.  `total` is the sum of the weights as numpy computes it, in whatever order. -/
noncomputable def choiceIndexFl (fl : ℝ → ℝ) (total : ℝ) (w : List ℝ) (u : ℝ) : ℕ :=
  let cdf := cumsumFrom fl 0 (w.map fun x => fl (x / total))
  searchRight (cdf.map fun x => fl (x / cdf.getD (cdf.length - 1) 0)) u

/-- `sample.py:156-178`, one sample without interpolation, for masses given by the array `mass`:
`edge[bidx] + wid[bidx] * loc` in each dimension. -/
noncomputable def sampleUniformFl {d : ℕ} (fl : ℝ → ℝ) (srt : List ℝ → List ℕ) (edges : List (List ℝ))
    (mass : NDArr d ℝ) (u : ℝ) (loc : Fin d → ℝ) : Res (Fin d → ℝ) :=
  match dataToCumulativeFl fl srt mass.flat with
  | .error e => .error e
  | .ok (idx, csum) =>
    match pickBin idx csum u with
    | .error e => .error e
    | .ok flat =>
      let bidx := unravelIdx mass.shape flat
      .ok fun i =>
        fl (edgeAt edges i (bidx i)
          + fl (fl (edgeAt edges i (bidx i + 1) - edgeAt edges i (bidx i)) * loc i))

/-- `utils.py:955-977` `trapz_dens_to_mass` of a one-dimensional density. -/
noncomputable def mass1dFl (fl : ℝ → ℝ) (edges dens : List ℝ) : List ℝ :=
  (List.range (dens.length - 1)).map fun b =>
    let wid := fl (edges.getD (b + 1) 0 - edges.getD b 0)
    fl (fl (fl (0 + fl (dens.getD b 0 * wid)) + fl (dens.getD (b + 1) 0 * wid)) / 2)

/-- `sample.py:136-137`: the density divided by its mean.  The sum is taken from the left (numpy takes the terms of
arrays of eight or more elements in another order). -/
noncomputable def normDensFl (fl : ℝ → ℝ) (dens : List ℝ) : List ℝ :=
  let mean := fl ((cumsumFrom fl 0 dens).getLastD 0 / dens.length)
  dens.map fun x => fl (x / mean)

/-- `sample.py:525-540` `_intrabin_linear_interp`: the relative position in the bin. -/
noncomputable def intrabinFl (fl : ℝ → ℝ) (loc grad : ℝ) : ℝ :=
  if 1 / 10 ^ 16 < |grad| then
    let y1 := fl (1 - fl (grad / 2))
    let v := fl (fl (fl (2 * loc) * grad) + fl (y1 * y1))
    fl (fl (fl (Real.sqrt v) - y1) / grad)
  else loc

/-- `Sample_Grid([edges], dens).sample(1)` (`sample.py:37-201`), for the uniform numbers `u` and `loc`. -/
noncomputable def sampleInterpFl (fl : ℝ → ℝ) (srt : List ℝ → List ℕ) (edges dens : List ℝ) (u loc : ℝ) : Res ℝ :=
  match dataToCumulativeFl fl srt (mass1dFl fl edges dens) with
  | .error e => .error e
  | .ok (idx, csum) =>
    match pickBin idx csum u with
    | .error e => .error e
    | .ok b =>
      let dn := normDensFl fl dens
      let grad := fl (dn.getD (b + 1) 0 - dn.getD b 0)
      let wid := fl (edges.getD (b + 1) 0 - edges.getD b 0)
      .ok (fl (edges.getD b 0 + fl (wid * intrabinFl fl loc grad)))

end Kalepy
