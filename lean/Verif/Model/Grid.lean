import Verif.Model.NDArr

/-!
# Model of the grid functions of `kalepy/utils.py`

`trapz_nd`, `trapz_dens_to_mass`, `cumsum`, `cumtrapz`, `centroids`, `midpoints`, and of
`kalepy/sample.py` `_grad_along`.

A list of edge arrays is a `List (List K)`.  In the code a single 1D edge array is promoted to a
list of one array (`np.atleast_2d`, `utils.py:829-830, 882-883`; `really1d`, `utils.py:107-108`);
the model starts after that promotion.
-/

namespace Kalepy

variable {d : ℕ} {K : Type*}

/-- `edges[i][k]`; only used at positions that exist. -/
def edgeAt [Zero K] (edges : List (List K)) (i k : ℕ) : K := (edges.getD i []).getD k 0

/-- The shape test of `utils.py:831-834` and `886-890`: one edge array per axis, of the length of
that axis. (If numpy broadcasting lets a wrong number of axes pass this test, the code raises a little
later, when indexing; the model raises here.) -/
def EdgesMatch (shape : Fin d → ℕ) (edges : List (List K)) : Prop :=
  edges.length = d ∧ ∀ i : Fin d, (edges.getD i []).length = shape i

instance (shape : Fin d → ℕ) (edges : List (List K)) : Decidable (EdgesMatch shape edges) :=
  inferInstanceAs (Decidable (_ ∧ _))

/-- `np.ndindex(*([2]*ndim))`, restricted to 0 on the axes that are not integrated
(`utils.py:958-963`). -/
def corners (axes : Finset (Fin d)) : Finset (Fin d → ℕ) :=
  (validIdx fun _ => 2).filter fun c => ∀ i, i ∉ axes → c i = 0

/-- Width factor of axis `i` at bin `k`: `np.diff(edges[i])` on integrated axes, 1 on others
(`utils.py:911-924`). -/
def binWidth [Ring K] (edges : List (List K)) (axes : Finset (Fin d)) (i : Fin d) (k : ℕ) : K :=
  if i ∈ axes then edgeAt edges i (k + 1) - edgeAt edges i k else 1

/-- `utils.py:851-979` `trapz_dens_to_mass(pdf, edges, axis)`; `axis=None` is `Finset.univ`.
Axes are given as a set; for repeated or negative axis numbers see `Model/Axes`.  The loop over corners
accumulates `pdf[cut] * volumes` and divides by `2**len(axis)`.  An empty integrated axis makes the
shape assertion at line 951 fail. -/
def trapzDensToMass [Field K] (pdf : NDArr d K) (edges : List (List K)) (axes : Finset (Fin d)) :
    Res (NDArr d K) :=
  if EdgesMatch pdf.shape edges then
    if ∃ i ∈ axes, pdf.shape i = 0 then .error .assertionError
    else .ok
      { shape := fun i => if i ∈ axes then pdf.shape i - 1 else pdf.shape i
        get := fun idx =>
          (∑ c ∈ corners axes,
            pdf.get (fun i => idx i + c i) * ∏ i, binWidth edges axes i (idx i)) / 2 ^ axes.card }
  else .error .valueError

/-- `np.trapz(a, x=xx, axis=-1)` on an array whose last axis is integrated away. -/
def trapzLast [Field K] (xx : List K) (a : NDArr (d + 1) K) : NDArr d K where
  shape := fun i => a.shape i.castSucc
  get := fun idx =>
    ∑ k ∈ Finset.range (xx.length - 1),
      (xx.getD (k + 1) 0 - xx.getD k 0)
        * (a.get (Fin.snoc (α := fun _ => ℕ) idx (k + 1)) + a.get (Fin.snoc (α := fun _ => ℕ) idx k)) / 2

/-- The loop of `utils.py:842-846`: axes from the last to the first. -/
def trapzAll [Field K] : {d : ℕ} → List (List K) → NDArr d K → K
  | 0, _, a => a.get Fin.elim0
  | d + 1, edges, a => trapzAll (d := d) edges (trapzLast (edges.getD d []) a)

/-- `utils.py:827-848` `trapz_nd(data, edges, axis=None)`. -/
def trapzNd [Field K] (data : NDArr d K) (edges : List (List K)) : Res K :=
  if EdgesMatch data.shape edges then .ok (trapzAll edges data) else .error .valueError

/-- `utils.py:226-254` `cumsum(vals, axis)`.  Without an axis the cumulative sum is taken in place
along axes -1, -2, ..., -ndim. -/
def cumsumNd [AddCommMonoid K] (vals : NDArr d K) : Option (Fin d) → NDArr d K
  | some i => vals.cumsumAxis i
  | none => (List.finRange d).reverse.foldl (fun r i => r.cumsumAxis i) vals

/-- `np.pad(arr, [[p_0, 0], [p_1, 0], ...], constant_values=0)`. -/
def padFront [Zero K] (p : Fin d → ℕ) (a : NDArr d K) : NDArr d K where
  shape := fun i => a.shape i + p i
  get := fun idx => if ∃ i, idx i < p i then 0 else a.get fun i => idx i - p i

/-- `utils.py:289-293`: the list `padding` holds `ndim` references to *one* list `temp`, so the
assignment `padding[axis][0] = 1` is visible in every row.  `cell` is the shared `temp[0]`. -/
def cumtrapzPadding (axis : Option (Fin d)) : Fin d → ℕ :=
  let cell := if axis.isNone then 1 else 0
  let cell := if axis.isSome then 1 else cell
  fun _ => cell

/-- `axis=None` means all axes (`utils.py:893-896`). -/
def axisSet : Option (Fin d) → Finset (Fin d)
  | none => Finset.univ
  | some i => {i}

/-- `utils.py:257-297` `cumtrapz(pdf, edges, prepend, axis)`, `axis` `None` or one axis. -/
def cumtrapzNd [Field K] (pdf : NDArr d K) (edges : List (List K)) (prepend : Bool)
    (axis : Option (Fin d)) : Res (NDArr d K) :=
  (trapzDensToMass pdf edges (axisSet axis)).map fun pmf =>
    let cdf := cumsumNd pmf axis
    if prepend then padFront (cumtrapzPadding axis) cdf else cdf

/-- `utils.py:987-1030` `_midpoints_1d(arr, axis)`. -/
def midAxis [Field K] (i : Fin d) (a : NDArr d K) : Res (NDArr d K) :=
  if a.shape i < 2 then .error .runtimeError
  else .ok
    { shape := Function.update a.shape i (a.shape i - 1)
      get := fun idx => 1 / 2 * (a.get idx + a.get (Function.update idx i (idx i + 1))) }

/-- `utils.py:327-371` `midpoints(arr, log=False, axis=axes)`: one axis after another. -/
def midAxes [Field K] (axes : List (Fin d)) (a : NDArr d K) : Res (NDArr d K) :=
  axes.foldlM (fun m i => midAxis i m) a

/-- `sample.py:489-494` `_grad_along(data_edge, dim)`: difference along `dim`, averaged over the
corners in all other axes. -/
def gradAlong [Field K] (a : NDArr d K) (dim : Fin d) : Res (NDArr d K) :=
  midAxes ((List.finRange d).erase dim) (a.diffAxis dim)

/-- Sum over all corners of cell `idx` whose `i`-th component is `s`: the value `y1` (`s = 0`) or `y2`
(`s = 1`) of `utils.py:121-146`. -/
def cornerSum [AddCommMonoid K] (a : NDArr d K) (i : Fin d) (idx : Fin d → ℕ) (s : ℕ) : K :=
  ∑ c ∈ (validIdx (d := d) fun _ => 2).filter (fun c => c i = s), a.get fun j => idx j + c j

/-- Centre of mass of a trapezoid with base `[x0, x1]` and sides `y1`, `y2`, as computed in
`utils.py:148-201`: rectangle plus triangle; plain average of the two centres when both areas vanish. -/
def trapezoidCom [Field K] [LinearOrder K] (x0 x1 y1 y2 : K) : K :=
  let dx := x1 - x0
  let idxMin : ℕ := if y1 ≤ y2 then 0 else 1
  let lo := min y1 y2
  let hi := max y1 y2
  let a1 := dx * lo
  let a2 := 1 / 2 * dx * (hi - lo)
  let c1 := (x0 + x1) / 2
  let xlo := if idxMin = 0 then x0 else x1
  let c2 := xlo + 2 / 3 * dx * (1 - 2 * (idxMin : K))
  if a1 + a2 = 0 then 1 / 2 * (c1 + c2) else (c1 * a1 + c2 * a2) / (a1 + a2)

/-- `utils.py:93-203` `centroids(edges, data)`, coordinate `i` of cell `idx`.
(The code does not check that edges match the data; mismatches that numpy would broadcast or
reject are not modelled.) -/
def centroid [Field K] [LinearOrder K] (edges : List (List K)) (data : NDArr d K) (idx : Fin d → ℕ)
    (i : Fin d) : K :=
  trapezoidCom (edgeAt edges i (idx i)) (edgeAt edges i (idx i + 1))
    (cornerSum data i idx 0) (cornerSum data i idx 1)

end Kalepy
