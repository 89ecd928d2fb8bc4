import Mathlib.Analysis.SpecialFunctions.Pow.Real
import Mathlib.Analysis.SpecialFunctions.Log.Basic
import Mathlib.Data.Matrix.Basic
import Mathlib.LinearAlgebra.Matrix.Notation
import Verif.Model.Np
import Verif.Model.Utils

/-!
# The data sets used by examples (`utils.py:1282-1466`)

The random numbers are inputs: a stream of standard normal or standard uniform numbers for each call of the generator, and a
permutation for each `choice` without replacement or `shuffle`.  `num` is the number after `int(num)`.
-/

namespace Kalepy

/-! ### The generator -/

/-- The first `n` numbers of a stream. -/
def stream (f : ℕ → ℝ) (n : ℕ) : List ℝ := (List.range n).map f

/-- `np.random.normal(loc, scale, size)`, from standard normal numbers `z`. -/
noncomputable def npNormal (loc scale : ℝ) (z : ℕ → ℝ) (size : ℤ) : Res (List ℝ) :=
  if size < 0 ∨ scale < 0 then .error .valueError else .ok ((stream z size.toNat).map fun t => loc + scale * t)

/-- `np.random.lognormal(mean, sigma, size)`, from standard normal numbers `z`. -/
noncomputable def npLognormal (mean sigma : ℝ) (z : ℕ → ℝ) (size : ℤ) : Res (List ℝ) :=
  if size < 0 ∨ sigma < 0 then .error .valueError else .ok ((stream z size.toNat).map fun t => Real.exp (mean + sigma * t))

/-- `np.random.uniform(low, high, size)`, from numbers `u` of the interval [0, 1). -/
noncomputable def npUniform (low high : ℝ) (u : ℕ → ℝ) (size : ℤ) : Res (List ℝ) :=
  if size < 0 then .error .valueError else .ok ((stream u size.toNat).map fun t => low + (high - low) * t)

/-- `np.random.power(2, size)`, from numbers `u` of the interval [0, 1). -/
noncomputable def npPower2 (u : ℕ → ℝ) (size : ℤ) : Res (List ℝ) :=
  if size < 0 then .error .valueError else .ok ((stream u size.toNat).map Real.sqrt)

/-- `np.random.choice(n, size, replace=False)`: the beginning of a permutation of `0, ..., n-1`, which `perm` provides. -/
def npChoiceDistinct (perm : ℕ → List ℕ) (n : ℕ) (size : ℤ) : Res (List ℕ) :=
  if size < 0 ∨ n < size then .error .valueError else .ok ((perm n).take size.toNat)

/-- `arr[idx]` with an array of valid indices. -/
def takeAt {α : Type*} (default : α) (arr : List α) (idx : List ℕ) : List α := idx.map fun i => arr.getD i default

/-- `arr[idx] = vals`, one assignment after the other. -/
def putAt {α : Type*} (arr : List α) (idx : List ℕ) (vals : List α) : List α :=
  (idx.zip vals).foldl (fun a p => a.set p.1 p.2) arr

/-- `arr.min()` / `arr.max()`, which need an element. -/
noncomputable def arrMin : List ℝ → Res ℝ
  | [] => .error .valueError
  | a :: l => .ok (npMin a l)

/-- `arr.max()`. -/
noncomputable def arrMax : List ℝ → Res ℝ
  | [] => .error .valueError
  | a :: l => .ok (npMax a l)

/-! ### One dimension -/

/-- `utils.py:1283-1287`: normal and lognormal numbers (`np.random.seed` is in `exampleBimodalFrom`). -/
noncomputable def exampleBimodal (z₁ z₂ : ℕ → ℝ) (num : ℤ) : Res (List ℝ) := do
  let d₁ ← npNormal 4 1 z₁ (num / 2)
  let d₂ ← npLognormal 0 (1 / 2) z₂ (num - d₁.length)
  return d₁ ++ d₂

/-- `utils.py:1290-1291`: one value of `yy`. -/
noncomputable def exampleDensity (x : ℝ) : ℝ :=
  1 / 2 * Real.exp (-(x - 4) ^ 2 / 2) / Real.sqrt (2 * Real.pi)
    + 1 / 2 * Real.exp (-(Real.log x) ^ 2 / (2 * (1 / 2) ^ 2)) / (1 / 2 * x * Real.sqrt (2 * Real.pi))

/-- `utils.py:1289-1293`: the `truth`, i.e. 199 points (`np.linspace(0.0, 7.0, 200)[1:]`) and the density there. -/
noncomputable def exampleTruth : List ℝ × List ℝ :=
  let xx := ((List.range 200).map fun i : ℕ => (i : ℝ) * (7 / 199)).tail
  (xx, xx.map exampleDensity)

/-- A random generator as an object with a state: the functions of `np.random` that `_random_data_1d_01` and
`_random_data_1d_02` call. -/
structure Gen (σ : Type*) where
  /-- `np.random.seed(n)`: the state afterwards. -/
  seed : ℕ → σ
  /-- The standard normal numbers of a call for `n` of them, and the state afterwards. -/
  normals : σ → ℕ → (ℕ → ℝ) × σ
  /-- The numbers of [0, 1) of a call for `n` of them, and the state afterwards. -/
  uniforms : σ → ℕ → (ℕ → ℝ) × σ

/-- `utils.py:1282-1294` `_random_data_1d_01`, with the state of the generator before and after. -/
noncomputable def exampleBimodalFrom {σ : Type*} (g : Gen σ) (num : ℤ) : σ → Res ((List ℝ × (List ℝ × List ℝ)) × σ) := fun _ =>
  let s := g.seed 12345
  let r₁ := g.normals s (num / 2).toNat
  let r₂ := g.normals r₁.2 (num - num / 2).toNat
  (exampleBimodal r₁.1 r₂.1 num).map fun data => ((data, exampleTruth), r₂.2)

/-- `utils.py:1297-1309` `_random_data_1d_02`: normal and uniform numbers. -/
noncomputable def exampleEdge (z u : ℕ → ℝ) (num : ℤ) : Res (List ℝ) := do
  let d₁ ← npNormal 1 1 z (num / 2)
  let d₂ ← npUniform 1 3 u (num - d₁.length)
  return d₁ ++ d₂

/-- `utils.py:1297-1309` `_random_data_1d_02`, with the state of the generator before and after. -/
noncomputable def exampleEdgeFrom {σ : Type*} (g : Gen σ) (num : ℤ) : σ → Res (List ℝ × σ) := fun _ =>
  let s := g.seed 12345
  let r₁ := g.normals s (num / 2).toNat
  let r₂ := g.uniforms r₁.2 (num - num / 2).toNat
  (exampleEdge r₁.1 r₂.1 num).map fun data => (data, r₂.2)

/-! ### Scaled normal numbers with noise -/

/-- `utils.py:1321-1323`, `utils.py:1398-1400`, `utils.py:1425-1427`: the covariance matrix of factors `corr` and scales `sigma`. -/
def exampleCov {d : ℕ} (sigma : Fin d → ℝ) (corr : Matrix (Fin d) (Fin d) ℝ) : Matrix (Fin d) (Fin d) ℝ :=
  fun i j => corr i j * sigma i * sigma j

/-- `utils.py:1315`: scales of `_random_data_2d_01`. -/
noncomputable def sigma2 : Fin 2 → ℝ := ![1, 1 / 5]
/-- `utils.py:1316-1319`: factors of `_random_data_2d_01`. -/
noncomputable def corr2 : Matrix (Fin 2) (Fin 2) ℝ := !![3 / 2, -1 / 2; -1 / 2, 1]
/-- `utils.py:1391`, `utils.py:1418`: scales of `_random_data_3d_01` and `_random_data_3d_02`. -/
noncomputable def sigma3 : Fin 3 → ℝ := ![1, 1 / 5, 3 / 2]
/-- `utils.py:1392-1396`, `utils.py:1419-1423`: factors of `_random_data_3d_01` and `_random_data_3d_02`. -/
noncomputable def corr3 : Matrix (Fin 3) (Fin 3) ℝ := !![7 / 5, 4 / 5, 2 / 5; 4 / 5, 1, -1 / 4; 2 / 5, -1 / 4, 1]

/-- `utils.py:1325-1328`, `utils.py:1402-1405`, `utils.py:1429-1432`: normal numbers of covariance `cov`, which the generator `mv` provides, each
scaled by the root of its second coordinate relative to the extremes of these.  If the largest one is not positive there is a
division by zero or a root of a negative number: not modelled. -/
noncomputable def exampleScaled {d : ℕ} (axis : Fin d) (mv : Matrix (Fin d) (Fin d) ℝ → ℕ → (Fin d → ℝ))
    (cov : Matrix (Fin d) (Fin d) ℝ) (num : ℤ) : Res (List (Fin d → ℝ)) := do
  if num < 0 then .error .valueError
  let data := (List.range num.toNat).map (mv cov)
  let mn ← arrMin (data.map fun x => x axis)
  let mx ← arrMax (data.map fun x => x axis)
  if mx ≤ 0 then .error .unmodelled
  return data.map fun x l => x l * Real.sqrt ((x axis - mn) / mx)

/-- Mean of a row. -/
noncomputable def rowMean {d : ℕ} (data : List (Fin d → ℝ)) (l : Fin d) : ℝ := (data.map fun x => x l).sum / data.length

/-- `utils.py:1312-1334` `_random_data_2d_01` and `utils.py:1415-1438` `_random_data_3d_02`: `int(num*noise)` of the scaled numbers
are replaced by normal numbers.  The rows of `noise` are drawn one after the other; `num*noise` is exact here. -/
noncomputable def exampleNoisy {d : ℕ} (axis : Fin d) (mv : Matrix (Fin d) (Fin d) ℝ → ℕ → (Fin d → ℝ)) (z : Fin d → ℕ → ℝ)
    (perm : ℕ → List ℕ) (sigma : Fin d → ℝ) (corr : Matrix (Fin d) (Fin d) ℝ) (num : ℤ) (noise : ℝ) : Res (List (Fin d → ℝ)) := do
  let data ← exampleScaled axis mv (exampleCov sigma corr) num
  let nn := pyInt ((num : ℝ) * noise)
  let rows ← finSeq fun l => npNormal (rowMean data l) (2 * sigma l) (z l) nn
  let sel ← npChoiceDistinct perm num.toNat nn
  return putAt data sel ((List.range nn.toNat).map fun k l => (rows l).getD k 0)

/-- `utils.py:1388-1412` `_random_data_3d_01`: uniform numbers between the extremes of each row (`np.percentile` of 0 and 100) are
appended. -/
noncomputable def exampleAppended {d : ℕ} (axis : Fin d) (mv : Matrix (Fin d) (Fin d) ℝ → ℕ → (Fin d → ℝ)) (u : Fin d → ℕ → ℝ)
    (sigma : Fin d → ℝ) (corr : Matrix (Fin d) (Fin d) ℝ) (num : ℤ) : Res (List (Fin d → ℝ)) := do
  let data ← exampleScaled axis mv (exampleCov sigma corr) num
  let rows ← finSeq fun l => do
    let lo ← arrMin (data.map fun x => x l)
    let hi ← arrMax (data.map fun x => x l)
    npUniform lo hi (u l) (num / 5)
  return data ++ (List.range (num / 5).toNat).map fun k l => (rows l).getD k 0

/-! ### Sorted and shuffled numbers -/

/-- `utils.py:1337-1357` `_random_data_2d_02`: two sorted arrays, a quarter of the second in other places. -/
noncomputable def exampleSorted (z u : ℕ → ℝ) (perm perm' : ℕ → List ℕ) (num : ℤ) : Res (List ℝ × List ℝ) := do
  let xx ← npNormal 1 (1 / 2) z num
  let yy ← npUniform 0 2 u num
  let xx := npSort xx
  let yy := npSort yy
  let sel ← npChoiceDistinct perm num.toNat (num / 4)
  let new ← npChoiceDistinct perm' num.toNat (num / 4)
  let idx := putAt (List.range num.toNat) sel new
  return (xx, takeAt 0 yy idx)

/-- `utils.py:1369-1382`, `utils.py:1450-1463`: `aa` is sorted, `cc` arranged in the order of a noisy sum, and the pairs are shuffled by
`shuf`.  A vanishing largest `cc` gives NaN (not modelled). -/
noncomputable def exampleCovary (srt : List ℝ → List ℕ) (shuf : ℕ → List ℕ) (z : ℕ → ℝ) (cov : ℝ) (aa cc : List ℝ) :
    Res (List ℝ × List ℝ) := do
  let aa := npSort aa
  let cmax ← arrMax cc
  if cmax = 0 then .error .unmodelled
  let amax ← arrMax aa
  let noise ← npNormal 0 cov z aa.length
  let xx := (List.range aa.length).map fun i =>
    ((aa.getD i 0 / amax) ^ (1 / 4 : ℝ)) ^ 2 + (cc.getD i 0 / cmax) ^ 2 + noise.getD i 0
  let cc := takeAt 0 cc (srt xx)
  return (takeAt 0 aa (shuf aa.length), takeAt 0 cc (shuf aa.length))

/-- `utils.py:1360-1385` `_random_data_2d_03`: positive numbers and numbers of [0, 1). -/
noncomputable def examplePositive2 (z u : ℕ → ℝ) (perm : ℕ → List ℕ) (p : ℕ → ℝ) (srt : List ℝ → List ℕ) (shuf : ℕ → List ℕ)
    (z' : ℕ → ℝ) (num : ℤ) : Res (List ℝ × List ℝ) := do
  let aa ← npLognormal 0 (3 / 10) z (3 * num)
  let aa := aa.map (· - 1)
  let add ← npUniform (-1) 1 u aa.length
  let aa := (List.zipWith (· + ·) aa add).filter (0 < ·)
  let sel ← npChoiceDistinct perm aa.length num
  let aa := takeAt 0 aa sel
  let cc ← npPower2 p num
  exampleCovary srt shuf z' (1 / 10) aa cc

/-- `utils.py:1441-1466` `_random_data_3d_03`, with a pair `par`. -/
noncomputable def examplePositive3 (z : ℕ → ℝ) (perm : ℕ → List ℕ) (zb : ℕ → ℝ) (p : ℕ → ℝ) (srt : List ℝ → List ℕ)
    (shuf : ℕ → List ℕ) (z' : ℕ → ℝ) (num : ℤ) (par : ℝ × ℝ) (cov : ℝ) : Res (List ℝ × List ℝ × List ℝ) := do
  let aa ← npLognormal par.1 par.2 z (3 * num)
  let aa := (aa.map (· - 1)).filter (0 < ·)
  let sel ← npChoiceDistinct perm aa.length num
  let aa := takeAt 0 aa sel
  let bb ← npNormal 0 par.2 zb num
  let cc ← npPower2 p num
  let r ← exampleCovary srt shuf z' cov aa cc
  return (r.1, bb, r.2)

end Kalepy
