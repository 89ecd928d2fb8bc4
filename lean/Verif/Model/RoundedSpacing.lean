import Verif.Model.Spacing
import Verif.Model.RoundedEdges

/-!
# spacing, midpoints and subdivide, in rounded arithmetic

As in `Verif.Model.Rounded`, every operation is followed by a rounding `fl : ℝ → ℝ`, in the order of the code.  The
functions `lg` and `pw` stand for `np.log10(x)` and `10.0 ** y` as they are computed.
-/

namespace Kalepy

/-- `np.linspace(a, b, num=n)` for an integer `n`. -/
noncomputable def linspaceNumFl (fl : ℝ → ℝ) (a b : ℝ) (n : ℤ) : Res (List ℝ) :=
  if n < 0 then .error .valueError
  else if n = 0 then .ok []
  else .ok (linspaceFl fl a b (n.toNat - 1))

/-- `utils.py:672-698` `spacing(data, scale, num, dex, positive=...)` (`spacing` with rounding); the other arguments of
`minmax` are left out. -/
noncomputable def spacingFl (fl lg pw : ℝ → ℝ) (dt : DType) (data : List ℝ) (scale : String := "log")
    (num : Option ℝ := none) (dex : ℝ := 10) (positive : Bool := false) : Res (List ℝ) :=
  match scaleFlag scale with
  | .error e => .error e
  | .ok log =>
    match minmax dt data positive with
    | .error e => .error e
    | .ok (some (some lo, some hi)) =>
      if log then
        if 0 < lo ∧ 0 < hi then
          let n : ℤ := match num with
            | none => ⌈fl (|fl (lg hi - lg lo)| * dex)⌉ + 1
            | some x => pyInt x
          (linspaceNumFl fl (lg lo) (lg hi) n).map fun l => l.map pw
        else .error .unmodelled
      else
        linspaceNumFl fl lo hi (match num with | none => 20 | some x => pyInt x)
    | .ok _ => .error .typeError

/-- `utils.py:327-371`, `987-1030` `midpoints(arr)` of a 1D array: `0.5 * (arr[left] + arr[right])`. -/
noncomputable def midpointsFl (fl : ℝ → ℝ) (l : List ℝ) : Res (List ℝ) :=
  if l.length < 2 then .error .runtimeError
  else .ok (List.zipWith (fun a b => fl (1 / 2 * fl (a + b))) l l.tail)

/-- `midpoints(arr, log=True)` of a 1D array; nonpositive values give NaN or infinities: not modelled. -/
noncomputable def midpointsLogFl (fl lg pw : ℝ → ℝ) (l : List ℝ) : Res (List ℝ) :=
  if ∀ x ∈ l, 0 < x then
    match midpointsFl fl (l.map lg) with
    | .error e => .error e
    | .ok m => .ok (m.map pw)
  else .error .unmodelled

/-- `utils.py:51-64` `bins(a, b, n)`: edges, centres and widths. -/
noncomputable def binsFl (fl : ℝ → ℝ) (a b : ℝ) (n : ℤ) : Res (List ℝ × List ℝ × List ℝ) :=
  match linspaceNumFl fl a b n with
  | .error e => .error e
  | .ok xe =>
    match midpointsFl fl xe with
    | .error e => .error e
    | .ok xc => .ok (xe, xc, (npDiff xe).map fl)

/-- `utils.py:813-820` `subdivide(xx, num)`: `np.linspace(0.0, 1.0, num+1, endpoint=False)` is `arange(num+1) * (1 / (num+1))`. -/
noncomputable def subdivideFl (fl : ℝ → ℝ) (xx : List ℝ) (num : ℕ := 1) : List ℝ :=
  let step := fl (1 / ((num : ℝ) + 1))
  dropLast' ((List.zipWith (fun x D => (List.range (num + 1)).map fun (j : ℕ) =>
    fl (x + fl (D * fl (j * step)))) xx ((npDiff (xx ++ [0])).map fl)).flatten) num

/-- `utils.py:793-824` `subdivide(xx, num, log=True)`; nonpositive values give NaN or infinities: not modelled. -/
noncomputable def subdivideLogFl (fl lg pw : ℝ → ℝ) (xx : List ℝ) (num : ℕ := 1) : Res (List ℝ) :=
  if ∀ x ∈ xx, 0 < x then .ok ((subdivideFl fl (xx.map lg) num).map pw) else .error .unmodelled

end Kalepy
