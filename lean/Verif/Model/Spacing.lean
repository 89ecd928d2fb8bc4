import Verif.Model.Parse

/-!
# Model of `utils.spacing` and `utils.bins`
-/

namespace Kalepy

/-- `np.linspace(a, b, num=n)` for an integer `n`. -/
noncomputable def npLinspaceNum (a b : ℝ) (n : ℤ) : Res (List ℝ) :=
  if n < 0 then .error .valueError
  else if n = 0 then .ok []
  else .ok (npLinspace a b (n.toNat - 1))

/-- `scale.startswith(pre)`. -/
def startsWith (pre scale : String) : Bool := pre.toList.isPrefixOf scale.toList

/-- `utils.py:673-681`: the flag for logarithmic spacing. -/
def scaleFlag (scale : String) : Res Bool :=
  if startsWith "log" scale then .ok true
  else if startsWith "lin" scale then .ok false
  else .error .runtimeError

/-- `utils.py:672-698` `spacing`; the keyword arguments are those of `minmax`.  A span that is `None`, or has a `None` end
(no data and such a `prev`), makes `np.log10` or `np.linspace` raise `TypeError`.  Logarithms of nonpositive numbers are
NaN or infinite: not modelled. -/
noncomputable def spacing (dt : DType) (data : List ℝ) (scale : String := "log") (num : Option ℝ := none) (dex : ℝ := 10)
    (positive : Bool := false) (prev : Option (Option ℝ × Option ℝ) := none)
    (stretch logStretch : Option (ℝ × ℝ) := none) (limit : Option (Option ℝ × Option ℝ) := none) : Res (List ℝ) :=
  match scaleFlag scale with
  | .error e => .error e
  | .ok log =>
    match minmax dt data positive prev stretch logStretch limit with
    | .error e => .error e
    | .ok (some (some lo, some hi)) =>
      if log then
        if 0 < lo ∧ 0 < hi then
          let n : ℤ := match num with
            | none => ⌈|Real.logb 10 hi - Real.logb 10 lo| * dex⌉ + 1
            | some x => pyInt x
          (npLinspaceNum (Real.logb 10 lo) (Real.logb 10 hi) n).map fun l => l.map fun x => (10 : ℝ) ^ x
        else .error .unmodelled
      else
        npLinspaceNum lo hi (match num with | none => 20 | some x => pyInt x)
    | .ok _ => .error .typeError

/-- `utils.py:51-64` `bins(a, b, n)`: edges, centres and widths. -/
noncomputable def binsOf (a b : ℝ) (n : ℤ) : Res (List ℝ × List ℝ × List ℝ) :=
  match npLinspaceNum a b n with
  | .error e => .error e
  | .ok xe =>
    match midpoints1 xe with
    | .error e => .error e
    | .ok xc => .ok (xe, xc, npDiff xe)

end Kalepy
