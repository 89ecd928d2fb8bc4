import Verif.Model.SampleArrays

/-!
# Model of the arrays returned by `sample_grid_proportional`
-/

namespace Kalepy

variable {d : ℕ}

open Classical in
/-- `sample.py:441-447` `sample_grid_proportional`: the two returned arrays.  Line 446 unpacks what `Sample_Grid.sample` returns
into two names.  With scalars that is the pair of the `(D, N)` array and the scalars.  With `return_scalar=False` it is the
array alone, which is unpacked into its rows: `ValueError` unless there are two.  As in `sampleGridProportional`, `mass` is not used
and arrays of different shapes, which would be broadcast, are not modelled. -/
noncomputable def sampleGridProportionalArr (srt : List ℝ → List ℕ) (r : Rand d) (edges : List (List ℝ))
    (dens portion : NDArr d ℝ) (nsamp : ℝ) (_mass : Option (NDArr d ℝ) := none) (interpolate : Bool := true)
    (returnScalar : Option Bool := none) : Res (Arr × Arr) :=
  if dens.shape ≠ portion.shape then .error .unmodelled
  else
    match SampleGrid.init srt edges portion none (some (portionRatio dens portion)) none with
    | .error e => .error e
    | .ok g =>
      match g.sample r (some nsamp) interpolate returnScalar with
      | .error e => .error e
      | .ok out =>
        if returnScalar = some false then
          let rows : List Arr := (List.finRange d).map fun i => ⟨[out.length], out.map fun s => s.1 i⟩
          match rows with
          | [vals, weight] => .ok (vals, weight)
          | _ => .error .valueError
        else .ok (sampleArr false (out.map Prod.fst), ⟨[out.length], out.filterMap Prod.snd⟩)

end Kalepy
