import Verif.Model.CornerPlot

/-!
# Corner plots of data with the default settings

What `corner(data)`, `Corner(data).plot()`, `.clean()` and `.hist()` draw, from the data to the panels.
-/

namespace Kalepy

/-- The methods of `Corner` with settings of their own: `plot.py:268`, `plot.py:316`, `plot.py:364`. -/
inductive TopMethod where
  | plot
  | clean
  | hist

/-- `plot.py:108-266` `Corner(data, weights=weights, rotate=rotate)` of an array with one row per parameter, followed by `.plot`
(`plot.py:420-446`), `.clean` (`plot.py:289-313`) or `.hist` (`plot.py:337-362`) with `edges` and `quantiles`, or `corner` (`plot.py:872-893`), which is
`Corner` followed by `.plot`.  No dictionaries are given, and the call is the first of its method in the program, so that the default
dictionaries are still empty (for later calls see C69).  `hist` passes the data of the KDE and no weights to `plot_data`. -/
noncomputable def Corner.first {d : ℕ} (m : TopMethod) (E : Ext) (srt : List ℝ → List ℕ) (auto : List ℝ → ℕ) (r : CornerRnd d) (rotate : Bool)
    (data : List (Fin d → ℝ)) (weights : Option (List ℝ)) (edges : EdgeArg) (quantiles : Option (List ℝ)) : Res (CornerOut d) :=
  match KDE.init E { dataset := data, weights := weights.elim .none fun w => .arr (w.map .fin) } with
  | .error e => .error e
  | .ok k =>
    match m with
    | .plot => Corner.plotKde E srt auto r rotate k edges { plot1dArgs with quantiles := quantiles } { plot2dArgs with quantiles := quantiles }
    | .clean => Corner.plotKde E srt auto r rotate k edges { clean1dArgs with quantiles := quantiles } { clean2dArgs with quantiles := quantiles }
    | .hist => Corner.plotData E srt auto r rotate k.dataset none edges quantiles hist1dArgs hist2dArgs

end Kalepy
