import Verif.Model.Corner
import Verif.Model.Dist
import Verif.Model.Dist1d

/-!
# Corner plots: what is drawn in the panels

The panels are drawn by `dist1d` and `dist2d`; limits, targets, legend and the dictionaries of arguments are in `Verif.Model.Corner`.
-/

namespace Kalepy

/-- The random choices made in the panels: for `dist1d` the selection and the positions of the points and the limit of the axis, for `dist2d`
the selection of the points. -/
structure CornerRnd (d : ℕ) where
  sel1 : Fin d → ℕ → ℕ → List ℕ
  fuzz : Fin d → ℕ → ℝ
  top : Fin d → ℝ
  sel2 : Fin d → Fin d → ℕ → ℕ → List ℕ

/-- What is drawn on the diagonal, and in row `ii` and column `jj`; `none` if nothing is drawn there. -/
structure CornerOut (d : ℕ) where
  diag : Fin d → Dist1dOut
  panel : Fin d → Fin d → Option Dist2dOut

/-- `plot.py:701-711` `_data1d`: the default arguments. -/
def data1dArgs : Dist1dArgs where
  density := some none
  confidence := false
  carpet := .yes
  hist := some true

/-- `plot.py:713-724` `_data2d`: the default arguments (without `mask_dense`). -/
def data2dArgs : Dist2dArgs where
  hist := true
  contour := false
  scatter := .yes
  maskBelow := .auto

/-- `plot.py:726-736` `_kde1d`: the default arguments, also those of `plot_kde`. -/
def kde1dArgs : Dist1dArgs where
  density := some (some 1)
  confidence := true
  carpet := .no
  hist := some false

/-- `plot.py:738-748` `_kde2d`: the default arguments, also those of `plot_kde`. -/
def kde2dArgs : Dist2dArgs where
  hist := false
  contour := true
  scatter := .no
  maskBelow := .auto

/-- `plot.py:300-303` `Corner.clean`: the default arguments of the diagonal. -/
def clean1dArgs : Dist1dArgs where
  density := some (some 1)
  confidence := false
  carpet := .no
  hist := some false

/-- `plot.py:306-310` `Corner.clean`: the default arguments below the diagonal (without `mask_dense`). -/
def clean2dArgs : Dist2dArgs where
  hist := false
  contour := true
  scatter := .no
  maskBelow := .off

/-- `plot.py:430-433` `Corner.plot`: the default arguments of the diagonal. -/
def plot1dArgs : Dist1dArgs where
  density := some (some 1)
  confidence := true
  carpet := .yes
  hist := some false

/-- `plot.py:436-440` `Corner.plot`: the default arguments below the diagonal. -/
def plot2dArgs : Dist2dArgs where
  hist := true
  scatter := .yes
  contour := true
  maskBelow := .auto

/-- `plot.py:350-353` `Corner.hist`: the default arguments of the diagonal. -/
def hist1dArgs : Dist1dArgs where
  density := some none
  confidence := false
  carpet := .no
  hist := some true

/-- `plot.py:356-360` `Corner.hist`: the default arguments below the diagonal (without `mask_dense`). -/
def hist2dArgs : Dist2dArgs where
  hist := true
  contour := false
  scatter := .no
  maskBelow := .off

/-- The arguments of the panel `jj` on the diagonal (`plot.py:546-551`, `plot.py:673-678`): only the last one is rotated. -/
def diagArgs {d : ℕ} (rotate : Bool) (rows : List (List ℝ)) (o : Dist1dArgs) (param : ℤ) (jj : Fin d) : Dist1dArgs :=
  { o with
    edges := .arr (rows.getD jj [])
    param := param
    rotate := rotate && decide ((jj : ℕ) = d - 1) }

/-- The edges of the panel in row `ii` and column `jj` (`plot.py:559`, `plot.py:686`). -/
def panelEdges {d : ℕ} (rows : List (List ℝ)) (ii jj : Fin d) : EdgeArg :=
  .list [.arr (rows.getD jj []), .arr (rows.getD ii [])]

/-- `plot.py:543-562`, `plot.py:671-689`: the panels of the diagonal, then those below it. -/
def cornerPanels {d : ℕ} (diag : Fin d → Res Dist1dOut) (panel : Fin d → Fin d → Res Dist2dOut) : Res (CornerOut d) :=
  match finSeq diag with
  | .error e => .error e
  | .ok diag =>
    match finSeq fun ii => finSeq fun jj => if ii ≤ jj then .ok none else (panel ii jj).map some with
    | .error e => .error e
    | .ok panel => .ok ⟨diag, panel⟩

/-- `plot.py:449-572` `Corner.plot_kde` of a KDE of the right dimension.  `o1`, `o2` are the arguments for `dist1d` and `dist2d` after the
defaults have been set; their edges, parameters and rotation are overwritten.  The grid of points cached by the KDE is not passed from panel to
panel (no result depends on it: C14). -/
noncomputable def Corner.plotKde {d : ℕ} (E : Ext) (srt : List ℝ → List ℕ) (auto : List ℝ → ℕ) (r : CornerRnd d) (rotate : Bool) (k : KDE d)
    (edges : EdgeArg) (o1 : Dist1dArgs) (o2 : Dist2dArgs) : Res (CornerOut d) :=
  match parseEdges srt k.dataset edges none none 5 1000 none 1 none with
  | .error e => .error e
  | .ok rows =>
    cornerPanels
      (fun jj => dist1d E srt auto (r.sel1 jj) (r.fuzz jj) (r.top jj) k (diagArgs rotate rows o1 jj jj))
      (fun ii jj => dist2d E srt (r.sel2 ii jj) k { o2 with edges := panelEdges rows ii jj, params := [(jj : ℤ), (ii : ℤ)] })

/-- `plot.py:656-699` `Corner.plot_data`: the panels for data and weights.  `quantiles` replaces that of the panels. -/
noncomputable def Corner.drawData {d : ℕ} (E : Ext) (srt : List ℝ → List ℕ) (auto : List ℝ → ℕ) (r : CornerRnd d) (rotate : Bool)
    (data : List (Fin d → ℝ)) (weights : Option (List ℝ)) (edges : EdgeArg) (quantiles : Option (List ℝ)) (o1 : Dist1dArgs) (o2 : Dist2dArgs) :
    Res (CornerOut d) :=
  match parseEdges srt data edges none none 5 1000 none 1 none with
  | .error e => .error e
  | .ok rows =>
    let q := some (defaultQuantiles quantiles none).1
    cornerPanels
      (fun jj => dist1dData E srt auto (r.sel1 jj) (r.fuzz jj) (r.top jj) false (dataRow data jj) weights
        (diagArgs rotate rows { o1 with quantiles := q } 0 jj))
      (fun ii jj => dist2dData E srt (r.sel2 ii jj) (data.map fun x => ![x jj, x ii]) weights
        { o2 with edges := panelEdges rows ii jj, quantiles := q })

/-- `plot.py:574-699` `Corner.plot_data` of a KDE. -/
noncomputable def Corner.plotDataKde {d : ℕ} (E : Ext) (srt : List ℝ → List ℕ) (auto : List ℝ → ℕ) (r : CornerRnd d) (rotate : Bool) (k : KDE d)
    (edges : EdgeArg) (quantiles : Option (List ℝ)) (o1 : Dist1dArgs) (o2 : Dist2dArgs) : Res (CornerOut d) :=
  Corner.drawData E srt auto r rotate k.dataset k.weights edges quantiles o1 o2

/-- `plot.py:574-699` `Corner.plot_data` of an array with one row per parameter: a KDE of it must exist (`plot.py:640`). -/
noncomputable def Corner.plotData {d : ℕ} (E : Ext) (srt : List ℝ → List ℕ) (auto : List ℝ → ℕ) (r : CornerRnd d) (rotate : Bool)
    (data : List (Fin d → ℝ)) (weights : Option (List ℝ)) (edges : EdgeArg) (quantiles : Option (List ℝ)) (o1 : Dist1dArgs) (o2 : Dist2dArgs) :
    Res (CornerOut d) :=
  match KDE.init E { dataset := data, weights := weights.elim .none fun w => .arr (w.map .fin) } with
  | .error e => .error e
  | .ok _ => Corner.drawData E srt auto r rotate data weights edges quantiles o1 o2

/-- `plot.py:872-893` `corner(kde_data, kwcorner={'weights': cw}, weights=weights)`: the data and weights that are drawn.  The argument `weights` is passed to `Corner.plot`
and not to the constructor. -/
def cornerFunction {D W : Type*} (kd : KdeData D W) (cw weights : Option W) : Res (D × Option W) :=
  match cornerInit (some kd) cw with
  | .error e => .error e
  | .ok c => plotInput c none weights

end Kalepy
