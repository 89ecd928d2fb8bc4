import Verif.Model.KDE

/-!
# Model of the names and the list of the distribution classes (`kalepy/kernels.py`)
-/

namespace Kalepy

/-- `kernels.py:474-476` `_Distribution.name`: the name of the class (`kernels.py:487`, `516`, `555`, `589`). -/
def Dist.name : Dist → List Char
  | .gaussian => "Gaussian".toList
  | .box => "Box".toList
  | .parabola => "Parabola".toList
  | .triweight => "Triweight".toList

/-- The loop of `kernels.py:641-644`: elements that are already in the list are skipped. -/
def appendNew (dists : List Dist) : List Dist → List Dist
  | [] => dists
  | dd :: rest => if dd ∈ dists then appendNew dists rest else appendNew (dists ++ [dd]) rest

/-- `kernels.py:637-646` `_get_all_distribution_classes`. -/
def allDistributions : List Dist := appendNew [] (distTable.map (·.2))

end Kalepy
