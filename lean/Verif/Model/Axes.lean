import Verif.Model.Grid
import Verif.Model.KDE

/-!
# Model of `trapz_nd` and `trapz_dens_to_mass` along chosen axes
-/

namespace Kalepy

variable {d : ℕ} {K : Type*}

/-- An array together with its number of dimensions (integrating along an axis removes the axis). -/
structure AnyArr (K : Type*) where
  ndim : ℕ
  arr : NDArr ndim K

/-- `np.trapz(a, x=xx, axis=i)` (`utils.py:846`; numpy before version 2.0): the widths `np.diff(xx)` and the sums of neighbouring
values are multiplied with broadcasting along the axis, that is, either of them may have one element only; otherwise different
numbers raise `ValueError`. -/
def trapzAxis [Field K] (xx : List K) (i : Fin (d + 1)) (a : NDArr (d + 1) K) : Res (NDArr d K) :=
  let n := xx.length - 1
  let m := a.shape i - 1
  if n = m ∨ n = 1 ∨ m = 1 then .ok
    { shape := fun j => a.shape (i.succAbove j)
      get := fun idx => ∑ k ∈ Finset.range (if n = 1 then m else n),
        let kx := if n = 1 then 0 else k
        let ky := if m = 1 then 0 else k
        (xx.getD (kx + 1) 0 - xx.getD kx 0) *
          (a.get (i.insertNth (α := fun _ => ℕ) (ky + 1) idx) + a.get (i.insertNth (α := fun _ => ℕ) ky idx)) / 2 }
  else .error .valueError

/-- The loop of `utils.py:844-846`: the edges `edges[ii]` are looked up among all axes, the axis `ii` among those which
are left.  A number out of range raises `IndexError`. -/
def trapzLoop [Field K] (edges : List (List K)) : List ℤ → AnyArr K → Res (AnyArr K)
  | [], a => .ok a
  | z :: l, a =>
    match pyIndex edges z with
    | .error e => .error e
    | .ok xx =>
      match a with
      | ⟨0, _⟩ => .error .indexError
      | ⟨n + 1, arr⟩ =>
        match dimIndex (n + 1) z with
        | .error e => .error e
        | .ok i =>
          match trapzAxis xx i arr with
          | .error e => .error e
          | .ok r => trapzLoop edges l ⟨n, r⟩

/-- `utils.py:827-848` `trapz_nd(data, edges, axis)` of an array of at least one dimension; a single axis is a list with one
element.  `sorted(axis)[::-1]` is the list in descending order. -/
def trapzNdAxis [Field K] (data : NDArr d K) (edges : List (List K)) (axis : Option (List ℤ)) : Res (AnyArr K) :=
  if EdgesMatch data.shape edges then
    trapzLoop edges ((axis.getD ((List.range d).map fun k : ℕ => (k : ℤ))).insertionSort (· ≥ ·)) ⟨d, data⟩
  else .error .valueError

/-- `np.delete(l, z)` with one (possibly negative) position; out of range it raises `IndexError`. -/
def npDelete {α : Type*} (l : List α) (z : ℤ) : Res (List α) :=
  if 0 ≤ z ∧ z < l.length then .ok (l.eraseIdx z.toNat)
  else if z < 0 ∧ 0 ≤ l.length + z then .ok (l.eraseIdx (l.length + z).toNat)
  else .error .indexError

/-- `utils.py:904-907`: the axes that are not integrated over, `ii` deleted for each axis number in descending order. -/
def notAxis (d : ℕ) (axis : List ℤ) : Res (List (Fin d)) :=
  (axis.insertionSort (· ≥ ·)).foldlM (fun l z => npDelete l z) (List.finRange d)

/-- `utils.py:851-979` `trapz_dens_to_mass(pdf, edges, axis)` of an array of at least one dimension, `axis` a list of any
integers (a single axis is a list with one element).  Whether an axis is integrated is decided in two ways: `ii in axis` for the widths and the
shape of the result (lines 914-920), and the deletion from `not_axis` for the slices (lines 958-970).  The slices are multiplied
with the volumes and added to the masses with broadcasting: along each axis the slice has the length of the result, or
length 1; otherwise `ValueError`.  The sum is divided by two to the number of given axes (line 977). -/
def trapzDensToMassAxis [Field K] (pdf : NDArr d K) (edges : List (List K)) (axis : Option (List ℤ)) : Res (NDArr d K) :=
  let axis := axis.getD ((List.range d).map fun k : ℕ => (k : ℤ))
  if EdgesMatch pdf.shape edges then
    match notAxis d axis with
    | .error e => .error e
    | .ok rest =>
      let given : Finset (Fin d) := Finset.univ.filter fun i => ((i : ℕ) : ℤ) ∈ axis
      let cut : Finset (Fin d) := Finset.univ.filter fun i => i ∉ rest
      if ∃ i ∈ given, pdf.shape i = 0 then .error .assertionError
      else
        let out : Fin d → ℕ := fun i => if i ∈ given then pdf.shape i - 1 else pdf.shape i
        let slice : Fin d → ℕ := fun i => if i ∈ cut then pdf.shape i - 1 else pdf.shape i
        if ∀ i, slice i = out i ∨ slice i = 1 then .ok
          { shape := out
            get := fun idx =>
              (∑ c ∈ corners cut, pdf.get (fun i => (if slice i = 1 ∧ out i ≠ 1 then 0 else idx i) + c i) *
                ∏ i, binWidth edges given i (idx i)) / 2 ^ axis.length }
        else .error .valueError
  else .error .valueError

end Kalepy
