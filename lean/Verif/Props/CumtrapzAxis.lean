import Verif.Props.Grid

/-!
# C39: exactly what `cumtrapz` returns when zeros are prepended along one axis
-/

namespace Kalepy

variable {d : ℕ} {K : Type*}

/-- **C39**, the case in which the code violates the documented shape, exactly: with `axis=i` and `prepend=True` (the default) the
integrated axis has its documented length, but every other axis is one longer than that of the input.  Entries with some index 0
vanish; the others are the integral along axis `i` up to edge `idx i`, taken at the other indices minus one. -/
theorem C39_axis_prepend [Field K] [CharZero K] {pdf C : NDArr d K} {edges : List (List K)}
    (i : Fin d) (h : cumtrapzNd pdf edges true (some i) = .ok C) :
    C.shape i = pdf.shape i ∧ (∀ j, j ≠ i → C.shape j = pdf.shape j + 1) ∧
    (∀ idx j, idx j = 0 → C.get idx = 0) ∧
    ∀ idx : Fin d → ℕ, C.get (fun j => idx j + 1) = ∑ k ∈ Finset.range (idx i + 1),
      (edgeAt edges i (k + 1) - edgeAt edges i k)
        * (pdf.get (Function.update idx i k) + pdf.get (Function.update idx i (k + 1))) / 2 := by
  unfold cumtrapzNd at h
  cases hm : trapzDensToMass pdf edges (axisSet (some i)) with
  | error e => rw [hm] at h; cases h
  | ok M =>
    rw [hm] at h
    have hC : C = padFront (cumtrapzPadding (some i)) (cumsumNd M (some i)) := by
      injection h with h
      exact h.symm
    have hF : cumtrapzNd pdf edges false (some i) = .ok (cumsumNd M (some i)) := by
      unfold cumtrapzNd
      rw [hm]
      rfl
    obtain ⟨hs, hg⟩ := C39_cumtrapz_axis_partial i hF
    have hpos : 0 < pdf.shape i := by
      unfold trapzDensToMass at hm
      split_ifs at hm with h1 h2
      by_contra hc
      exact h2 ⟨i, by simp [axisSet], by omega⟩
    have hp : ∀ j, cumtrapzPadding (some i) j = 1 := fun j => rfl
    have hsh : ∀ j, C.shape j = (cumsumNd M (some i)).shape j + 1 := fun j => by rw [hC]; rfl
    refine ⟨?_, fun j hj => ?_, fun idx j hj => ?_, fun idx => ?_⟩
    · rw [hsh, hs, Function.update_self]
      omega
    · rw [hsh, hs, Function.update_of_ne hj]
    · rw [hC]
      exact if_pos ⟨j, by rw [hp]; omega⟩
    · rw [← hg idx, hC]
      change (if ∃ j, idx j + 1 < cumtrapzPadding (some i) j then _ else _) = _
      rw [if_neg (by simp [hp])]
      rfl

/-- **C39**: in one dimension the documented shape holds with `axis=0` as well, and the result is that without an axis. -/
theorem C39_axis_1d [Field K] (pdf : NDArr 1 K) (edges : List (List K)) (prepend : Bool) :
    cumtrapzNd pdf edges prepend (some 0) = cumtrapzNd pdf edges prepend none := by
  have h1 : axisSet (some (0 : Fin 1)) = axisSet none := by
    ext j
    simp [axisSet, Subsingleton.elim j 0]
  unfold cumtrapzNd
  rw [h1]
  congr 1

/-- Concrete case of the hypothesis of `C39_axis_prepend`: an array of shape (2, 3) becomes one of shape (2, 4). -/
example : ∃ C : NDArr 2 ℚ, cumtrapzNd (⟨![2, 3], fun idx => idx 1⟩ : NDArr 2 ℚ) [[0, 1], [0, 1, 3]] true (some 0) = .ok C ∧
    C.shape = ![2, 4] ∧ C.get ![1, 3] = 2 := by
  have hm : EdgesMatch (![2, 3] : Fin 2 → ℕ) ([[0, 1], [0, 1, 3]] : List (List ℚ)) := by
    refine ⟨rfl, fun i => ?_⟩
    fin_cases i <;> rfl
  obtain ⟨M, hM⟩ : ∃ M, trapzDensToMass (⟨![2, 3], fun idx => idx 1⟩ : NDArr 2 ℚ) [[0, 1], [0, 1, 3]] (axisSet (some 0)) = .ok M := by
    rw [trapzDensToMass, if_pos hm, if_neg (by simp [axisSet])]
    exact ⟨_, rfl⟩
  obtain ⟨C, hC⟩ : ∃ C, cumtrapzNd (⟨![2, 3], fun idx => idx 1⟩ : NDArr 2 ℚ) [[0, 1], [0, 1, 3]] true (some 0) = .ok C := by
    unfold cumtrapzNd
    rw [hM]
    exact ⟨_, rfl⟩
  obtain ⟨h1, h2, -, h4⟩ := C39_axis_prepend 0 hC
  refine ⟨C, hC, ?_, ?_⟩
  · funext j
    fin_cases j
    · exact h1
    · exact h2 1 (by simp)
  · have := h4 ![0, 2]
    have e : (fun j => (![0, 2] : Fin 2 → ℕ) j + 1) = ![1, 3] := by
      funext j
      fin_cases j <;> rfl
    rw [e] at this
    rw [this]
    norm_num [edgeAt, Function.update]

end Kalepy
