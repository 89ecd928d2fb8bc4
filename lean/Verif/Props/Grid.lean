import Verif.Proofs.Grid
import Mathlib.Data.Rat.Defs
import Mathlib.Tactic.FinCases
import Mathlib.Tactic.NormNum
import Mathlib.Data.Fin.VecNotation
import Mathlib.Algebra.Order.Field.Rat

/-!
# C38, C39, C40, C52: masses, integrals, cumulative sums and index arithmetic on grids
-/

namespace Kalepy

variable {d : ℕ} {K : Type*}

/-! ## C52 -/

/-- **C52.** `np.unravel_index` on flat bin numbers `0..prod-1` gives valid index tuples, each exactly
once, and is the inverse of the row-major position `Σ_i idx_i Π_{j>i} shape_j`. -/
theorem C52_unravel_bijective (shape : Fin d → ℕ) :
    (∀ k < ∏ i, shape i, (∀ i, unravelIdx shape k i < shape i) ∧
      ∑ i, unravelIdx shape k i * ∏ j ∈ Finset.Ioi i, shape j = k) ∧
    (∀ idx : Fin d → ℕ, (∀ i, idx i < shape i) →
      ∑ i, idx i * ∏ j ∈ Finset.Ioi i, shape j < ∏ i, shape i ∧
      unravelIdx shape (∑ i, idx i * ∏ j ∈ Finset.Ioi i, shape j) = idx) := by
  refine ⟨fun k hk => ⟨unravelIdx_valid hk, ?_⟩, fun idx h => ?_⟩
  · rw [← ravelIdx_eq_sum, ravel_unravelIdx hk]
  · rw [← ravelIdx_eq_sum]
    exact ⟨ravelIdx_lt h, unravel_ravelIdx h⟩

/-- **C52.** Two arrays of the same shape looked up by the same flat number are looked up at the
same index tuple (`grad.flat[n]` belongs to the bin `np.unravel_index(n)`). -/
theorem C52_flat_lookup (a : NDArr d K) (k : ℕ) (hk : k < ∏ i, a.shape i) :
    a.flat[k]? = some (a.get (unravelIdx a.shape k)) := by
  have : k < a.flat.length := by rw [NDArr.flat_length]; exact hk
  rw [List.getElem?_eq_getElem this, NDArr.flat_getElem]

example : unravelIdx ![2, 3, 4] 17 = ![1, 1, 1] := by decide

/-! ## C38 -/

/-- **C38.** Masses: one element shorter on each axis; each is the cell volume times the mean of the
densities at the `2^D` corners of the cell. -/
theorem C38_mass_eq [Field K] {pdf M : NDArr d K} {edges : List (List K)}
    (h : trapzDensToMass pdf edges Finset.univ = .ok M) :
    (∀ i, M.shape i = pdf.shape i - 1) ∧
    ∀ idx, M.get idx
      = (∏ i : Fin d, (edgeAt edges i (idx i + 1) - edgeAt edges i (idx i)))
        * ((∑ c : Fin d → Fin 2, pdf.get fun i => idx i + c i) / 2 ^ d) := by
  obtain ⟨h1, h2, -, -⟩ := trapzDensToMass_univ h
  refine ⟨fun i => by rw [h1], fun idx => ?_⟩
  rw [h2, massAt, sum_corners_eq, mul_comm]

/-- **C38.** The masses sum to the trapezoid-rule integral over the whole grid. -/
theorem C38_mass_sum [Field K] {pdf M : NDArr d K} {edges : List (List K)}
    (h : trapzDensToMass pdf edges Finset.univ = .ok M) : trapzNd pdf edges = .ok M.sum := by
  obtain ⟨h1, h2, h3, -⟩ := trapzDensToMass_univ h
  rw [trapzNd, if_pos h3, ← sum_massAt_eq_trapzAll edges pdf h3.2, NDArr.sum, h1, h2]

/-- **C38.** Nonnegative densities on nondecreasing edges give nonnegative masses. -/
theorem C38_mass_nonneg [Field K] [LinearOrder K] [IsStrictOrderedRing K] {pdf M : NDArr d K}
    {edges : List (List K)} (h : trapzDensToMass pdf edges Finset.univ = .ok M)
    (hpdf : ∀ idx, ValidIdx pdf.shape idx → 0 ≤ pdf.get idx)
    (hedges : ∀ e ∈ edges, e.Pairwise (· ≤ ·)) :
    ∀ idx, ValidIdx M.shape idx → 0 ≤ M.get idx := by
  intro idx hidx
  obtain ⟨h1, h2⟩ := C38_mass_eq h
  obtain ⟨-, -, h3, -⟩ := trapzDensToMass_univ h
  rw [h2]
  have hb : ∀ i, idx i + 1 < pdf.shape i := fun i => by have := hidx i; rw [h1] at this; omega
  refine mul_nonneg (Finset.prod_nonneg fun i _ => ?_)
    (div_nonneg (Finset.sum_nonneg fun c _ => hpdf _ fun i => ?_) (by positivity))
  · have hlen := h3.2 i
    have hi : (i : ℕ) < edges.length := by rw [h3.1]; exact i.2
    have hmem : edges.getD i [] ∈ edges := by
      rw [List.getD_eq_getElem _ _ hi]; exact List.getElem_mem hi
    have hp := hedges _ hmem
    have hlt := hb i
    rw [edgeAt, edgeAt, List.getD_eq_getElem _ _ (by omega : idx i + 1 < (edges.getD i []).length),
      List.getD_eq_getElem _ _ (by omega : idx i < (edges.getD i []).length)]
    exact sub_nonneg.mpr (List.pairwise_iff_getElem.mp hp _ _ _ _ (Nat.lt_succ_self _))
  · have := hb i; have := (c i).2; omega

/-- **C38.** Masses are linear in the density. -/
theorem C38_mass_linear [Field K] {p q r P Q R : NDArr d K} {edges : List (List K)} (a b : K)
    (hp : trapzDensToMass p edges Finset.univ = .ok P)
    (hq : trapzDensToMass q edges Finset.univ = .ok Q)
    (hr : trapzDensToMass r edges Finset.univ = .ok R)
    (hlin : ∀ idx, ValidIdx r.shape idx → r.get idx = a * p.get idx + b * q.get idx) :
    ∀ idx, ValidIdx R.shape idx → R.get idx = a * P.get idx + b * Q.get idx := by
  intro idx hidx
  obtain ⟨hs, hg⟩ := C38_mass_eq hr
  have hc : ∀ c : Fin d → Fin 2, r.get (fun i => idx i + c i)
      = a * p.get (fun i => idx i + c i) + b * q.get (fun i => idx i + c i) := fun c =>
    hlin _ fun i => by have := hidx i; have := (c i).2; rw [hs] at *; omega
  rw [(C38_mass_eq hp).2, (C38_mass_eq hq).2, hg]
  simp only [hc, Finset.sum_add_distrib, ← Finset.mul_sum]
  ring

/-- **C38.** A constant density has total mass `c` times the volume of the grid. -/
theorem C38_mass_const [Field K] [CharZero K] {pdf M : NDArr d K} {edges : List (List K)} (c : K)
    (h : trapzDensToMass pdf edges Finset.univ = .ok M) 
    (hc : ∀ idx, ValidIdx pdf.shape idx → pdf.get idx = c) :
    M.sum = c * ∏ i : Fin d, (edgeAt edges i (pdf.shape i - 1) - edgeAt edges i 0) := by
  obtain ⟨h1, h2⟩ := C38_mass_eq h
  have hcorner : ∀ idx, ValidIdx M.shape idx →
      (∑ e : Fin d → Fin 2, pdf.get fun i => idx i + e i) / 2 ^ d = c := by
    intro idx hidx
    have : ∀ e : Fin d → Fin 2, pdf.get (fun i => idx i + e i) = c := fun e =>
      hc _ fun i => by have := hidx i; have := (e i).2; rw [h1] at *; omega
    simp [this]
  have hsum : M.sum = ∑ idx ∈ validIdx M.shape,
      (∏ i : Fin d, (edgeAt edges i (idx i + 1) - edgeAt edges i (idx i))) * c := by
    rw [NDArr.sum]
    exact Finset.sum_congr rfl fun idx h => by rw [h2, hcorner idx (by simpa using h)]
  rw [hsum, ← Finset.sum_mul,
    sum_validIdx_prod M.shape fun i k => edgeAt edges i (k + 1) - edgeAt edges i k, mul_comm]
  congr 1
  refine Finset.prod_congr rfl fun i _ => ?_
  rw [Finset.sum_range_sub (fun k => edgeAt edges i k), h1]

/-- **C38.** Both functions raise `ValueError` exactly when edges do not match the density array;
otherwise (no empty axis) both succeed. -/
theorem C38_mismatch [Field K] (pdf : NDArr d K) (edges : List (List K)) (axes : Finset (Fin d)) :
    (¬ (edges.length = d ∧ ∀ i : Fin d, (edges.getD i []).length = pdf.shape i) →
      trapzDensToMass pdf edges axes = .error .valueError ∧ trapzNd pdf edges = .error .valueError) ∧
    (edges.length = d ∧ (∀ i : Fin d, (edges.getD i []).length = pdf.shape i) →
      (∀ i, 0 < pdf.shape i) → (∃ M, trapzDensToMass pdf edges axes = .ok M) ∧
        ∃ v, trapzNd pdf edges = .ok v) := by
  refine ⟨fun h => ⟨?_, ?_⟩, fun h hpos => ⟨trapzDensToMass_ok h axes hpos, ?_⟩⟩
  · rw [trapzDensToMass, if_neg (show ¬ EdgesMatch pdf.shape edges from h)]
  · rw [trapzNd, if_neg (show ¬ EdgesMatch pdf.shape edges from h)]
  · unfold trapzNd
    rw [if_pos (show EdgesMatch pdf.shape edges from h)]
    exact ⟨_, rfl⟩

/-- A 2x3 grid with uneven edges meets all hypotheses of the C38 theorems. -/
def exGrid : NDArr 2 ℚ := ⟨![2, 3], fun idx => (idx 0 : ℚ) + 2 * idx 1⟩

def exEdges : List (List ℚ) := [[0, 1], [0, 1, 3]]

lemma exGrid_match : EdgesMatch exGrid.shape exEdges :=
  ⟨rfl, fun i => by fin_cases i <;> rfl⟩

example : (∃ M, trapzDensToMass exGrid exEdges Finset.univ = .ok M) ∧
    (∀ idx, ValidIdx exGrid.shape idx → 0 ≤ exGrid.get idx) ∧
    (∀ e ∈ exEdges, e.Pairwise (· ≤ ·)) := by
  refine ⟨trapzDensToMass_ok exGrid_match _ (by intro i; fin_cases i <;> decide), ?_, ?_⟩
  · intro idx _; simp only [exGrid]; positivity
  · intro e he
    simp only [exEdges, List.mem_cons, List.not_mem_nil, or_false] at he
    rcases he with rfl | rfl <;> norm_num

/-! ## C40 -/

/-- **C40.** `cumsum` without axis is the multidimensional prefix sum: the value at `idx` is the sum of
all values at index tuples that are componentwise at most `idx`. -/
theorem C40_cumsum_prefix [AddCommMonoid K] (a : NDArr d K) :
    (cumsumNd a none).shape = a.shape ∧
    ∀ idx, ValidIdx a.shape idx → (cumsumNd a none).get idx
      = ∑ j ∈ validIdx a.shape with ∀ i, j i ≤ idx i, a.get j := by
  refine ⟨(cumsumNd_none a).1, fun idx hidx => ?_⟩
  rw [(cumsumNd_none a).2]
  refine Finset.sum_congr ?_ fun _ _ => rfl
  ext j
  simp only [Fintype.mem_piFinset, Finset.mem_range, Nat.lt_succ_iff, Finset.mem_filter, mem_validIdx]
  exact ⟨fun h => ⟨fun i => (h i).trans_lt (hidx i), h⟩, fun h => h.2⟩

/-- **C40.** With an axis, only that axis is accumulated. -/
theorem C40_cumsum_axis [AddCommMonoid K] (a : NDArr d K) (i : Fin d) :
    (cumsumNd a (some i)).shape = a.shape ∧
    ∀ idx, (cumsumNd a (some i)).get idx
      = ∑ k ∈ Finset.range (idx i + 1), a.get (Function.update idx i k) := ⟨rfl, fun _ => rfl⟩

example : ValidIdx exGrid.shape ![1, 2] := by intro i; fin_cases i <;> decide

/-! ## C39 -/

lemma cumtrapz_none [Field K] {pdf C : NDArr d K} {edges : List (List K)}
    (h : cumtrapzNd pdf edges true none = .ok C) :
    ∃ M, trapzDensToMass pdf edges Finset.univ = .ok M ∧
      C = padFront (fun _ => 1) (cumsumNd M none) := by
  simp only [cumtrapzNd, axisSet] at h
  cases hm : trapzDensToMass pdf edges Finset.univ with
  | error e => simp [hm, Except.map] at h
  | ok M =>
    simp only [hm, Except.map] at h
    injection h with h
    exact ⟨M, rfl, h.symm⟩

/-- **C39.** `cumtrapz` has the shape of the density and its value at a grid point is the sum of the
masses of all cells below that point. -/
theorem C39_cumtrapz_eq [Field K] {pdf M C : NDArr d K} {edges : List (List K)}
    (hM : trapzDensToMass pdf edges Finset.univ = .ok M)
    (h : cumtrapzNd pdf edges true none = .ok C) :
    (∀ i, C.shape i = pdf.shape i) ∧
    ∀ idx, ValidIdx pdf.shape idx →
      C.get idx = ∑ j ∈ validIdx M.shape with ∀ i, j i < idx i, M.get j := by
  obtain ⟨M', hM', rfl⟩ := cumtrapz_none h
  obtain rfl : M = M' := by rw [hM] at hM'; injection hM'
  obtain ⟨h1, -, -, h4⟩ := trapzDensToMass_univ hM
  refine ⟨fun i => ?_, fun idx hidx => ?_⟩
  · simp only [padFront, (cumsumNd_none M).1, h1]; have := h4 i; omega
  · simp only [padFront]
    split_ifs with hz
    · obtain ⟨i, hi⟩ := hz
      rw [Finset.sum_eq_zero]
      intro j hj
      rw [Finset.mem_filter] at hj
      have := hj.2 i; omega
    · push Not at hz
      rw [(cumsumNd_none M).2]
      refine Finset.sum_congr ?_ fun _ _ => rfl
      ext j
      simp only [Fintype.mem_piFinset, Finset.mem_range, Finset.mem_filter, mem_validIdx]
      have e : ∀ i, idx i - 1 + 1 = idx i := fun i => by have := hz i; omega
      simp only [e]
      refine ⟨fun hj => ⟨fun i => ?_, hj⟩, fun hj => hj.2⟩
      rw [h1]
      have a1 := hj i; have a2 := hidx i
      show j i < pdf.shape i - 1
      omega

/-- **C39.** `cumtrapz` vanishes on all lower faces of the grid. -/
theorem C39_cumtrapz_lower_face [Field K] {pdf C : NDArr d K} {edges : List (List K)}
    (h : cumtrapzNd pdf edges true none = .ok C) (idx : Fin d → ℕ) (i : Fin d) (hi : idx i = 0) :
    C.get idx = 0 := by
  obtain ⟨M, -, rfl⟩ := cumtrapz_none h
  simp only [padFront]
  rw [if_pos ⟨i, by omega⟩]

/-- **C39.** For nonnegative densities `cumtrapz` is nondecreasing in every index. -/
theorem C39_cumtrapz_mono [Field K] [LinearOrder K] [IsStrictOrderedRing K] {pdf C : NDArr d K}
    {edges : List (List K)} (h : cumtrapzNd pdf edges true none = .ok C)
    (hpdf : ∀ idx, ValidIdx pdf.shape idx → 0 ≤ pdf.get idx)
    (hedges : ∀ e ∈ edges, e.Pairwise (· ≤ ·)) (idx idx' : Fin d → ℕ)
    (hv : ValidIdx pdf.shape idx') (hle : ∀ i, idx i ≤ idx' i) : C.get idx ≤ C.get idx' := by
  obtain ⟨M, hM, -⟩ := cumtrapz_none h
  obtain ⟨-, he⟩ := C39_cumtrapz_eq hM h
  rw [he idx fun i => (hle i).trans_lt (hv i), he idx' hv]
  refine Finset.sum_le_sum_of_subset_of_nonneg ?_ fun j hj _ => ?_
  · intro j hj
    rw [Finset.mem_filter] at hj ⊢
    exact ⟨hj.1, fun i => (hj.2 i).trans_le (hle i)⟩
  · rw [Finset.mem_filter, mem_validIdx] at hj
    exact C38_mass_nonneg hM hpdf hedges j hj.1

/-- **C39.** The last entry of `cumtrapz` is the total integral `trapz_nd`. -/
theorem C39_cumtrapz_last [Field K] {pdf C : NDArr d K} {edges : List (List K)}
    (h : cumtrapzNd pdf edges true none = .ok C) :
    trapzNd pdf edges = .ok (C.get fun i => pdf.shape i - 1) := by
  obtain ⟨M, hM, -⟩ := cumtrapz_none h
  obtain ⟨-, he⟩ := C39_cumtrapz_eq hM h
  obtain ⟨h1, -, -, h4⟩ := trapzDensToMass_univ hM
  rw [C38_mass_sum hM, he _ fun i => by have := h4 i; show pdf.shape i - 1 < _; omega]
  congr 1
  rw [NDArr.sum]
  refine (Finset.sum_congr ?_ fun _ _ => rfl).symm
  rw [Finset.filter_eq_self]
  intro j hj
  rw [mem_validIdx, h1] at hj
  exact hj

/-- The documented shape of `cumtrapz(..., prepend=True, axis=i)`: the shape of the input. -/
def C39_axis_Claim : Prop :=
  ∀ (d : ℕ) (pdf C : NDArr d ℚ) (edges : List (List ℚ)) (i : Fin d),
    cumtrapzNd pdf edges true (some i) = .ok C → C.shape = pdf.shape

/-- **C39 is false with an axis.** The rows of the padding list are the same Python list, so zeros are
prepended along every axis, not only the integrated one. -/
theorem C39_axis_refuted : ¬ C39_axis_Claim := by
  intro hC
  obtain ⟨M, hM⟩ := trapzDensToMass_ok exGrid_match {(0 : Fin 2)}
    (by intro i; fin_cases i <;> decide)
  have hC' := hC 2 exGrid _ exEdges 0 (by
    simp only [cumtrapzNd, axisSet, hM]; rfl)
  have hsh : M.shape = fun i => if i ∈ ({(0 : Fin 2)} : Finset (Fin 2)) then exGrid.shape i - 1 else exGrid.shape i := by
    unfold trapzDensToMass at hM
    split_ifs at hM
    injection hM with hM
    rw [← hM]
  have := congrFun hC' 1
  simp [padFront, cumtrapzPadding, cumsumNd, NDArr.cumsumAxis, hsh, exGrid] at this

/-- **C39 (axis, partial).** With an axis and `prepend=False` the result is one shorter along that axis
only and accumulates the 1D trapezoid masses along it. Missing: `prepend=True` with an axis (false). -/
theorem C39_cumtrapz_axis_partial [Field K] [CharZero K] {pdf C : NDArr d K} {edges : List (List K)}
    (i : Fin d) (h : cumtrapzNd pdf edges false (some i) = .ok C) :
    C.shape = Function.update pdf.shape i (pdf.shape i - 1) ∧
    ∀ idx, C.get idx = ∑ k ∈ Finset.range (idx i + 1),
      (edgeAt edges i (k + 1) - edgeAt edges i k)
        * (pdf.get (Function.update idx i k) + pdf.get (Function.update idx i (k + 1))) / 2 := by
  simp only [cumtrapzNd, axisSet] at h
  cases hm : trapzDensToMass pdf edges {i} with
  | error e => simp [hm, Except.map] at h
  | ok M =>
    simp only [hm, Except.map] at h
    injection h with h
    subst h
    unfold trapzDensToMass at hm
    split_ifs at hm
    injection hm with hm
    subst hm
    have hcor : corners ({i} : Finset (Fin d)) = {0, Pi.single i 1} := by
      ext c
      simp only [corners, Finset.mem_filter, mem_validIdx, Finset.mem_singleton, Finset.mem_insert]
      constructor
      · rintro ⟨h1, h2⟩
        have hi : c i < 2 := h1 i
        by_cases hc : c i = 0
        · left; funext j; by_cases hj : j = i
          · rw [hj, hc]; rfl
          · exact h2 j hj
        · right; funext j; by_cases hj : j = i
          · rw [hj, Pi.single_eq_same]; omega
          · rw [Pi.single_eq_of_ne hj]; exact h2 j hj
      · rintro (rfl | rfl)
        · exact ⟨fun _ => by simp, fun _ _ => rfl⟩
        · refine ⟨fun j => ?_, fun j hj => Pi.single_eq_of_ne hj _⟩
          by_cases hj : j = i
          · rw [hj, Pi.single_eq_same]; exact Nat.one_lt_two
          · rw [Pi.single_eq_of_ne hj]; exact Nat.two_pos
    have hne : (0 : Fin d → ℕ) ≠ Pi.single i 1 := by
      intro e; have := congrFun e i; simp at this
    refine ⟨?_, fun idx => ?_⟩
    · funext j
      by_cases hj : j = i
      · subst hj; simp [cumsumNd, NDArr.cumsumAxis]
      · simp [cumsumNd, NDArr.cumsumAxis, hj]
    · simp only [cumsumNd, Bool.false_eq_true, if_false, NDArr.cumsumAxis]
      refine Finset.sum_congr rfl fun k _ => ?_
      rw [hcor, Finset.sum_pair hne]
      have hprod : ∏ j : Fin d, binWidth edges {i} j ((Function.update idx i k) j)
          = edgeAt edges i (k + 1) - edgeAt edges i k := by
        rw [Finset.prod_eq_single i]
        · simp [binWidth]
        · intro j _ hj; simp [binWidth, hj]
        · simp
      have h0 : (fun j => Function.update idx i k j + (0 : Fin d → ℕ) j) = Function.update idx i k := by
        funext j; simp
      have h1 : (fun j => Function.update idx i k j + (Pi.single i 1 : Fin d → ℕ) j)
          = Function.update idx i (k + 1) := by
        funext j
        by_cases hj : j = i
        · subst hj; simp
        · simp [hj]
      rw [hprod, h0, h1, Finset.card_singleton, pow_one]
      ring

example : (∃ C, cumtrapzNd exGrid exEdges true none = .ok C) ∧
    ∃ C, cumtrapzNd exGrid exEdges false (some 1) = .ok C := by
  have hpos : ∀ i, 0 < exGrid.shape i := by intro i; fin_cases i <;> decide
  obtain ⟨M, hM⟩ := trapzDensToMass_ok exGrid_match Finset.univ hpos
  obtain ⟨N, hN⟩ := trapzDensToMass_ok exGrid_match {1} hpos
  constructor
  · simp only [cumtrapzNd, axisSet, hM]; exact ⟨_, rfl⟩
  · simp only [cumtrapzNd, axisSet, hN]; exact ⟨_, rfl⟩

end Kalepy
