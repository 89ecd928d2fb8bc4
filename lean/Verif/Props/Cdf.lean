import Verif.Props.Grid
import Verif.Props.Nonneg
import Verif.Props.Support

/-!
# C61: `KDE.cdf`
-/

namespace Kalepy

variable {d : ℕ}

/-! ### Interpolation in one dimension -/

/-- Value of the piecewise linear interpolant of `v` (linearly extrapolated). -/
noncomputable def lin1 (row : List ℝ) (v : ℕ → ℝ) (x : ℝ) : ℝ :=
  (1 - cellPos row x) * v (cellIdx row x) + cellPos row x * v (cellIdx row x + 1)

lemma cellIdx_bounds {row : List ℝ} (h2 : 2 ≤ row.length) (hs : row.Pairwise (· < ·)) (x : ℝ) :
    cellIdx row x + 1 < row.length ∧
    (cellIdx row x + 2 < row.length → x ≤ row.getD (cellIdx row x + 1) 0) ∧
    (0 < cellIdx row x → row.getD (cellIdx row x) 0 < x) ∧
    row.getD (cellIdx row x) 0 < row.getD (cellIdx row x + 1) 0 := by
  obtain ⟨s1, s2⟩ := searchLeft_spec (hs.imp le_of_lt) x
  have hlt : cellIdx row x + 1 < row.length := by unfold cellIdx; omega
  refine ⟨hlt, ?_, ?_, ?_⟩
  · intro h
    rw [List.getD_eq_getElem _ _ hlt]
    refine s2 _ hlt ?_
    unfold cellIdx at h ⊢
    omega
  · intro h
    rw [List.getD_eq_getElem _ _ (by omega)]
    refine s1 _ (by omega) ?_
    unfold cellIdx at h ⊢
    omega
  · rw [List.getD_eq_getElem _ _ hlt, List.getD_eq_getElem _ _ (by omega)]
    exact List.pairwise_iff_getElem.mp hs _ _ _ _ (by omega)

lemma cellIdx_mono {row : List ℝ} {x y : ℝ} (hxy : x ≤ y) : cellIdx row x ≤ cellIdx row y := by
  have : searchLeft row x ≤ searchLeft row y := by
    unfold searchLeft
    exact List.countP_mono_left fun a _ h => by simp at h ⊢; exact h.trans_le hxy
  unfold cellIdx
  omega

/-- The interpolant of a nondecreasing sequence is nondecreasing, also where it is extrapolated. -/
lemma lin1_mono {row : List ℝ} (h2 : 2 ≤ row.length) (hs : row.Pairwise (· < ·)) {v : ℕ → ℝ}
    (hv : ∀ n m, n ≤ m → m < row.length → v n ≤ v m) {x y : ℝ} (hxy : x ≤ y) : lin1 row v x ≤ lin1 row v y := by
  obtain ⟨a1, a2, a3, a4⟩ := cellIdx_bounds h2 hs x
  obtain ⟨b1, b2, b3, b4⟩ := cellIdx_bounds h2 hs y
  have hc := cellIdx_mono (row := row) hxy
  have e : ∀ x, lin1 row v x = v (cellIdx row x) + cellPos row x * (v (cellIdx row x + 1) - v (cellIdx row x)) := by
    intro x; unfold lin1; ring
  rcases hc.eq_or_lt with hc | hc
  · rw [e, e, ← hc]
    have h0 : 0 ≤ v (cellIdx row x + 1) - v (cellIdx row x) := sub_nonneg.mpr (hv _ _ (by omega) a1)
    have : cellPos row x ≤ cellPos row y := by
      unfold cellPos
      rw [← hc]
      exact div_le_div_of_nonneg_right (by linarith) (by linarith)
    nlinarith
  · have h1 : lin1 row v x ≤ v (cellIdx row x + 1) := by
      have hp : cellPos row x ≤ 1 := by
        unfold cellPos
        rw [div_le_one (by linarith)]
        linarith [a2 (by omega)]
      have h0 : 0 ≤ v (cellIdx row x + 1) - v (cellIdx row x) := sub_nonneg.mpr (hv _ _ (by omega) a1)
      rw [e]
      nlinarith
    have h2 : v (cellIdx row y) ≤ lin1 row v y := by
      have hp : 0 ≤ cellPos row y := by
        unfold cellPos
        exact div_nonneg (by linarith [b3 (by omega)]) (by linarith)
      have h0 : 0 ≤ v (cellIdx row y + 1) - v (cellIdx row y) := sub_nonneg.mpr (hv _ _ (by omega) b1)
      rw [e]
      nlinarith
    exact h1.trans ((hv _ _ (by omega) (by omega)).trans h2)

/-- Within the range of the row the relative position is between 0 and 1. -/
lemma cellPos_mem {row : List ℝ} (h2 : 2 ≤ row.length) (hs : row.Pairwise (· < ·)) {x : ℝ}
    (hlo : row.getD 0 0 ≤ x) (hhi : x ≤ row.getD (row.length - 1) 0) : 0 ≤ cellPos row x ∧ cellPos row x ≤ 1 := by
  obtain ⟨a1, a2, a3, a4⟩ := cellIdx_bounds h2 hs x
  unfold cellPos
  refine ⟨div_nonneg ?_ (by linarith), ?_⟩
  · rcases Nat.eq_zero_or_pos (cellIdx row x) with h | h
    · rw [h]; linarith
    · linarith [a3 h]
  · rw [div_le_one (by linarith)]
    by_cases h : cellIdx row x + 2 < row.length
    · linarith [a2 h]
    · have : cellIdx row x + 1 = row.length - 1 := by omega
      rw [this]
      linarith

lemma cell_first {row : List ℝ} (h2 : 2 ≤ row.length) (hs : row.Pairwise (· < ·)) :
    cellIdx row (row.getD 0 0) = 0 ∧ cellPos row (row.getD 0 0) = 0 := by
  have h : cellIdx row (row.getD 0 0) = 0 := by
    by_contra hc
    have h0 := (cellIdx_bounds h2 hs (row.getD 0 0)).2.2.1 (by omega)
    have hl := (cellIdx_bounds h2 hs (row.getD 0 0)).1
    rw [List.getD_eq_getElem _ _ (by omega : 0 < row.length)] at h0 hc hl
    rw [List.getD_eq_getElem _ _ (by omega)] at h0
    have := List.pairwise_iff_getElem.mp hs 0 _ (by omega) (by omega) (Nat.pos_of_ne_zero hc)
    linarith
  exact ⟨h, by unfold cellPos; rw [h]; simp⟩

lemma cell_last {row : List ℝ} (h2 : 2 ≤ row.length) (hs : row.Pairwise (· < ·)) :
    cellIdx row (row.getD (row.length - 1) 0) + 1 = row.length - 1 ∧
      cellPos row (row.getD (row.length - 1) 0) = 1 := by
  have h : cellIdx row (row.getD (row.length - 1) 0) + 1 = row.length - 1 := by
    obtain ⟨b1, b2, _, b4⟩ := cellIdx_bounds h2 hs (row.getD (row.length - 1) 0)
    by_contra hc
    have h0 := b2 (by omega)
    have : row.getD (cellIdx row (row.getD (row.length - 1) 0) + 1) 0 < row.getD (row.length - 1) 0 := by
      generalize cellIdx row (row.getD (row.length - 1) 0) + 1 = n at *
      rw [List.getD_eq_getElem _ _ b1, List.getD_eq_getElem _ _ (by omega)]
      exact List.pairwise_iff_getElem.mp hs _ _ _ _ (by omega)
    linarith
  refine ⟨h, ?_⟩
  obtain ⟨_, _, _, b4⟩ := cellIdx_bounds h2 hs (row.getD (row.length - 1) 0)
  unfold cellPos
  rw [h] at b4 ⊢
  exact div_self (by linarith)

/-! ### Interpolation in several dimensions -/

/-- Weight of side `s` of the cell of `x`. -/
noncomputable def sideW (row : List ℝ) (x : ℝ) (s : ℕ) : ℝ := if s = 1 then cellPos row x else 1 - cellPos row x

lemma sum_corners_split (i : Fin d) (f : (Fin d → ℕ) → ℝ) :
    ∑ c ∈ validIdx (fun _ : Fin d => 2), f c
      = ∑ c ∈ (validIdx fun _ : Fin d => 2).filter (fun c => c i = 0), (f c + f (Function.update c i 1)) := by
  rw [Finset.sum_add_distrib, ← Finset.sum_filter_add_sum_filter_not _ (fun c => c i = 0)]
  congr 1
  refine Finset.sum_bij' (fun c _ => Function.update c i 0) (fun c _ => Function.update c i 1) ?_ ?_ ?_ ?_ ?_
  · intro c hc
    simp only [Finset.mem_filter, mem_validIdx] at hc ⊢
    refine ⟨fun j => ?_, by simp⟩
    by_cases hj : j = i
    · subst hj; simp
    · simpa [hj] using hc.1 j
  · intro c hc
    simp only [Finset.mem_filter, mem_validIdx] at hc ⊢
    refine ⟨fun j => ?_, by simp⟩
    by_cases hj : j = i
    · subst hj; simp
    · simpa [hj] using hc.1 j
  · intro c hc
    simp only [Finset.mem_filter, mem_validIdx] at hc
    have : c i = 1 := by have := hc.1 i; have := hc.2; simp only at *; omega
    rw [Function.update_idem, ← this, Function.update_eq_self]
  · intro c hc
    simp only [Finset.mem_filter, mem_validIdx] at hc
    rw [Function.update_idem]
    conv_rhs => rw [← Function.update_eq_self i c]
    rw [hc.2]
  · intro c hc
    simp only [Finset.mem_filter, mem_validIdx] at hc
    have : c i = 1 := by have := hc.1 i; have := hc.2; simp only at *; omega
    rw [Function.update_idem, ← this, Function.update_eq_self]

/-- The interpolant as a combination of one-dimensional interpolants along axis `i`, with weights depending only on
the other coordinates. -/
lemma interp_axis (g : CdfGrid d) (i : Fin d) (x : Fin d → ℝ) :
    g.interp x = ∑ c ∈ (validIdx fun _ : Fin d => 2).filter (fun c => c i = 0),
      (∏ j ∈ Finset.univ.erase i, sideW (g.rows.getD j []) (x j) (c j)) *
        lin1 (g.rows.getD i []) (fun n => g.vals.get (Function.update
          (fun j : Fin d => cellIdx (g.rows.getD j []) (x j) + c j) i n)) (x i) := by
  unfold CdfGrid.interp
  rw [sum_corners_split i]
  refine Finset.sum_congr rfl fun c hc => ?_
  rw [Finset.mem_filter] at hc
  have hprod : ∀ s : ℕ, (∏ j, (if (Function.update c i s) j = 1 then cellPos (g.rows.getD j []) (x j)
      else 1 - cellPos (g.rows.getD j []) (x j)))
      = sideW (g.rows.getD i []) (x i) s * ∏ j ∈ Finset.univ.erase i, sideW (g.rows.getD j []) (x j) (c j) := by
    intro s
    rw [← Finset.mul_prod_erase _ _ (Finset.mem_univ i)]
    congr 1
    · simp [sideW]
    · refine Finset.prod_congr rfl fun j hj => ?_
      rw [Function.update_of_ne (Finset.ne_of_mem_erase hj)]
      rfl
  have hidx : ∀ s : ℕ, (fun j : Fin d => cellIdx (g.rows.getD j []) (x j) + (Function.update c i s) j)
      = Function.update (fun j : Fin d => cellIdx (g.rows.getD j []) (x j) + c j) i (cellIdx (g.rows.getD i []) (x i) + s) := by
    intro s
    funext j
    by_cases hj : j = i
    · subst hj; simp
    · simp [hj]
  have h0 : c = Function.update c i 0 := by rw [← hc.2, Function.update_eq_self]
  have e0 : g.vals.get (fun j : Fin d => cellIdx (g.rows.getD j []) (x j) + c j) *
      ∏ j, (if c j = 1 then cellPos (g.rows.getD j []) (x j) else 1 - cellPos (g.rows.getD j []) (x j))
      = g.vals.get (Function.update (fun j : Fin d => cellIdx (g.rows.getD j []) (x j) + c j) i
          (cellIdx (g.rows.getD i []) (x i))) * (sideW (g.rows.getD i []) (x i) 0 *
          ∏ j ∈ Finset.univ.erase i, sideW (g.rows.getD j []) (x j) (c j)) := by
    rw [← hprod 0, ← h0]
    congr 2
    rw [← add_zero (cellIdx (g.rows.getD i []) (x i)), ← hidx 0, ← h0]
  rw [e0, hprod 1, hidx 1]
  simp only [lin1, sideW, if_true, if_neg (show (0:ℕ) ≠ 1 by norm_num)]
  ring

/-- A grid of values of a cumulative distribution: increasing rows and values that are nondecreasing in every
index. -/
structure MonoGrid (g : CdfGrid d) : Prop where
  len : ∀ i : Fin d, 2 ≤ (g.rows.getD i []).length
  asc : ∀ i : Fin d, (g.rows.getD i []).Pairwise (· < ·)
  mono : ∀ idx idx' : Fin d → ℕ, (∀ i : Fin d, idx' i < (g.rows.getD i []).length) → (∀ i, idx i ≤ idx' i) →
    g.vals.get idx ≤ g.vals.get idx'

/-- `x` is within the range of the grid. -/
def CdfGrid.Within (g : CdfGrid d) (x : Fin d → ℝ) (i : Fin d) : Prop :=
  (g.rows.getD i []).getD 0 0 ≤ x i ∧ x i ≤ (g.rows.getD i []).getD ((g.rows.getD i []).length - 1) 0

/-- The interpolant is nondecreasing in each coordinate if the others are within the grid. -/
lemma interp_mono_axis {g : CdfGrid d} (hg : MonoGrid g) (i : Fin d) (x : Fin d → ℝ) (t : ℝ) (ht : x i ≤ t)
    (hin : ∀ j, j ≠ i → g.Within x j) : g.interp x ≤ g.interp (Function.update x i t) := by
  rw [interp_axis g i, interp_axis g i]
  refine Finset.sum_le_sum fun c hc => ?_
  rw [Finset.mem_filter, mem_validIdx] at hc
  have e1 : ∏ j ∈ Finset.univ.erase i, sideW (g.rows.getD j []) (Function.update x i t j) (c j)
      = ∏ j ∈ Finset.univ.erase i, sideW (g.rows.getD j []) (x j) (c j) :=
    Finset.prod_congr rfl fun j hj => by rw [Function.update_of_ne (Finset.ne_of_mem_erase hj)]
  have e2 : (fun n => g.vals.get (Function.update
        (fun j : Fin d => cellIdx (g.rows.getD j []) (Function.update x i t j) + c j) i n))
      = fun n => g.vals.get (Function.update (fun j : Fin d => cellIdx (g.rows.getD j []) (x j) + c j) i n) := by
    funext n
    congr 1
    funext j
    by_cases hj : j = i
    · subst hj; simp
    · simp [hj]
  rw [e1, e2, Function.update_self]
  refine mul_le_mul_of_nonneg_left ?_ (Finset.prod_nonneg fun j hj => ?_)
  · refine lin1_mono (hg.len i) (hg.asc i) ?_ ht
    intro n m hnm hm
    refine hg.mono _ _ ?_ ?_
    · intro j
      by_cases hj : j = i
      · subst hj; simpa using hm
      · have h1 := (cellIdx_bounds (hg.len j) (hg.asc j) (x j)).1
        have h2 := hc.1 j
        simp only [Function.update_of_ne hj] at h2 ⊢
        omega
    · intro j
      by_cases hj : j = i
      · subst hj; simpa using hnm
      · simp [hj]
  · obtain ⟨h1, h2⟩ := hin j (Finset.ne_of_mem_erase hj)
    obtain ⟨h3, h4⟩ := cellPos_mem (hg.len j) (hg.asc j) h1 h2
    unfold sideW
    split_ifs <;> linarith

/-- The interpolant is nondecreasing within the grid. -/
lemma interp_mono {g : CdfGrid d} (hg : MonoGrid g) {x y : Fin d → ℝ} (hxy : ∀ i, x i ≤ y i)
    (hx : ∀ i, g.Within x i) (hy : ∀ i, g.Within y i) : g.interp x ≤ g.interp y := by
  have key : ∀ S : Finset (Fin d), g.interp x ≤ g.interp (fun i => if i ∈ S then y i else x i) := by
    intro S
    induction S using Finset.induction_on with
    | empty => simp
    | insert i S hi ih =>
      refine ih.trans ?_
      have : (fun j => if j ∈ insert i S then y j else x j)
          = Function.update (fun j => if j ∈ S then y j else x j) i (y i) := by
        funext j
        by_cases hj : j = i
        · subst hj; simp
        · simp [hj]
      rw [this]
      refine interp_mono_axis hg i _ _ (by simp [hi, hxy i]) fun j hj => ?_
      by_cases hjS : j ∈ S
      · simpa [CdfGrid.Within, hjS] using hy j
      · simpa [CdfGrid.Within, hjS] using hx j
  simpa using key Finset.univ

/-- On a lower face the interpolant is that of the values on the face. -/
lemma interp_lower {g : CdfGrid d} (hg : MonoGrid g) (h0 : ∀ idx : Fin d → ℕ, (∃ i, idx i = 0) → g.vals.get idx = 0)
    (x : Fin d → ℝ) (i : Fin d) (hx : x i = (g.rows.getD i []).getD 0 0) : g.interp x = 0 := by
  rw [interp_axis g i]
  refine Finset.sum_eq_zero fun c _ => ?_
  obtain ⟨e1, e2⟩ := cell_first (hg.len i) (hg.asc i)
  rw [lin1, hx, e1, e2, h0 _ ⟨i, by simp⟩]
  ring

/-- The value in the upper corner. -/
lemma interp_upper {g : CdfGrid d} (hg : MonoGrid g) (x : Fin d → ℝ)
    (hx : ∀ i : Fin d, x i = (g.rows.getD i []).getD ((g.rows.getD i []).length - 1) 0) :
    g.interp x = g.vals.get fun i => (g.rows.getD i []).length - 1 := by
  unfold CdfGrid.interp
  rw [Finset.sum_eq_single (fun _ => 1)]
  · have : ∀ i : Fin d, cellPos (g.rows.getD i []) (x i) = 1 ∧
        cellIdx (g.rows.getD i []) (x i) + 1 = (g.rows.getD i []).length - 1 := by
      intro i
      rw [hx i]
      exact (cell_last (hg.len i) (hg.asc i)).symm
    simp only [this, if_true, Finset.prod_const_one, mul_one]
  · intro c hc hne
    rw [mem_validIdx] at hc
    obtain ⟨i, hi⟩ : ∃ i, c i ≠ 1 := by
      by_contra hcon
      push Not at hcon
      exact hne (funext hcon)
    rw [Finset.prod_eq_zero (Finset.mem_univ i), mul_zero]
    rw [if_neg hi, hx i, (cell_last (hg.len i) (hg.asc i)).2, sub_self]
  · intro hc
    exact absurd (by simp [ValidIdx]) hc

/-! ### The grid of `KDE.cdf` -/

lemma NDArr.max_eq {a : NDArr d ℝ} {idx : Fin d → ℕ} (hv : ValidIdx a.shape idx)
    (h : ∀ j, ValidIdx a.shape j → a.get j ≤ a.get idx) : a.max = a.get idx := by
  have hlt := ravelIdx_lt hv
  have hmem : a.get idx ∈ a.flat := by
    have hl : ravelIdx a.shape idx < a.flat.length := by rw [NDArr.flat_length]; exact hlt
    rw [← NDArr.flat_ravel a idx hv hl]
    exact List.getElem_mem hl
  have hle : ∀ v ∈ a.flat, v ≤ a.get idx := by
    intro v hv'
    obtain ⟨n, hn, rfl⟩ := List.getElem_of_mem hv'
    rw [NDArr.flat_getElem]
    rw [NDArr.flat_length] at hn
    exact h _ (unravelIdx_valid hn)
  unfold NDArr.max
  cases hf : a.flat with
  | nil => rw [hf] at hmem; cases hmem
  | cons x l =>
    rw [hf] at hmem hle
    obtain ⟨h1, h2⟩ := npMax_spec x l
    exact le_antisymm (hle _ h1) (h2 _ hmem)

/-- What the cumulative distribution of a nonnegative density on a grid looks like. -/
lemma cdfOf_spec {rows : List (List ℝ)} {pdf : Arr} (hpdf : ∀ v ∈ pdf.vals, 0 ≤ v) {g : CdfGrid d}
    (h : cdfOf rows pdf = .ok g) :
    rows.length = d ∧ Ascending rows ∧ g.rows = rows ∧ MonoGrid g ∧
    (∀ idx : Fin d → ℕ, (∃ i, idx i = 0) → g.vals.get idx = 0) ∧
    g.vals.get (fun i => (rows.getD i []).length - 1) = 1 := by
  unfold cdfOf at h
  cases hc : cumtrapzNd (pdf.toND rows : NDArr d ℝ) rows true none with
  | error e => rw [hc] at h; cases h
  | ok c =>
    rw [hc] at h
    simp only at h
    split_ifs at h with h0 hasc
    cases h
    obtain ⟨M, hM, _⟩ := cumtrapz_none hc
    obtain ⟨_, _, hmatch, hpos⟩ := trapzDensToMass_univ hM
    obtain ⟨hshape, _⟩ := C39_cumtrapz_eq hM hc
    have hrow : ∀ i : Fin d, rows.getD i [] ∈ rows := by
      intro i
      have hi : (i : ℕ) < rows.length := by rw [hmatch.1]; exact i.2
      rw [List.getD_eq_getElem _ _ hi]
      exact List.getElem_mem hi
    have hnn : ∀ idx, ValidIdx (pdf.toND rows : NDArr d ℝ).shape idx → 0 ≤ (pdf.toND rows : NDArr d ℝ).get idx := by
      intro idx _
      simp only [Arr.toND]
      by_cases hl : ravelIdx (fun i : Fin d => (rows.getD i []).length) idx < pdf.vals.length
      · rw [List.getD_eq_getElem _ _ hl]
        exact hpdf _ (List.getElem_mem hl)
      · rw [List.getD_eq_default _ _ (by omega)]
    have hle : ∀ e ∈ rows, e.Pairwise (· ≤ ·) := fun e he => (hasc e he).2.imp le_of_lt
    have hmono := fun idx idx' => C39_cumtrapz_mono hc hnn hle idx idx'
    have hlast : c.max = c.get fun i => (rows.getD i []).length - 1 := by
      have hs : c.shape = fun i : Fin d => (rows.getD i []).length := funext hshape
      refine NDArr.max_eq ?_ ?_
      · intro i
        rw [hs]
        have := (hasc _ (hrow i)).1
        show (rows.getD i []).length - 1 < (rows.getD i []).length
        omega
      · intro j hj
        refine hmono _ _ ?_ ?_
        · intro i
          have := (hasc _ (hrow i)).1
          show (rows.getD i []).length - 1 < (rows.getD i []).length
          omega
        · intro i
          have := hj i
          rw [hs] at this
          simp only at this ⊢
          omega
    have hcpos : 0 < c.max := by
      refine lt_of_le_of_ne ?_ (Ne.symm h0)
      rcases Nat.eq_zero_or_pos d with rfl | hd
      · rw [hlast]
        have h00 := hmono (fun _ => 0) (fun i => (rows.getD i []).length - 1) (fun i => i.elim0) fun i => i.elim0
        obtain ⟨_, he⟩ := C39_cumtrapz_eq hM hc
        rw [he _ fun i => i.elim0]
        exact Finset.sum_nonneg fun j hj => by
          rw [Finset.mem_filter, mem_validIdx] at hj
          exact C38_mass_nonneg hM hnn hle j hj.1
      · rw [hlast]
        rw [← C39_cumtrapz_lower_face hc (fun _ => 0) ⟨0, hd⟩ rfl]
        refine hmono _ _ ?_ fun i => Nat.zero_le _
        intro i
        have := (hasc _ (hrow i)).1
        show (rows.getD i []).length - 1 < (rows.getD i []).length
        omega
    refine ⟨hmatch.1, hasc, rfl, ⟨fun i => (hasc _ (hrow i)).1, fun i => (hasc _ (hrow i)).2, ?_⟩, ?_, ?_⟩
    · intro idx idx' hv hl
      simp only [NDArr.map]
      exact div_le_div_of_nonneg_right (hmono idx idx' hv hl) hcpos.le
    · rintro idx ⟨i, hi⟩
      simp only [NDArr.map]
      rw [C39_cumtrapz_lower_face hc idx i hi, zero_div]
    · simp only [NDArr.map]
      rw [← hlast, div_self h0]

/-- The steps of a successful call of `cdf` on a new object. -/
lemma cdf_inv {E : Ext} {srt : List ℝ → List ℕ} {k : KDE d} (hc : k.cdfCache = none) {q : Pts} {out : List ℝ}
    (h : (k.cdf E srt q).1 = .ok out) :
    ∃ pts p arr g, (k.points srt).1 = .ok pts ∧
      ((k.points srt).2.density E srt (some pts) .none .none true true).1 = .ok (p, arr) ∧
      cdfOf pts.toRows arr = .ok g ∧
      ∀ q, (k.cdf E srt q).1 = (cdfPoints d q).map fun l => l.map g.interp := by
  have hp := (cdfGrid_plain E srt k hc).1
  have hcdf : ∀ q, (k.cdf E srt q).1
      = match (k.cdfGrid E srt).1 with
        | .error e => .error e
        | .ok g => (cdfPoints d q).map fun l => l.map g.interp := by
    intro q
    simp only [KDE.cdf]
    rcases k.cdfGrid E srt with ⟨_ | g, k1⟩ <;> rfl
  rw [hcdf q] at h
  cases hg : (k.cdfGrid E srt).1 with
  | error e => rw [hg] at h; cases h
  | ok g =>
    rw [hg] at hp
    simp only [cdfPlain] at hp
    rcases hk : k.points srt with ⟨_ | pts, k1⟩
    · rw [hk] at hp; cases hp
    · rw [hk] at hp
      simp only [andThen, cdfEval] at hp
      rcases hd : k1.density E srt (some pts) .none .none true true with ⟨_ | ⟨p, arr⟩, k2⟩
      · rw [hd] at hp; cases hp
      · rw [hd] at hp
        simp only [cdfFinish] at hp
        exact ⟨pts, p, arr, g, rfl, by rw [hd], hp.symm, fun q => by rw [hcdf q, hg]⟩

/-! ## C61 -/

/-- First and last value of a row of evaluation points. -/
def Spec.first (row : List ℝ) : ℝ := row.headD 0

def Spec.last (row : List ℝ) : ℝ := row.getLastD 0

/-- The point is inside the box spanned by the rows of the grid. -/
def Spec.InGrid (rows : List (List ℝ)) (x : Fin d → ℝ) : Prop :=
  ∀ i : Fin d, Spec.first (rows.getD i []) ≤ x i ∧ x i ≤ Spec.last (rows.getD i [])

lemma first_eq (row : List ℝ) : Spec.first row = row.getD 0 0 := by cases row <;> rfl

lemma last_eq (row : List ℝ) : Spec.last row = row.getD (row.length - 1) 0 := by
  unfold Spec.last
  rw [List.getD_eq_getElem?_getD, ← List.getLast?_eq_getElem?, List.getLastD_eq_getLast?]

lemma cdfPoints_rowsOf (hd : 0 < d) (xs : List (Fin d → ℝ)) : cdfPoints d (.rows (Spec.rowsOf xs)) = .ok xs := by
  obtain ⟨⟨n, c⟩, hc, hdim, hcols⟩ := toCols_rowsOf hd xs
  simp only at hdim hcols
  subst hdim
  have hcp : c = xs := List.map_injective_iff.mpr List.ofFn_injective hcols
  subst hcp
  simp only [cdfPoints, hc, dif_pos]
  simp

/-- The values of the points, one point after the other. -/
def Spec.flatten (xs : List (Fin d → ℝ)) : List ℝ := xs.flatMap List.ofFn

lemma flatten_length (xs : List (Fin d → ℝ)) : (Spec.flatten xs).length = xs.length * d := by
  simp [Spec.flatten, List.length_flatMap]

lemma flatten_getD (xs : List (Fin d → ℝ)) (n : ℕ) (hn : n < xs.length) (i : Fin d) :
    (Spec.flatten xs).getD (n * d + i) 0 = xs[n] i := by
  induction xs generalizing n with
  | nil => simp at hn
  | cons x xs ih =>
    rw [Spec.flatten, List.flatMap_cons]
    cases n with
    | zero =>
      rw [List.getD_append _ _ _ _ (by simp)]
      simp
    | succ n =>
      rw [List.getD_append_right _ _ _ _ (by simp [Nat.succ_mul]; omega)]
      have : (n + 1) * d + i - (List.ofFn x).length = n * d + i := by
        simp [Nat.succ_mul]; omega
      rw [this]
      exact ih n (by simpa using hn)

lemma cdfPoints_flatten (hd : 0 < d) (xs : List (Fin d → ℝ)) : cdfPoints d (.flat (Spec.flatten xs)) = .ok xs := by
  simp only [cdfPoints, flatten_length, Nat.mul_mod_left, if_true, Nat.mul_div_cancel _ hd]
  congr 1
  apply List.ext_getElem
  · simp
  · intro n h1 h2
    funext i
    simp only [List.getElem_map, List.getElem_range]
    exact flatten_getD xs n h2 i

/-- Property C61, as stated: for every KDE whose `cdf` can be evaluated, the values are those of a function `F` of
the point that is nondecreasing in every coordinate, lies in `[0, 1]`, vanishes on the lower faces of the grid of
evaluation points and is 1 in its upper corner. -/
def C61_Claim : Prop :=
  ∀ (d : ℕ), 0 < d → ∀ (E : Ext) (a : KDEArgs d) (k : KDE d), KDE.init E a = .ok k → ∀ (srt : List ℝ → List ℕ)
    (q : Pts) (out : List ℝ), (k.cdf E srt q).1 = .ok out →
    ∃ (pts : Pts) (F : (Fin d → ℝ) → ℝ), (k.points srt).1 = .ok pts ∧
      (∀ xs, (k.cdf E srt (.rows (Spec.rowsOf xs))).1 = .ok (xs.map F)) ∧
      (∀ x i t, x i ≤ t → F x ≤ F (Function.update x i t)) ∧ (∀ x, 0 ≤ F x ∧ F x ≤ 1) ∧
      (∀ (x : Fin d → ℝ) (i : Fin d), x i = Spec.first (pts.toRows.getD i []) → F x = 0) ∧
      (∀ x : Fin d → ℝ, (∀ i : Fin d, x i = Spec.last (pts.toRows.getD i [])) → F x = 1)

/-- **C61**, arguments that are not supported.  If `params` or `reflect` is given, `cdf` raises NotImplementedError for all
points, and the KDE is unchanged: it does not return the distribution without the boundaries, or of all parameters. -/
theorem C61_notImplemented (E : Ext) (srt : List ℝ → List ℕ) (k : KDE d) (q : Pts) (params : ParamArg) (reflect : Reflect)
    (h : params ≠ .none ∨ reflect ≠ .none) : k.cdf E srt q params reflect = (.error .notImplementedError, k) := by
  unfold KDE.cdf
  split
  · simp at h
  · rfl

/-- **C61** inside the grid.  After any history of calls, if `cdf` can be evaluated at all, then it returns, for
any list of points and after any further calls, the values of one function `F` of the point; `F` is nondecreasing
within the grid of evaluation points (in the componentwise order), lies in `[0, 1]` there, is 0 on the lower faces
and 1 in the upper corner.  If all other coordinates are within the grid, `F` is nondecreasing in one coordinate
also outside the grid; in particular, for one-dimensional data, everywhere.

What is missing (and false, `C61_refuted`): `F ≤ 1` and `0 ≤ F` outside the grid, where `cdf` extrapolates
linearly. -/
theorem C61_cdf_partial {E : Ext} {a : KDEArgs d} {k : KDE d} (h : KDE.init E a = .ok k) (hd : 0 < d)
    (srt : List ℝ → List ℕ) (history : List (Spec.Call d)) (q : Pts) (out : List ℝ)
    (hq : ((history.foldl (fun k c => (Spec.call E srt k c).2) k).cdf E srt q).1 = .ok out) :
    ∃ (pts : Pts) (F : (Fin d → ℝ) → ℝ), (k.points srt).1 = .ok pts ∧
      pts.toRows.length = d ∧ (∀ row ∈ pts.toRows, 2 ≤ row.length ∧ row.Pairwise (· < ·)) ∧
      (∀ (history' : List (Spec.Call d)) (xs : List (Fin d → ℝ)),
        ((history'.foldl (fun k c => (Spec.call E srt k c).2) k).cdf E srt (.rows (Spec.rowsOf xs))).1
          = .ok (xs.map F)) ∧
      (d = 1 → ∀ (history' : List (Spec.Call d)) (xs : List ℝ),
        ((history'.foldl (fun k c => (Spec.call E srt k c).2) k).cdf E srt (.flat xs)).1
          = .ok (xs.map fun x => F fun _ => x)) ∧
      (∀ x y, Spec.InGrid pts.toRows x → Spec.InGrid pts.toRows y → (∀ i, x i ≤ y i) → F x ≤ F y) ∧
      (∀ x, Spec.InGrid pts.toRows x → 0 ≤ F x ∧ F x ≤ 1) ∧
      (∀ (x : Fin d → ℝ) (i : Fin d), x i = Spec.first (pts.toRows.getD i []) → F x = 0) ∧
      (∀ x : Fin d → ℝ, (∀ i : Fin d, x i = Spec.last (pts.toRows.getD i [])) → F x = 1) ∧
      (∀ (x : Fin d → ℝ) (i : Fin d) (t : ℝ), x i ≤ t →
        (∀ j : Fin d, j ≠ i → Spec.first (pts.toRows.getD j []) ≤ x j ∧ x j ≤ Spec.last (pts.toRows.getD j [])) →
        F x ≤ F (Function.update x i t)) := by
  have hist : ∀ (history : List (Spec.Call d)) (q : Pts),
      ((history.foldl (fun k c => (Spec.call E srt k c).2) k).cdf E srt q).1 = (k.cdf E srt q).1 := by
    intro history q
    have := C14_history E srt h history (.cdf q .none .none)
    rwa [Spec.call, Spec.call, Spec.Outcome.probs.injEq] at this
  rw [hist] at hq
  obtain ⟨pts, p, arr, g, h1, h2, h3, h4⟩ := cdf_inv (by rw [← fresh_of_init h]; rfl) hq
  have hnn : ∀ v ∈ arr.vals, 0 ≤ v :=
    C05_kde_all h srt hd [.points] (some pts) .none .none true true p arr h2
  obtain ⟨g1, g2, g3, g4, g5, g6⟩ := cdfOf_spec hnn h3
  have hwithin : ∀ (x : Fin d → ℝ) (i : Fin d), (Spec.first (pts.toRows.getD i []) ≤ x i ∧
      x i ≤ Spec.last (pts.toRows.getD i [])) → g.Within x i := by
    intro x i hx
    rw [first_eq, last_eq] at hx
    rwa [CdfGrid.Within, g3]
  have hmono : ∀ x y, Spec.InGrid pts.toRows x → Spec.InGrid pts.toRows y → (∀ i, x i ≤ y i) →
      g.interp x ≤ g.interp y := fun x y hx hy hxy =>
    interp_mono g4 hxy (fun i => hwithin x i (hx i)) fun i => hwithin y i (hy i)
  have hlow : ∀ (x : Fin d → ℝ) (i : Fin d), x i = Spec.first (pts.toRows.getD i []) → g.interp x = 0 := by
    intro x i hx
    refine interp_lower g4 g5 x i ?_
    rw [hx, first_eq, g3]
  have hup : ∀ x : Fin d → ℝ, (∀ i : Fin d, x i = Spec.last (pts.toRows.getD i [])) → g.interp x = 1 := by
    intro x hx
    rw [interp_upper g4 x fun i => by rw [hx i, last_eq, g3], g3, g6]
  have hspan : ∀ i : Fin d, Spec.first (pts.toRows.getD i []) ≤ Spec.last (pts.toRows.getD i []) := by
    intro i
    have hi := g4.len i
    have hp := g4.asc i
    rw [g3] at hi hp
    generalize pts.toRows.getD i [] = row at hi hp
    rw [first_eq, last_eq, List.getD_eq_getElem _ _ (by omega : 0 < row.length),
      List.getD_eq_getElem _ _ (by omega : row.length - 1 < row.length)]
    exact (List.pairwise_iff_getElem.mp hp _ _ _ _ (by omega)).le
  refine ⟨pts, g.interp, h1, g1, g2, ?_, ?_, hmono, ?_, hlow, hup, ?_⟩
  · intro history' xs
    rw [hist, h4, cdfPoints_rowsOf hd]
    rfl
  · rintro rfl history' xs
    rw [hist, h4]
    have := cdfPoints_flatten one_pos (xs.map fun x (_ : Fin 1) => x)
    rw [show Spec.flatten (xs.map fun x (_ : Fin 1) => x) = xs by simp [Spec.flatten, List.flatMap_map]] at this
    rw [this]
    simp [Except.map, Function.comp_def]
  · intro x hx
    constructor
    · rw [← hlow (fun i => Spec.first (pts.toRows.getD i [])) ⟨0, hd⟩ rfl]
      exact hmono _ _ (fun i => ⟨le_rfl, hspan i⟩) hx fun i => (hx i).1
    · rw [← hup (fun i => Spec.last (pts.toRows.getD i [])) fun i => rfl]
      exact hmono _ _ hx (fun i => ⟨hspan i, le_rfl⟩) fun i => (hx i).2
  · intro x i t ht hx
    exact interp_mono_axis g4 i x t ht fun j hj => hwithin x j (hx j hj)

/-! ## C150 -/

/-- **C150.**  If `cdf` can be evaluated at all, then after any history of calls it is the evaluation of one function of a
single point:
* for an array with `D` rows, the n-th value is that of the n-th column;
* a flat array is read as consecutive points of `D` values each, and the n-th value is that of the n-th group; a flat
  array whose length is no multiple of `D` raises ValueError;
* an array with another number of rows raises ValueError. -/
theorem C150_cdf_points {E : Ext} {a : KDEArgs d} {k : KDE d} (h : KDE.init E a = .ok k) (hd : 0 < d)
    (srt : List ℝ → List ℕ) (history : List (Spec.Call d)) (q : Pts) (out : List ℝ)
    (hq : ((history.foldl (fun k c => (Spec.call E srt k c).2) k).cdf E srt q).1 = .ok out) :
    ∃ F : (Fin d → ℝ) → ℝ, ∀ history' : List (Spec.Call d),
      (∀ xs, ((history'.foldl (fun k c => (Spec.call E srt k c).2) k).cdf E srt (.rows (Spec.rowsOf xs))).1
        = .ok (xs.map F)) ∧
      (∀ xs, ((history'.foldl (fun k c => (Spec.call E srt k c).2) k).cdf E srt (.flat (Spec.flatten xs))).1
        = .ok (xs.map F)) ∧
      (∀ l : List ℝ, ¬ d ∣ l.length →
        ((history'.foldl (fun k c => (Spec.call E srt k c).2) k).cdf E srt (.flat l)).1 = .error .valueError) ∧
      (∀ (n : ℕ) (xs : List (Fin n → ℝ)), 0 < n → n ≠ d →
        ((history'.foldl (fun k c => (Spec.call E srt k c).2) k).cdf E srt (.rows (Spec.rowsOf xs))).1
          = .error .valueError) := by
  have hist : ∀ (history : List (Spec.Call d)) (q : Pts),
      ((history.foldl (fun k c => (Spec.call E srt k c).2) k).cdf E srt q).1 = (k.cdf E srt q).1 := by
    intro history q
    have := C14_history E srt h history (.cdf q .none .none)
    rwa [Spec.call, Spec.call, Spec.Outcome.probs.injEq] at this
  rw [hist] at hq
  obtain ⟨pts, p, arr, g, h1, h2, h3, h4⟩ := cdf_inv (by rw [← fresh_of_init h]; rfl) hq
  refine ⟨g.interp, fun history' => ⟨?_, ?_, ?_, ?_⟩⟩
  · intro xs
    rw [hist, h4, cdfPoints_rowsOf hd]
    rfl
  · intro xs
    rw [hist, h4, cdfPoints_flatten hd]
    rfl
  · intro l hl
    rw [hist, h4, cdfPoints, if_neg (fun h => hl (Nat.dvd_of_mod_eq_zero h))]
    rfl
  · intro n xs hn hnd
    obtain ⟨c, hc, hdim, _⟩ := toCols_rowsOf hn xs
    rw [hist, h4]
    simp only [cdfPoints, hc]
    rw [dif_neg (by rw [hdim]; exact hnd)]
    rfl

/-! ### A concrete case, and values outside the grid -/

/-- One data point 0, box kernel of width 1, evaluation points `[0, 1]`. -/
def cdfArgs : KDEArgs 1 where
  dataset := [![0]]
  kernel := .cls .box
  bandwidth := .val (.num 1)
  covariance := some 1
  points := .list [.arr [0, 1]]

lemma cdfArgs_init (E : Ext) : ∃ k, KDE.init E cdfArgs = .ok k := by
  obtain ⟨dat, h1, h2⟩ := dataExtrema_spec (show ([![0]] : List (Fin 1 → ℝ)) ≠ [] by simp)
  unfold KDE.init
  simp only [cdfArgs, checkReflect, checkWeights, covArg, bwMatrix, computeBw, Except.map,
    getDistribution, kernelOut, Dist.finite, if_true, effExtrema, h1]
  rw [if_neg (by simp), if_neg (by simp), if_pos]
  · exact ⟨_, rfl⟩
  · intro i
    simp only [Kernel.init, rescaleBw, Matrix.of_apply]
    exact mul_nonneg (by simp [Matrix.one_apply]) (sq_nonneg _)

lemma cdfArgs_matrix {E : Ext} {k : KDE 1} (h : KDE.init E cdfArgs = .ok k) :
    k.weights = none ∧ k.kernel.dist = .box ∧ Spec.kernelMatrix k.covariance k.bandwidth = 1 := by
  obtain ⟨B, hB, hR⟩ := C18_bandwidth h
  obtain ⟨_, w, cov, _, D', _, _, _, _, _, hw, hc, _, hD', _, _, _, _, he⟩ := init_inv h
  simp only [cdfArgs, getDistribution, Except.ok.injEq] at hD'
  simp only [cdfArgs, covArg, Except.ok.injEq] at hc
  simp only [cdfArgs, checkWeights, Except.ok.injEq] at hw
  obtain ⟨b, rfl, hb⟩ := hB
  simp only [cdfArgs, Spec.Rescaled] at hR
  refine ⟨by rw [he, ← hw], by rw [he, ← hD']; rfl, ?_⟩
  ext i j
  rw [Spec.kernelMatrix, Matrix.of_apply, hR, hb, show k.covariance = 1 by rw [he, ← hc]]
  simp [cdfArgs]

lemma cdfArgs_points {E : Ext} {k : KDE 1} (h : KDE.init E cdfArgs = .ok k) (srt : List ℝ → List ℕ) :
    (k.points srt).1 = .ok (.rows [[0, 1]]) := by
  have hp := C14_points E srt h []
  simp only [List.foldl_nil] at hp
  rw [hp]
  have hds : k.dataset = [![0]] ∧ k.pointsSpec = .list [.arr [0, 1]] ∧ k.squeeze = false := by
    obtain ⟨_, _, _, _, _, _, _, _, _, _, _, _, _, _, _, _, _, _, rfl⟩ := init_inv h
    exact ⟨rfl, rfl, rfl⟩
  obtain ⟨ext, hext, _⟩ := parseExtremaOf_extremaList (by norm_num) (show k.dataset ≠ [] by rw [hds.1]; simp) k.extrema
  have hf : finSeq (d := 1) (fun i => getEdges1d srt (([.arr [0, 1]] : List EdgeSpec).getD i .auto) (dataRow k.dataset i)
      (ext i) k.weights 1 3 200 ((some 0 : Option ℝ).getD 0) (Real.sqrt 10) (some (k.bandwidth i i)))
      = .ok fun _ => [0, 1] := finSeq_ok.mpr fun i => by fin_cases i; rfl
  simp only [KDE.computePoints, parseEdges, hext, hds.2.1, edgeSpecs]
  have he : (([EdgeSpec.arr [0, 1]] : List EdgeSpec).all EdgeSpec.scalar = true) = False := by simp [EdgeSpec.scalar]
  simp only [he, false_and, if_false, List.length_singleton, ne_eq, not_true_eq_false]
  rw [show ((some (0:ℝ)).getD (if (some (extremaList k.extrema)).isNone = true then 1 else 0)) = (some (0:ℝ)).getD 0 from rfl]
  simp only [Option.map_some, hf, Except.map, KDE.shapePoints, hds.2.2, Bool.false_eq_true, if_false]
  rfl

lemma cdfArgs_pdf {E : Ext} {k : KDE 1} (h : KDE.init E cdfArgs = .ok k) (srt : List ℝ → List ℕ) :
    ∃ v : ℝ, 0 < v ∧ (k.density E srt (some (.rows [[0, 1]])) .none .none true true).1
      = .ok (.rows [[0, 1]], ⟨[2], [v, v]⟩) := by
  obtain ⟨h1, h2, h3⟩ := cdfArgs_matrix h
  have := (C02_kde_density h srt (by norm_num) rfl (by rw [h3]; exact Matrix.PosDef.one) [![0], ![1]]).2
  have hr : Spec.rowsOf ([![0], ![1]] : List (Fin 1 → ℝ)) = [[0, 1]] := by simp [Spec.rowsOf]
  have e0 : Spec.kernelSum .box 1 (Spec.weighted cdfArgs.dataset none) ![0] = 1 := by
    simp [Spec.kernelSum, Spec.weighted, cdfArgs, Spec.shape, Spec.dist2]
  have e1 : Spec.kernelSum .box 1 (Spec.weighted cdfArgs.dataset none) ![1] = 1 := by
    simp [Spec.kernelSum, Spec.weighted, cdfArgs, Spec.shape, Spec.dist2]
  have e2 : ((Spec.weighted cdfArgs.dataset none).map Prod.snd).sum = 1 := by
    simp [Spec.weighted, cdfArgs]
  rw [h1, h2, h3, hr] at this
  simp only [List.map_cons, List.map_nil, e0, e1, e2, Matrix.det_one, Real.sqrt_one, one_mul, div_one] at this
  exact ⟨_, one_div_pos.mpr (Dist.norm_pos .box 1 one_pos),
    (C15_single _ _ _ (.rows [[0, 1]]) [0, 1] rfl _ _ _).trans this⟩

/-- A concrete grid: two evaluation points. -/
lemma cdfOf_pair {v : ℝ} (hv : 0 < v) :
    ∃ g : CdfGrid 1, cdfOf [[0, 1]] ⟨[2], [v, v]⟩ = .ok g ∧ g.rows = [[0, 1]] := by
  have hmatch : EdgesMatch ((⟨[2], [v, v]⟩ : Arr).toND [[0, 1]] : NDArr 1 ℝ).shape [[(0:ℝ), 1]] :=
    ⟨rfl, fun i => by fin_cases i; rfl⟩
  obtain ⟨M, hM⟩ := trapzDensToMass_ok hmatch Finset.univ (by intro i; fin_cases i; simp [Arr.toND])
  have hc : ∃ C, cumtrapzNd ((⟨[2], [v, v]⟩ : Arr).toND [[0, 1]] : NDArr 1 ℝ) [[(0:ℝ), 1]] true none = .ok C := by
    simp only [cumtrapzNd, axisSet, hM, Except.map]
    exact ⟨_, rfl⟩
  obtain ⟨C, hC⟩ := hc
  obtain ⟨m1, m2, _, _⟩ := trapzDensToMass_univ hM
  obtain ⟨c1, c2⟩ := C39_cumtrapz_eq hM hC
  have hshape : C.shape = fun _ => 2 := by
    funext i
    rw [c1 i]
    fin_cases i
    simp [Arr.toND]
  have hval : C.get (fun _ => 1) = v := by
    rw [c2 _ (by intro i; fin_cases i; simp [Arr.toND])]
    have hset : (validIdx M.shape).filter (fun j => ∀ i, j i < (fun _ : Fin 1 => 1) i) = {fun _ => 0} := by
      ext j
      simp only [Finset.mem_filter, mem_validIdx, Finset.mem_singleton, m1, ValidIdx]
      constructor
      · rintro ⟨_, hj⟩
        funext i
        have := hj i
        exact Nat.lt_one_iff.mp this
      · rintro rfl
        exact ⟨fun i => by fin_cases i; simp [Arr.toND], fun i => by simp⟩
    rw [hset, Finset.sum_singleton, m2]
    have hv2 : validIdx (fun _ : Fin 1 => 2) = {fun _ => 0, fun _ => 1} := by
      ext j
      simp only [mem_validIdx, Finset.mem_insert, Finset.mem_singleton, ValidIdx]
      constructor
      · intro hj
        have := hj 0
        rcases (show j 0 = 0 ∨ j 0 = 1 by omega) with h | h
        · exact Or.inl (funext fun i => by fin_cases i; exact h)
        · exact Or.inr (funext fun i => by fin_cases i; exact h)
      · rintro (rfl | rfl) i <;> simp
    have hne : (fun _ : Fin 1 => 0) ≠ fun _ => 1 := fun h => by simpa using congrFun h 0
    rw [massAt, hv2, Finset.sum_pair hne]
    simp [Arr.toND, ravelIdx, edgeAt]
  have hmax : C.max ≠ 0 := by
    have hidx : ValidIdx C.shape fun _ => 1 := by intro i; rw [hshape]; simp
    have : C.max = C.get fun _ => 1 := by
      refine NDArr.max_eq hidx fun j hj => ?_
      have hj0 := hj 0
      rw [hshape] at hj0
      rcases (show j 0 = 0 ∨ j 0 = 1 by simp only at hj0; omega) with h | h
      · rw [C39_cumtrapz_lower_face hC j 0 h, hval]
        exact hv.le
      · rw [show j = fun _ => 1 from funext fun i => by fin_cases i; exact h]
    rw [this, hval]
    exact hv.ne'
  have hasc : Ascending [[(0:ℝ), 1]] := by
    intro r hr
    rw [List.mem_singleton] at hr
    subst hr
    simp
  refine ⟨⟨_, C.map (· / C.max)⟩, ?_, rfl⟩
  simp only [cdfOf, hC]
  rw [if_neg hmax, if_pos hasc]

/-- The values of `cdf` in the concrete case: `F(x) = x`, for all numbers `x`. -/
lemma cdfArgs_cdf {E : Ext} {k : KDE 1} (h : KDE.init E cdfArgs = .ok k) (srt : List ℝ → List ℕ)
    (xs : List (Fin 1 → ℝ)) : (k.cdf E srt (.rows (Spec.rowsOf xs))).1 = .ok (xs.map fun x => x 0) := by
  obtain ⟨v, hv, hpdf⟩ := cdfArgs_pdf h srt
  obtain ⟨g, hg, hrows⟩ := cdfOf_pair hv
  have hpts := cdfArgs_points h srt
  have hc : k.cdfCache = none := by rw [← fresh_of_init h]; rfl
  have hd := C14_history E srt h [.points] (.density (some (.rows [[0, 1]])) .none .none true true)
  rw [Spec.call, Spec.call, Spec.Outcome.values.injEq] at hd
  simp only [List.foldl_cons, List.foldl_nil, Spec.call] at hd
  rw [hpdf] at hd
  have hgrid : (k.cdfGrid E srt).1 = .ok g := by
    rw [(cdfGrid_plain E srt k hc).1]
    simp only [cdfPlain]
    rcases hk : k.points srt with ⟨r, k1⟩
    rw [hk] at hpts hd
    simp only at hpts hd
    subst hpts
    simp only [andThen, cdfEval]
    rcases hk2 : k1.density E srt (some (.rows [[0, 1]])) .none .none true true with ⟨r, k2⟩
    rw [hk2] at hd
    simp only at hd
    subst hd
    simp only [cdfFinish, Pts.toRows]
    exact hg
  have hint : ∀ x : Fin 1 → ℝ, g.interp x = x 0 := by
    obtain ⟨_, _, _, g4, g5, g6⟩ := cdfOf_spec (d := 1) (by intro w hw; simp at hw; rw [hw]; exact hv.le) hg
    intro x
    rw [interp_axis g 0]
    have hset : (validIdx fun _ : Fin 1 => 2).filter (fun c => c 0 = 0) = {fun _ => 0} := by
      ext j
      simp only [Finset.mem_filter, mem_validIdx, Finset.mem_singleton, ValidIdx]
      constructor
      · rintro ⟨_, hj⟩
        exact funext fun i => by fin_cases i; exact hj
      · rintro rfl
        exact ⟨fun i => by simp, rfl⟩
    have he : (Finset.univ : Finset (Fin 1)).erase 0 = ∅ := by ext i; fin_cases i; simp
    have hci : cellIdx [(0:ℝ), 1] (x 0) = 0 := by simp [cellIdx]
    rw [hset, Finset.sum_singleton, he, Finset.prod_empty, one_mul, hrows]
    simp only [Fin.isValue, Fin.val_zero, List.getD_cons_zero, lin1, hci, cellPos]
    rw [g5 _ ⟨0, by simp⟩]
    have : Function.update (fun j : Fin 1 => cellIdx (([[0, 1]] : List (List ℝ)).getD j []) (x j) + 0) 0 (0 + 1)
        = fun i : Fin 1 => (([[0, 1]] : List (List ℝ)).getD i []).length - 1 := by
      funext i
      fin_cases i
      simp
    rw [this, g6]
    simp
  simp only [KDE.cdf]
  rcases hk : k.cdfGrid E srt with ⟨r, k1⟩
  rw [hk] at hgrid
  simp only at hgrid
  subst hgrid
  simp only [cdfPoints_rowsOf one_pos, Except.map]
  congr 1
  exact List.map_congr_left fun x _ => hint x

/-- **C61 is false of the code** outside the grid: with one data point 0, a box kernel of width 1 and evaluation points
`[0, 1]`, `cdf` at 2 is 2. -/
theorem C61_refuted : ¬ C61_Claim := by
  intro hC
  let E : Ext := ⟨fun A => A, id⟩
  obtain ⟨k, hk⟩ := cdfArgs_init E
  have hv := cdfArgs_cdf hk (fun l => List.range l.length)
  obtain ⟨_, F, _, h2, _, h4, _⟩ := hC 1 one_pos E _ k hk _ _ _ (hv [])
  have h3 := (hv [![2]]).symm.trans (h2 [![2]])
  simp only [List.map_cons, List.map_nil, Except.ok.injEq, List.cons.injEq, and_true] at h3
  have := (h4 ![2]).2
  rw [← h3] at this
  norm_num at this

/-- Concrete case of the hypotheses of `C61_cdf_partial` and `C150_cdf_points`, with a call before. -/
example (srt : List ℝ → List ℕ) : ∃ (E : Ext) (a : KDEArgs 1) (k : KDE 1) (q : Pts) (out : List ℝ),
    KDE.init E a = .ok k ∧ (([.points].foldl (fun k c => (Spec.call E srt k c).2) k).cdf E srt q).1 = .ok out := by
  obtain ⟨k, hk⟩ := cdfArgs_init ⟨fun A => A, id⟩
  refine ⟨_, _, k, .rows (Spec.rowsOf [![1 / 2]]), [1 / 2], hk, ?_⟩
  have hd := C14_history ⟨fun A => A, id⟩ srt hk [.points] (.cdf (.rows (Spec.rowsOf [![1 / 2]])) .none .none)
  rw [Spec.call, Spec.call, Spec.Outcome.probs.injEq] at hd
  rw [hd, cdfArgs_cdf hk]
  simp

end Kalepy
