import Verif.Model.NDArr
import Mathlib.Tactic.Ring
import Mathlib.Tactic.Linarith

/-!
# Lemmas about index arithmetic and sums over index tuples
-/

namespace Kalepy

variable {d : ℕ}

@[simp] lemma mem_validIdx {shape idx : Fin d → ℕ} : idx ∈ validIdx shape ↔ ValidIdx shape idx := by
  simp [validIdx, ValidIdx]

lemma ravelIdx_lt {shape idx : Fin d → ℕ} (h : ValidIdx shape idx) :
    ravelIdx shape idx < ∏ i, shape i := by
  induction d with
  | zero => simp [ravelIdx]
  | succ d ih =>
    rw [ravelIdx, Fin.prod_univ_castSucc]
    have h1 := ih (shape := fun i => shape i.castSucc) (idx := fun i => idx i.castSucc)
      fun i => h i.castSucc
    have h2 := h (Fin.last d)
    set A := ravelIdx (fun i : Fin d => shape i.castSucc) fun i => idx i.castSucc
    set P := ∏ i : Fin d, shape i.castSucc
    calc A * shape (Fin.last d) + idx (Fin.last d)
        < A * shape (Fin.last d) + shape (Fin.last d) := by omega
      _ = (A + 1) * shape (Fin.last d) := by ring
      _ ≤ P * shape (Fin.last d) := Nat.mul_le_mul_right _ h1

lemma unravelIdx_valid {shape : Fin d → ℕ} {k : ℕ} (hk : k < ∏ i, shape i) :
    ValidIdx shape (unravelIdx shape k) := by
  induction d generalizing k with
  | zero => intro i; exact i.elim0
  | succ d ih =>
    rw [Fin.prod_univ_castSucc] at hk
    have hpos : 0 < shape (Fin.last d) := by
      rcases Nat.eq_zero_or_pos (shape (Fin.last d)) with h | h
      · rw [h] at hk; simp at hk
      · exact h
    intro i
    rw [unravelIdx]
    refine Fin.lastCases ?_ (fun j => ?_) i
    · simpa using Nat.mod_lt _ hpos
    · simp only [Fin.snoc_castSucc]
      exact ih (shape := fun i => shape i.castSucc)
        (Nat.div_lt_of_lt_mul (by rw [mul_comm]; exact hk)) j

lemma ravel_unravelIdx {shape : Fin d → ℕ} {k : ℕ} (hk : k < ∏ i, shape i) :
    ravelIdx shape (unravelIdx shape k) = k := by
  induction d generalizing k with
  | zero => simp at hk; simp [ravelIdx, hk]
  | succ d ih =>
    rw [Fin.prod_univ_castSucc] at hk
    rw [ravelIdx, unravelIdx]
    simp only [Fin.snoc_castSucc, Fin.snoc_last]
    rw [ih (shape := fun i => shape i.castSucc)
      (Nat.div_lt_of_lt_mul (by rw [mul_comm]; exact hk))]
    rw [mul_comm]; exact Nat.div_add_mod _ _

lemma unravel_ravelIdx {shape idx : Fin d → ℕ} (h : ValidIdx shape idx) :
    unravelIdx shape (ravelIdx shape idx) = idx := by
  induction d with
  | zero => funext i; exact i.elim0
  | succ d ih =>
    have h2 := h (Fin.last d)
    have hq : (ravelIdx (fun i : Fin d => shape i.castSucc) (fun i => idx i.castSucc)
        * shape (Fin.last d) + idx (Fin.last d)) / shape (Fin.last d)
        = ravelIdx (fun i : Fin d => shape i.castSucc) fun i => idx i.castSucc := by
      rw [add_comm, Nat.add_mul_div_right _ _ (by omega), Nat.div_eq_of_lt h2, zero_add]
    have hr : (ravelIdx (fun i : Fin d => shape i.castSucc) (fun i => idx i.castSucc)
        * shape (Fin.last d) + idx (Fin.last d)) % shape (Fin.last d) = idx (Fin.last d) := by
      rw [add_comm, Nat.add_mul_mod_self_right, Nat.mod_eq_of_lt h2]
    rw [ravelIdx, unravelIdx, hq, hr,
      ih (shape := fun i => shape i.castSucc) (idx := fun i => idx i.castSucc) fun i => h i.castSucc]
    funext i
    refine Fin.lastCases ?_ (fun j => ?_) i <;> simp

/-- Row-major formula. -/
lemma ravelIdx_eq_sum (shape idx : Fin d → ℕ) :
    ravelIdx shape idx = ∑ i, idx i * ∏ j ∈ Finset.Ioi i, shape j := by
  induction d with
  | zero => simp [ravelIdx]
  | succ d ih =>
    rw [ravelIdx, ih, Fin.sum_univ_castSucc, Finset.sum_mul]
    have hlast : Finset.Ioi (Fin.last d) = ∅ := by
      ext x; simp [Fin.le_last]
    rw [hlast, Finset.prod_empty, mul_one]
    congr 1
    refine Finset.sum_congr rfl fun i _ => ?_
    rw [mul_assoc]
    congr 1
    have : Finset.Ioi (i.castSucc) = insert (Fin.last d) ((Finset.Ioi i).map Fin.castSuccEmb) := by
      ext x
      refine Fin.lastCases ?_ (fun j => ?_) x
      · simp [Fin.castSucc_lt_last]
      · simp [Fin.castSucc_lt_castSucc_iff, Fin.le_last]
    rw [this, Finset.prod_insert, Finset.prod_map, mul_comm]
    · rfl
    · simp

lemma NDArr.flat_length {K : Type*} (a : NDArr d K) : a.flat.length = a.size := by
  simp [NDArr.flat]

lemma NDArr.flat_getElem {K : Type*} (a : NDArr d K) (k : ℕ) (h : k < a.flat.length) :
    a.flat[k] = a.get (unravelIdx a.shape k) := by
  simp [NDArr.flat]

lemma NDArr.flat_ravel {K : Type*} (a : NDArr d K) (idx : Fin d → ℕ) (h : ValidIdx a.shape idx)
    (h' : ravelIdx a.shape idx < a.flat.length) :
    a.flat[ravelIdx a.shape idx] = a.get idx := by
  rw [NDArr.flat_getElem, unravel_ravelIdx h]

/-- Sums over flat positions and over index tuples agree. -/
lemma sum_range_unravel {K : Type*} [AddCommMonoid K] (shape : Fin d → ℕ) (f : (Fin d → ℕ) → K) :
    ∑ k ∈ Finset.range (∏ i, shape i), f (unravelIdx shape k) = ∑ idx ∈ validIdx shape, f idx := by
  refine Finset.sum_nbij' (fun k => unravelIdx shape k) (fun idx => ravelIdx shape idx) ?_ ?_ ?_ ?_ ?_
  · intro k hk; simpa using unravelIdx_valid (by simpa using hk)
  · intro idx h; simpa using ravelIdx_lt (by simpa using h)
  · intro k hk; exact ravel_unravelIdx (by simpa using hk)
  · intro idx h; exact unravel_ravelIdx (by simpa using h)
  · intro k _; rfl

lemma list_range_map_sum {K : Type*} [AddCommMonoid K] (n : ℕ) (f : ℕ → K) :
    ((List.range n).map f).sum = ∑ k ∈ Finset.range n, f k := rfl

lemma NDArr.flat_sum {K : Type*} [AddCommMonoid K] (a : NDArr d K) : a.flat.sum = a.sum := by
  rw [NDArr.flat, list_range_map_sum, NDArr.size, sum_range_unravel]; rfl

/-- Splitting off the last axis. -/
lemma sum_validIdx_snoc {K : Type*} [AddCommMonoid K] (shape : Fin (d + 1) → ℕ)
    (f : (Fin (d + 1) → ℕ) → K) :
    ∑ idx ∈ validIdx shape, f idx
      = ∑ a ∈ validIdx (fun i : Fin d => shape i.castSucc), ∑ k ∈ Finset.range (shape (Fin.last d)),
          f (Fin.snoc (α := fun _ => ℕ) a k) := by
  rw [← Finset.sum_product']
  refine Finset.sum_nbij' (fun idx => (fun i => idx i.castSucc, idx (Fin.last d)))
    (fun p => Fin.snoc (α := fun _ => ℕ) p.1 p.2) ?_ ?_ ?_ ?_ ?_
  · intro idx h
    rw [mem_validIdx] at h
    simpa using ⟨fun i => h i.castSucc, h (Fin.last d)⟩
  · rintro ⟨a, k⟩ h
    simp only [Finset.mem_product, mem_validIdx, Finset.mem_range] at h
    rw [mem_validIdx]
    intro i
    refine Fin.lastCases ?_ (fun j => ?_) i
    · simpa using h.2
    · simpa using h.1 j
  · intro idx _
    funext i
    refine Fin.lastCases ?_ (fun j => ?_) i <;> simp
  · rintro ⟨a, k⟩ _
    simp
  · intro idx _
    congr 1
    funext i
    refine Fin.lastCases ?_ (fun j => ?_) i <;> simp

end Kalepy
