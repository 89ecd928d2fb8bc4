import Mathlib.Algebra.Order.Field.Basic
import Mathlib.Algebra.Order.BigOperators.Ring.Finset
import Mathlib.Algebra.BigOperators.Ring.Finset
import Mathlib.Tactic.FieldSimp
import Mathlib.Data.List.GetD
import Verif.Model.Grid
import Verif.Proofs.NDArr

/-!
# Lemmas about the grid functions
-/

namespace Kalepy

variable {d : ℕ} {K : Type*}

lemma corners_univ : corners (Finset.univ : Finset (Fin d)) = validIdx fun _ => 2 := by
  simp [corners]

lemma sum_corners_eq [AddCommMonoid K] (f : (Fin d → ℕ) → K) :
    ∑ c ∈ validIdx (d := d) (fun _ => 2), f c = ∑ c : Fin d → Fin 2, f fun i => (c i : ℕ) := by
  symm
  refine Finset.sum_bij (fun c _ => fun i => (c i : ℕ)) ?_ ?_ ?_ ?_
  · intro c _; rw [mem_validIdx]; intro i; exact (c i).2
  · intro a _ b _ h; funext i; exact Fin.ext (congrFun h i)
  · intro c hc; rw [mem_validIdx] at hc
    exact ⟨fun i => ⟨c i, hc i⟩, Finset.mem_univ _, rfl⟩
  · intro c _; rfl

section field
variable [Field K]

/-- All-axes mass of one cell. -/
def massAt (edges : List (List K)) (f : (Fin d → ℕ) → K) (idx : Fin d → ℕ) : K :=
  (∑ c ∈ validIdx (d := d) (fun _ => 2), f (fun i => idx i + c i)) / 2 ^ d
    * ∏ i : Fin d, (edgeAt edges i (idx i + 1) - edgeAt edges i (idx i))

lemma trapzDensToMass_univ {pdf M : NDArr d K} {edges : List (List K)}
    (h : trapzDensToMass pdf edges Finset.univ = .ok M) :
    M.shape = (fun i => pdf.shape i - 1) ∧ M.get = massAt edges pdf.get ∧
      EdgesMatch pdf.shape edges ∧ ∀ i, 0 < pdf.shape i := by
  unfold trapzDensToMass at h
  split_ifs at h with h1 h2
  injection h with h
  subst h
  refine ⟨by simp, ?_, h1, ?_⟩
  · funext idx
    simp only [massAt, corners_univ, Finset.card_univ, Fintype.card_fin, ← Finset.sum_mul, binWidth,
      Finset.mem_univ, if_true]
    ring
  · intro i
    by_contra hi
    exact h2 ⟨i, Finset.mem_univ _, by omega⟩

lemma trapzDensToMass_ok {pdf : NDArr d K} {edges : List (List K)}
    (h1 : EdgesMatch pdf.shape edges) (axes : Finset (Fin d)) (h2 : ∀ i, 0 < pdf.shape i) :
    ∃ M, trapzDensToMass pdf edges axes = .ok M := by
  unfold trapzDensToMass
  rw [if_pos h1, if_neg]
  · exact ⟨_, rfl⟩
  · rintro ⟨i, _, hi⟩; have := h2 i; omega

/-- Integrating all cells is iterated 1D trapezoid integration. -/
lemma sum_massAt_eq_trapzAll (edges : List (List K)) (a : NDArr d K)
    (h : ∀ i : Fin d, (edges.getD i []).length = a.shape i) :
    ∑ idx ∈ validIdx (fun i => a.shape i - 1), massAt edges a.get idx = trapzAll edges a := by
  induction d with
  | zero =>
    simp only [trapzAll, massAt, validIdx]
    simp
    congr 1
    funext i; exact i.elim0
  | succ d ih =>
    rw [trapzAll, ← ih (trapzLast (edges.getD d []) a) (fun i => h i.castSucc), sum_validIdx_snoc]
    have hl := h (Fin.last d)
    simp only [Fin.val_last] at hl
    refine Finset.sum_congr rfl fun b _ => ?_
    simp only [massAt, trapzLast, hl]
    have hs : ∀ k, ∑ c ∈ validIdx (d := d + 1) (fun _ => 2),
        a.get (fun i => (Fin.snoc (α := fun _ => ℕ) b k : Fin (d+1) → ℕ) i + c i)
        = ∑ c ∈ validIdx (d := d) (fun _ => 2),
            (a.get (Fin.snoc (α := fun _ => ℕ) (fun i => b i + c i) (k + 1))
              + a.get (Fin.snoc (α := fun _ => ℕ) (fun i => b i + c i) k)) := by
      intro k
      rw [sum_validIdx_snoc]
      refine Finset.sum_congr rfl fun c _ => ?_
      rw [Finset.sum_range_succ, Finset.sum_range_one, add_comm]
      congr 2 <;>
      · funext i
        refine Fin.lastCases ?_ (fun j => ?_) i <;> simp
    simp only [hs]
    have hw : ∀ k, ∏ i : Fin (d + 1),
        (edgeAt edges i ((Fin.snoc (α := fun _ => ℕ) b k : Fin (d+1) → ℕ) i + 1)
          - edgeAt edges i ((Fin.snoc (α := fun _ => ℕ) b k : Fin (d+1) → ℕ) i))
        = (∏ i : Fin d, (edgeAt edges i (b i + 1) - edgeAt edges i (b i)))
            * (edgeAt edges d (k + 1) - edgeAt edges d k) := by
      intro k
      rw [Fin.prod_univ_castSucc]
      simp
    simp only [hw]
    rw [Finset.sum_comm, Finset.sum_div, Finset.sum_mul]
    refine Finset.sum_congr rfl fun k _ => ?_
    simp only [edgeAt, pow_succ]
    rw [← Finset.sum_div, ← Finset.mul_sum]
    field_simp

end field

/-- Telescoping. -/
lemma sum_diff_getD [AddCommGroup K] (l : List K) (h : l ≠ []) :
    ∑ k ∈ Finset.range (l.length - 1), (l.getD (k + 1) 0 - l.getD k 0)
      = l.getLast h - l.head h := by
  rw [Finset.sum_range_sub (fun k => l.getD k 0)]
  have hl : 0 < l.length := List.length_pos_iff.mpr h
  congr 1
  · rw [List.getLast_eq_getElem, List.getD_eq_getElem _ _ (by omega)]
  · rw [List.head_eq_getElem, List.getD_eq_getElem _ _ (by omega)]

/-- Sum of a product over a grid is a product of sums. -/
lemma sum_validIdx_prod [CommRing K] (shape : Fin d → ℕ) (f : Fin d → ℕ → K) :
    ∑ idx ∈ validIdx shape, ∏ i, f i (idx i) = ∏ i, ∑ k ∈ Finset.range (shape i), f i k := by
  rw [validIdx, Finset.prod_univ_sum]

/-! ### cumulative sums -/

/-- Prefix-sum box: axes in `S` range over `0..idx i`, others are fixed. -/
def prefixBox (S : Finset (Fin d)) (idx : Fin d → ℕ) : Finset (Fin d → ℕ) :=
  Fintype.piFinset fun i => if i ∈ S then Finset.range (idx i + 1) else {idx i}

lemma mem_prefixBox {S : Finset (Fin d)} {idx j : Fin d → ℕ} :
    j ∈ prefixBox S idx ↔ ∀ i, (i ∈ S → j i ≤ idx i) ∧ (i ∉ S → j i = idx i) := by
  simp only [prefixBox, Fintype.mem_piFinset]
  refine forall_congr' fun i => ?_
  by_cases h : i ∈ S <;> simp [h, Nat.lt_succ_iff]

lemma cumsumAxis_prefixBox [AddCommMonoid K] (S : Finset (Fin d)) (i : Fin d) (hi : i ∉ S)
    (f : (Fin d → ℕ) → K) (idx : Fin d → ℕ) :
    ∑ k ∈ Finset.range (idx i + 1), ∑ j ∈ prefixBox S (Function.update idx i k), f j
      = ∑ j ∈ prefixBox (insert i S) idx, f j := by
  rw [← Finset.sum_fiberwise_of_maps_to (s := prefixBox (insert i S) idx)
    (t := Finset.range (idx i + 1)) (g := fun j => j i)]
  · refine Finset.sum_congr rfl fun k hk => ?_
    refine Finset.sum_congr ?_ fun _ _ => rfl
    ext j
    simp only [mem_prefixBox, Finset.mem_filter, Finset.mem_insert]
    constructor
    · intro h
      refine ⟨fun a => ⟨fun ha => ?_, fun ha => ?_⟩, ?_⟩
      · rcases ha with rfl | ha
        · have := (h a).2 hi
          simp at this
          rw [this]; simpa [Nat.lt_succ_iff] using hk
        · have hne : a ≠ i := fun e => hi (e ▸ ha)
          simpa [hne] using (h a).1 ha
      · rw [not_or] at ha
        simpa [ha.1] using (h a).2 ha.2
      · simpa using (h i).2 hi
    · rintro ⟨h, rfl⟩ a
      refine ⟨fun ha => ?_, fun ha => ?_⟩
      · have hne : a ≠ i := fun e => hi (e ▸ ha)
        simpa [hne] using (h a).1 (Or.inr ha)
      · by_cases hne : a = i
        · subst hne; simp
        · simpa [hne] using (h a).2 (by simp [hne, ha])
  · intro j hj
    rw [mem_prefixBox] at hj
    have := (hj i).1 (Finset.mem_insert_self _ _)
    simpa [Nat.lt_succ_iff] using this

lemma foldl_cumsumAxis [AddCommMonoid K] (l : List (Fin d)) (hl : l.Nodup) (S : Finset (Fin d))
    (hS : ∀ i ∈ l, i ∉ S) (f : (Fin d → ℕ) → K) (a : NDArr d K)
    (ha : ∀ idx, a.get idx = ∑ j ∈ prefixBox S idx, f j) :
    (l.foldl (fun r i => r.cumsumAxis i) a).shape = a.shape ∧
    ∀ idx, (l.foldl (fun r i => r.cumsumAxis i) a).get idx
      = ∑ j ∈ prefixBox (S ∪ l.toFinset) idx, f j := by
  induction l generalizing S a with
  | nil => simpa using ha
  | cons i l ih =>
    rw [List.nodup_cons] at hl
    obtain ⟨h1, h2⟩ := ih hl.2 (insert i S) (by
      intro j hj
      rw [Finset.mem_insert, not_or]
      exact ⟨fun e => hl.1 (e ▸ hj), hS j (by simp [hj])⟩) (a.cumsumAxis i) (by
      intro idx
      simp only [NDArr.cumsumAxis, ha]
      exact cumsumAxis_prefixBox S i (hS i (by simp)) f idx)
    refine ⟨by rw [List.foldl_cons, h1]; rfl, fun idx => ?_⟩
    rw [List.foldl_cons, h2]
    congr 2
    ext x; simp

lemma cumsumNd_none [AddCommMonoid K] (a : NDArr d K) :
    (cumsumNd a none).shape = a.shape ∧
    ∀ idx, (cumsumNd a none).get idx = ∑ j ∈ Fintype.piFinset fun i => Finset.range (idx i + 1), a.get j := by
  have := foldl_cumsumAxis (List.finRange d).reverse (by simpa using List.nodup_finRange d) ∅
    (by simp) a.get a (by
      intro idx
      have : prefixBox ∅ idx = {idx} := by
        ext j; simp [mem_prefixBox, funext_iff]
      simp [this])
  refine ⟨this.1, fun idx => ?_⟩
  rw [cumsumNd, this.2]
  congr 1
  simp [prefixBox]

end Kalepy
