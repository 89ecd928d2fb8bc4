import Mathlib.Tactic.Ring
import Mathlib.Tactic.Linarith
import Mathlib.Data.List.GetD
import Mathlib.Algebra.Order.BigOperators.Group.List
import Mathlib.Algebra.Order.Floor.Ring
import Verif.Model.Np

/-!
# Lemmas about the numpy primitives
-/

namespace Kalepy

variable {K : Type*}

/-! ### sequencing -/

lemma finSeq_ok {α : Type*} {d : ℕ} {f : Fin d → Res α} {g : Fin d → α} :
    finSeq f = .ok g ↔ ∀ i, f i = .ok (g i) := by
  induction d with
  | zero =>
    refine ⟨fun _ i => i.elim0, fun _ => ?_⟩
    simp only [finSeq]
    congr 1
    funext i; exact i.elim0
  | succ d ih =>
    rw [finSeq]
    constructor
    · intro h
      cases h0 : f 0 with
      | error e => simp [h0] at h
      | ok a =>
        simp only [h0] at h
        cases hr : finSeq (fun i : Fin d => f i.succ) with
        | error e => simp [hr] at h
        | ok r =>
          simp only [hr] at h
          injection h with h
          subst h
          intro i
          refine Fin.cases ?_ (fun j => ?_) i
          · simpa using h0
          · simpa using (ih.mp hr) j
    · intro h
      have hr : finSeq (fun i : Fin d => f i.succ) = .ok fun i => g i.succ := ih.mpr fun i => h i.succ
      rw [h 0, hr]
      simp only
      congr 1
      funext i
      refine Fin.cases ?_ (fun j => ?_) i <;> simp

lemma listSeq_ok {α β : Type*} {f : α → Res β} {l : List α} {r : List β} :
    listSeq f l = .ok r ↔ List.Forall₂ (fun a b => f a = .ok b) l r := by
  induction l generalizing r with
  | nil =>
    simp only [listSeq, List.forall₂_nil_left_iff]
    constructor
    · intro h; injection h with h; exact h.symm
    · rintro rfl; rfl
  | cons a l ih =>
    rw [listSeq, List.forall₂_cons_left_iff]
    constructor
    · intro h
      cases ha : f a with
      | error e => simp [ha] at h
      | ok b =>
        simp only [ha] at h
        cases hl : listSeq f l with
        | error e => simp [hl] at h
        | ok r' =>
          simp only [hl] at h
          injection h with h
          exact ⟨b, r', rfl, ih.mp hl, h.symm⟩
    · rintro ⟨b, r', hb, hr, rfl⟩
      rw [hb, ih.mpr hr]

lemma listSeq_exists {α β : Type*} {f : α → Res β} {l : List α}
    (h : ∀ a ∈ l, ∃ b, f a = .ok b) : ∃ r, listSeq f l = .ok r := by
  induction l with
  | nil => exact ⟨[], rfl⟩
  | cons a l ih =>
    obtain ⟨b, hb⟩ := h a (by simp)
    obtain ⟨r, hr⟩ := ih fun x hx => h x (by simp [hx])
    exact ⟨b :: r, by rw [listSeq, hb, hr]⟩

lemma listSeq_length {α β : Type*} {f : α → Res β} {l : List α} {r : List β}
    (h : listSeq f l = .ok r) : r.length = l.length := (listSeq_ok.mp h).length_eq.symm

lemma listSeq_mem {α β : Type*} {f : α → Res β} {l : List α} {r : List β}
    (h : listSeq f l = .ok r) : ∀ b ∈ r, ∃ a ∈ l, f a = .ok b := by
  have := listSeq_ok.mp h
  clear h
  induction this with
  | nil => simp
  | cons hab _ ih =>
    intro b hb
    rcases List.mem_cons.mp hb with rfl | hb
    · exact ⟨_, by simp, hab⟩
    · obtain ⟨a, ha, h⟩ := ih b hb
      exact ⟨a, by simp [ha], h⟩

/-! ### indexing -/

lemma pyIndex_nat {α : Type*} (l : List α) (k : ℕ) (h : k < l.length) :
    pyIndex l (k : ℤ) = .ok l[k] := by
  simp [pyIndex, h]

lemma pyIndex_neg_one {α : Type*} (l : List α) (h : 0 < l.length) :
    pyIndex l (-1) = .ok (l[l.length - 1]'(by omega)) := by
  have h1 : ((l.length : ℤ) + -1).toNat = l.length - 1 := by omega
  have h2 : (0 : ℤ) ≤ (l.length : ℤ) + -1 := by omega
  simp only [pyIndex]
  rw [if_neg (by omega), if_pos h2, h1, List.getElem?_eq_getElem (by omega)]

lemma pyIndex_mem {α : Type*} {l : List α} {i : ℤ} {a : α} (h : pyIndex l i = .ok a) : a ∈ l := by
  unfold pyIndex at h
  split_ifs at h
  · cases hh : l[i.toNat]? with
    | none => simp [hh] at h
    | some b =>
      simp only [hh] at h
      injection h with h
      subst h
      exact List.mem_of_getElem? hh
  · cases hh : l[((l.length : ℤ) + i).toNat]? with
    | none => simp [hh] at h
    | some b =>
      simp only [hh] at h
      injection h with h
      subst h
      exact List.mem_of_getElem? hh

lemma pyIndex_out {α : Type*} (l : List α) (i : ℤ) (h : (l.length : ℤ) ≤ i) :
    pyIndex l i = .error .indexError := by
  simp only [pyIndex]
  rw [if_pos (by omega), List.getElem?_eq_none (by omega)]

/-! ### cumulative sums -/

lemma npCumsum_length [AddMonoid K] (l : List K) : (npCumsum l).length = l.length := by
  simp [npCumsum]

lemma npCumsum_getElem [AddMonoid K] (l : List K) (k : ℕ) (h : k < (npCumsum l).length) :
    (npCumsum l)[k] = (l.take (k + 1)).sum := by
  simp only [npCumsum, List.getElem_tail, List.getElem_scanl]
  rw [List.sum_eq_foldl]

/-- `concatenate([[0], cumsum])` at position `k` is the sum of the first `k` values. -/
lemma cons_cumsum_getElem [AddMonoid K] (l : List K) (k : ℕ) (h : k < (0 :: npCumsum l).length) :
    (0 :: npCumsum l)[k] = (l.take k).sum := by
  cases k with
  | zero => simp
  | succ k => rw [List.getElem_cons_succ, npCumsum_getElem]

lemma npCumsum_getLast? [AddMonoid K] (l : List K) :
    (npCumsum l).getLast? = if l = [] then none else some l.sum := by
  by_cases h : l = []
  · simp [h, npCumsum]
  · have hl : 0 < l.length := List.length_pos_iff.mpr h
    rw [if_neg h, List.getLast?_eq_getElem?, npCumsum_length,
      List.getElem?_eq_getElem (by rw [npCumsum_length]; omega), npCumsum_getElem,
      Nat.sub_add_cancel hl, List.take_length]

/-! ### searchsorted -/

lemma searchLeft_le_length [LinearOrder K] (a : List K) (v : K) : searchLeft a v ≤ a.length :=
  List.countP_le_length

lemma searchLeft_spec [LinearOrder K] {a : List K} (ha : a.Pairwise (· ≤ ·)) (v : K) :
    (∀ i (h : i < a.length), i < searchLeft a v → a[i] < v) ∧
    (∀ i (h : i < a.length), searchLeft a v ≤ i → v ≤ a[i]) := by
  induction a with
  | nil => simp
  | cons x l ih =>
    rw [List.pairwise_cons] at ha
    obtain ⟨h1, h2⟩ := ih ha.2
    by_cases hx : x < v
    · have hs : searchLeft (x :: l) v = searchLeft l v + 1 := by simp [searchLeft, hx]
      rw [hs]
      refine ⟨fun i h hi => ?_, fun i h hi => ?_⟩
      · cases i with
        | zero => simpa using hx
        | succ i => simpa using h1 i (by simpa using h) (by omega)
      · cases i with
        | zero => omega
        | succ i => simpa using h2 i (by simpa using h) (by omega)
    · have hx' := not_lt.mp hx
      have hall : ∀ y ∈ x :: l, v ≤ y := by
        intro y hy
        rcases List.mem_cons.mp hy with rfl | hy
        · exact hx'
        · exact hx'.trans (ha.1 y hy)
      have hs : searchLeft (x :: l) v = 0 := by
        rw [searchLeft, List.countP_eq_zero]
        intro y hy; simpa using hall y hy
      rw [hs]
      exact ⟨fun i h hi => absurd hi (by omega), fun i h _ => hall _ (List.getElem_mem h)⟩

lemma searchLeft_eq [LinearOrder K] {a : List K} (ha : a.Pairwise (· ≤ ·)) (v : K) (k : ℕ)
    (hk : k + 1 < a.length) (h1 : a[k] < v) (h2 : v ≤ a[k + 1]) : searchLeft a v = k + 1 := by
  obtain ⟨s1, s2⟩ := searchLeft_spec ha v
  apply le_antisymm
  · by_contra h
    exact absurd (s1 (k + 1) hk (by omega)) (not_lt.mpr h2)
  · by_contra h
    exact absurd (s2 k (by omega) (by omega)) (not_le.mpr h1)

/-! ### sorting -/

lemma npSort_perm [LinearOrder K] (l : List K) : (npSort l).Perm l := List.perm_insertionSort _ _

lemma npSort_length [LinearOrder K] (l : List K) : (npSort l).length = l.length :=
  (npSort_perm l).length_eq

lemma npSort_mem [LinearOrder K] (l : List K) (x : K) : x ∈ npSort l ↔ x ∈ l :=
  (npSort_perm l).mem_iff

lemma npSort_pairwise [LinearOrder K] (l : List K) : (npSort l).Pairwise (· ≤ ·) :=
  List.pairwise_insertionSort _ _

lemma list_map_getD_range [Zero K] (l : List K) :
    (List.range l.length).map (fun i => l.getD i 0) = l := by
  apply List.ext_getElem (by simp)
  intro i h1 h2
  simp [h2]

lemma IsArgsort.perm [LE K] [Zero K] {idx : List ℕ} {l : List K} (h : IsArgsort idx l) :
    (idx.map fun i => l.getD i 0).Perm l := by
  have := h.1.map (fun i => l.getD i 0)
  rwa [list_map_getD_range] at this

/-! ### rounding -/

lemma npAround_abs [Field K] [LinearOrder K] [IsStrictOrderedRing K] [FloorRing K] (x : K) :
    |(npAround x : K) - x| ≤ 1 / 2 := by
  have h0 := Int.floor_le x
  have h1 := Int.lt_floor_add_one x
  unfold npAround
  simp only
  rw [abs_le]
  split_ifs with a b c
  · constructor <;> linarith
  · push_cast; constructor <;> linarith
  · constructor <;> linarith
  · push_cast; constructor <;> linarith

lemma npAround_nonneg [Field K] [LinearOrder K] [IsStrictOrderedRing K] [FloorRing K] {x : K}
    (hx : 0 ≤ x) : 0 ≤ npAround x := by
  have h0 : 0 ≤ ⌊x⌋ := Int.floor_nonneg.mpr hx
  unfold npAround
  simp only
  split_ifs <;> omega

end Kalepy
