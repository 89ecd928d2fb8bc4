import Mathlib.Tactic.Linarith
import Mathlib.Tactic.Ring
import Mathlib.Tactic.FieldSimp
import Mathlib.Data.List.GetD
import Verif.Model.Plot
import Verif.Proofs.Np
import Verif.Proofs.NDArr
import Verif.Props.Levels

/-!
# C58: padding of histograms and bin centres
-/

namespace Kalepy

variable {K : Type*} [Field K] [LinearOrder K] [IsStrictOrderedRing K]

namespace Spec

/-- `r` are the edges `e` (two or more) with `pad` further edges on each side, in steps of the first and
last spacing. -/
def PaddedEdges (pad : ℕ) (e r : List K) : Prop :=
  r.length = e.length + 2 * pad ∧ (∀ k < e.length, r.getD (pad + k) 0 = e.getD k 0) ∧
  (∀ k < pad, r.getD (k + 1) 0 - r.getD k 0 = e.getD 1 0 - e.getD 0 0) ∧
  (∀ k < pad, r.getD (pad + e.length + k) 0 - r.getD (pad + e.length + k - 1) 0
    = e.getD (e.length - 1) 0 - e.getD (e.length - 2) 0)

/-- `b` is the array `a` with `pad` more cells on each side of every axis, all of value `v`. -/
def PaddedArr {d : ℕ} (pad : ℕ) (v : K) (a b : NDArr d K) : Prop :=
  (∀ i, b.shape i = a.shape i + 2 * pad) ∧
  (∀ idx, ValidIdx a.shape idx → b.get (fun i => pad + idx i) = a.get idx) ∧
  (∀ idx, (∃ i, idx i < pad ∨ pad + a.shape i ≤ idx i) → b.get idx = v)

end Spec

omit [LinearOrder K] [IsStrictOrderedRing K] in
lemma padEdges_getD (pad : ℕ) (e : List K) (he : 2 ≤ e.length) :
    ∃ r, padEdges pad e = .ok r ∧ r.length = e.length + 2 * pad ∧
      (∀ k < e.length, r.getD (pad + k) 0 = e.getD k 0) ∧
      (∀ k < pad, r.getD k 0 = e.getD 0 0 - ((pad : K) - k) * (e.getD 1 0 - e.getD 0 0)) ∧
      (∀ k < pad, r.getD (pad + e.length + k) 0
        = e.getD (e.length - 1) 0 + ((k : K) + 1) * (e.getD (e.length - 1) 0 - e.getD (e.length - 2) 0)) := by
  obtain ⟨a, b, l, rfl⟩ : ∃ a b l, e = a :: b :: l := by
    rcases e with _ | ⟨a, _ | ⟨b, l⟩⟩
    · simp at he
    · simp at he
    · exact ⟨a, b, l, rfl⟩
  have hlast : (b :: l).getLast?.getD 0 = (a :: b :: l).getD ((a :: b :: l).length - 1) 0 := by
    rw [List.getLast?_eq_getElem?]
    simp [List.getD_eq_getElem?_getD]
  have hprev : (a :: b :: l).dropLast.getLast?.getD 0 = (a :: b :: l).getD ((a :: b :: l).length - 2) 0 := by
    rw [List.getLast?_eq_getElem?, List.getElem?_dropLast, if_pos (by simp), List.getD_eq_getElem?_getD]
    simp
  refine ⟨_, rfl, ?_, ?_, ?_, ?_⟩
  · simp; ring
  · intro k hk
    rw [List.getD_append _ _ _ _ (by simp at hk ⊢; omega), List.getD_append_right _ _ _ _ (by simp)]
    simp
  · intro k hk
    rw [List.getD_append _ _ _ _ (by simp; omega), List.getD_append _ _ _ _ (by simpa using hk),
      List.getD_eq_getElem _ _ (by simpa using hk)]
    simp only [List.getElem_map, List.getElem_reverse, List.length_map, List.length_range, List.getElem_range]
    have : ((pad - 1 - k : ℕ) : K) = (pad : K) - 1 - k := by
      rw [Nat.cast_sub (by omega), Nat.cast_sub (by omega), Nat.cast_one]
    rw [this]
    simp only [List.getD_cons_zero, List.getD_cons_succ]
    ring
  · intro k hk
    rw [List.getD_append_right _ _ _ _ (by simp), List.getD_eq_getElem _ _ (by simp; omega)]
    simp only [List.getElem_map, List.getElem_range, hlast, hprev]
    congr 2
    congr 1
    simp

lemma padEdges_spec (pad : ℕ) (e : List K) (he : 2 ≤ e.length) :
    ∃ r, padEdges pad e = .ok r ∧ Spec.PaddedEdges pad e r ∧
      (e.Pairwise (· < ·) → r.Pairwise (· < ·)) := by
  obtain ⟨r, h, hl, hmid, hlo, hhi⟩ := padEdges_getD pad e he
  have hlo' : ∀ k < pad, r.getD (k + 1) 0 - r.getD k 0 = e.getD 1 0 - e.getD 0 0 := by
    intro k hk
    rw [hlo k hk]
    rcases Nat.lt_or_ge (k + 1) pad with h1 | h1
    · rw [hlo (k + 1) h1]; push_cast; ring
    · have e1 : k + 1 = pad + 0 := by omega
      rw [e1, hmid 0 (by omega)]
      have : (pad : K) = k + 1 := by exact_mod_cast (show pad = k + 1 by omega)
      rw [this]; ring
  have hhi' : ∀ k < pad, r.getD (pad + e.length + k) 0 - r.getD (pad + e.length + k - 1) 0
      = e.getD (e.length - 1) 0 - e.getD (e.length - 2) 0 := by
    intro k hk
    rw [hhi k hk]
    cases k with
    | zero =>
      have e1 : pad + e.length + 0 - 1 = pad + (e.length - 1) := by omega
      rw [e1, hmid (e.length - 1) (by omega)]; push_cast; ring
    | succ k =>
      have e1 : pad + e.length + (k + 1) - 1 = pad + e.length + k := by omega
      rw [e1, hhi k (by omega)]; push_cast; ring
  refine ⟨r, h, ⟨hl, hmid, hlo', hhi'⟩, ?_⟩
  intro hs
  have hs' : ∀ i j, i < j → j < e.length → e.getD i 0 < e.getD j 0 := by
    intro i j hij hj
    rw [List.getD_eq_getElem _ _ (by omega), List.getD_eq_getElem _ _ hj]
    exact List.pairwise_iff_getElem.mp hs i j (by omega) hj hij
  rw [← List.isChain_iff_pairwise, List.isChain_iff_getElem]
  intro k hk
  rw [← List.getD_eq_getElem r 0 (by omega), ← List.getD_eq_getElem r 0 hk]
  rcases Nat.lt_or_ge k pad with h1 | h1
  · have := hlo' k h1
    have := hs' 0 1 (by omega) (by omega)
    linarith
  · obtain ⟨j, rfl⟩ := Nat.exists_eq_add_of_le h1
    rcases Nat.lt_or_ge (j + 1) e.length with h2 | h2
    · rw [show pad + j + 1 = pad + (j + 1) by ring, hmid j (by omega), hmid (j + 1) h2]
      exact hs' j (j + 1) (by omega) h2
    · obtain ⟨m, hm⟩ := Nat.exists_eq_add_of_le h2
      have := hhi' m (by omega)
      rw [show pad + e.length + m = pad + j + 1 by omega, show pad + j + 1 - 1 = pad + j by omega] at this
      have := hs' (e.length - 2) (e.length - 1) (by omega) (by omega)
      linarith

omit [Field K] [LinearOrder K] [IsStrictOrderedRing K] in
lemma padNd_spec {d : ℕ} (pad : ℕ) (v : K) (a : NDArr d K) : Spec.PaddedArr pad v a (padNd pad v a) := by
  refine ⟨fun i => rfl, fun idx h => ?_, fun idx h => ?_⟩
  · simp only [padNd]
    rw [if_pos (fun i => ⟨by omega, by have := h i; omega⟩)]
    congr 1
    funext i
    omega
  · simp only [padNd]
    rw [if_neg]
    intro hall
    obtain ⟨i, hi⟩ := h
    have := hall i
    omega

/-- **C58.** For every histogram with at least one cell, in any number of dimensions, and edges with at least
two entries per dimension, `_pad_hist` returns: the histogram with `pad` more cells on each side of every
axis, whose value is the minimum of the histogram and whose middle is the given histogram; and for every
dimension the given edges in the middle of `pad` more on each side, continued with the first and last
spacing, so that increasing edges stay increasing. -/
theorem C58_pad {d : ℕ} (edges : List (List K)) (hist : NDArr d K) (pad : ℕ)
    (hne : ∃ idx, ValidIdx hist.shape idx) (he : ∀ e ∈ edges, 2 ≤ e.length) :
    ∃ ee hh v, padHist edges hist pad = .ok (ee, hh) ∧ Spec.PaddedArr pad v hist hh ∧
      (∃ idx, ValidIdx hist.shape idx ∧ hist.get idx = v) ∧
      (∀ idx, ValidIdx hist.shape idx → v ≤ hist.get idx) ∧
      ee.length = edges.length ∧ ∀ (i : ℕ) (e : List K), edges[i]? = some e →
        ∃ r, ee[i]? = some r ∧ Spec.PaddedEdges pad e r ∧ (e.Pairwise (· < ·) → r.Pairwise (· < ·)) := by
  obtain ⟨idx0, h0⟩ := hne
  have hmem := (NDArr.mem_flat hist (hist.get idx0)).mpr ⟨idx0, h0, rfl⟩
  obtain ⟨v, hv⟩ : ∃ v, hist.flat.min? = some v := by
    cases hm : hist.flat.min? with
    | none => rw [List.min?_eq_none_iff] at hm; rw [hm] at hmem; cases hmem
    | some v => exact ⟨v, rfl⟩
  have hv' := List.min?_eq_some_iff.mp hv
  have hseq : ∃ ee, listSeq (padEdges pad) edges = .ok ee :=
    listSeq_exists fun e h => (padEdges_spec pad e (he e h)).imp fun r hr => hr.1
  obtain ⟨ee, hee⟩ := hseq
  refine ⟨ee, padNd pad v hist, v, ?_, padNd_spec pad v hist, (NDArr.mem_flat hist v).mp hv'.1, ?_,
    listSeq_length hee, ?_⟩
  · unfold padHist
    rw [hv]
    simp only [hee]
  · intro idx h
    exact hv'.2 _ ((NDArr.mem_flat hist _).mpr ⟨idx, h, rfl⟩)
  · intro i e hi
    obtain ⟨hi1, hi2⟩ := List.getElem?_eq_some_iff.mp hi
    have hm : e ∈ edges := List.mem_of_getElem? hi
    obtain ⟨r, hr1, hr2, hr3⟩ := padEdges_spec pad e (he e hm)
    have hi3 : i < ee.length := by rw [listSeq_length hee]; exact hi1
    have := (List.forall₂_iff_get.mp (listSeq_ok.mp hee)).2 i hi1 hi3
    simp only [List.get_eq_getElem, hi2, hr1, Except.ok.injEq] at this
    refine ⟨r, ?_, hr2, hr3⟩
    rw [List.getElem?_eq_getElem hi3, ← this]

namespace Spec

/-- `c` are the `n` bin centres of edges `e`: either `e` has one more entry and they are the middles, or `e` already
lists the `n` centres. -/
def Centres (n : ℕ) (e c : List K) : Prop :=
  c.length = n ∧ (e.length = n ∧ c = e ∨
    e.length = n + 1 ∧ ∀ k < n, c.getD k 0 = (e.getD k 0 + e.getD (k + 1) 0) / 2)

end Spec

lemma midpoints1_spec (e : List K) (n : ℕ) (he : e.length = n + 1) (hn : 1 ≤ n) :
    ∃ c, midpoints1 e = .ok c ∧ Spec.Centres n e c ∧ (e.Pairwise (· < ·) → c.Pairwise (· < ·)) := by
  have hc : ∀ k (h : k < n), (List.zipWith (fun a b => 1 / 2 * (a + b)) e e.tail).getD k 0
      = (e.getD k 0 + e.getD (k + 1) 0) / 2 := by
    intro k h
    rw [List.getD_eq_getElem _ _ (by simp; omega), List.getElem_zipWith, List.getElem_tail,
      List.getD_eq_getElem _ _ (by omega), List.getD_eq_getElem _ _ (by omega)]
    ring
  have hl : (List.zipWith (fun a b => 1 / 2 * (a + b)) e e.tail).length = n := by simp; omega
  refine ⟨_, if_neg (by omega), ⟨hl, Or.inr ⟨he, hc⟩⟩, ?_⟩
  intro hs
  rw [← List.isChain_iff_pairwise, List.isChain_iff_getElem]
  intro k hk
  rw [hl] at hk
  rw [← List.getD_eq_getElem _ 0, ← List.getD_eq_getElem _ 0, hc k (by omega), hc (k + 1) hk,
    List.getD_eq_getElem _ _ (by omega), List.getD_eq_getElem _ _ (by omega), List.getD_eq_getElem _ _ (by omega)]
  have h1 := List.pairwise_iff_getElem.mp hs k (k + 1) (by omega) (by omega) (by omega)
  have h2 := List.pairwise_iff_getElem.mp hs (k + 1) (k + 1 + 1) (by omega) (by omega) (by omega)
  linarith

omit [Field K] [LinearOrder K] [IsStrictOrderedRing K] in
lemma lengths_eq_ofFn {d : ℕ} (edges : List (List K)) (f : Fin d → ℕ) :
    edges.map List.length = List.ofFn f ↔
      edges.length = d ∧ ∀ (i : Fin d) e, edges[(i : ℕ)]? = some e → e.length = f i := by
  constructor
  · intro h
    have hl : edges.length = d := by simpa using congrArg List.length h
    refine ⟨hl, fun i e he => ?_⟩
    have := congrArg (fun l => l[(i : ℕ)]?) h
    simp only [List.getElem?_map, he, Option.map_some, List.getElem?_ofFn, i.isLt, dif_pos] at this
    exact Option.some.inj this
  · rintro ⟨hl, h⟩
    apply List.ext_getElem
    · simp [hl]
    · intro i h1 h2
      simp only [List.length_ofFn] at h2
      rw [List.getElem_map, List.getElem_ofFn]
      exact h ⟨i, h2⟩ _ (by simp [hl, h2])

/-- **C58 (bin centres).** When every dimension lists either the centres of the bins or the (two or more) edges
around them, in all dimensions alike, `_match_edges_to_hist` returns the centres, increasing if the edges are;
any other combination of lengths raises `ValueError`. -/
theorem C58_match {d : ℕ} (edges : List (List K)) (hist : NDArr d K) (hn : ∀ i, 1 ≤ hist.shape i) :
    ((edges.length = d ∧ ((∀ (i : Fin d) e, edges[(i : ℕ)]? = some e → e.length = hist.shape i) ∨
        ∀ (i : Fin d) e, edges[(i : ℕ)]? = some e → e.length = hist.shape i + 1)) →
      ∃ cs, matchEdges edges hist = .ok cs ∧ cs.length = d ∧ ∀ (i : Fin d) e, edges[(i : ℕ)]? = some e →
        ∃ c, cs[(i : ℕ)]? = some c ∧ Spec.Centres (hist.shape i) e c ∧
          (e.Pairwise (· < ·) → c.Pairwise (· < ·))) ∧
    (¬ (edges.length = d ∧ ((∀ (i : Fin d) e, edges[(i : ℕ)]? = some e → e.length = hist.shape i) ∨
        ∀ (i : Fin d) e, edges[(i : ℕ)]? = some e → e.length = hist.shape i + 1)) →
      matchEdges edges hist = .error .valueError) := by
  constructor
  · rintro ⟨hl, hcase⟩
    by_cases h1 : edges.map List.length = List.ofFn hist.shape
    · refine ⟨edges, if_pos h1, hl, fun i e he => ⟨e, he, ?_, id⟩⟩
      have := ((lengths_eq_ofFn _ _).mp h1).2 i e he
      exact ⟨this, Or.inl ⟨this, rfl⟩⟩
    · have h2 : edges.map List.length = List.ofFn fun i => hist.shape i + 1 := by
        rcases hcase with h | h
        · exact absurd ((lengths_eq_ofFn _ _).mpr ⟨hl, h⟩) h1
        · exact (lengths_eq_ofFn _ _).mpr ⟨hl, h⟩
      have hlen := ((lengths_eq_ofFn _ _).mp h2).2
      obtain ⟨cs, hcs⟩ : ∃ cs, listSeq midpoints1 edges = .ok cs := by
        apply listSeq_exists
        intro e he
        obtain ⟨i, hi, rfl⟩ := List.mem_iff_getElem.mp he
        obtain ⟨c, hc, -⟩ := midpoints1_spec edges[i] _
          (hlen ⟨i, by omega⟩ _ (List.getElem?_eq_getElem hi)) (hn _)
        exact ⟨c, hc⟩
      refine ⟨cs, ?_, by rw [listSeq_length hcs, hl], ?_⟩
      · unfold matchEdges
        rw [if_neg h1, if_pos h2, hcs]
      · intro i e he
        obtain ⟨hi1, hi2⟩ := List.getElem?_eq_some_iff.mp he
        obtain ⟨c, hc, hc2, hc3⟩ := midpoints1_spec e _ (hlen i e he) (hn _)
        have hi3 : (i : ℕ) < cs.length := by rw [listSeq_length hcs]; exact hi1
        have := (List.forall₂_iff_get.mp (listSeq_ok.mp hcs)).2 i hi1 hi3
        simp only [List.get_eq_getElem, hi2, hc, Except.ok.injEq] at this
        exact ⟨c, by rw [List.getElem?_eq_getElem hi3, ← this], hc2, hc3⟩
  · intro h
    unfold matchEdges
    rw [if_neg, if_neg]
    · exact fun h2 => h ⟨((lengths_eq_ofFn _ _).mp h2).1, Or.inr ((lengths_eq_ofFn _ _).mp h2).2⟩
    · exact fun h1 => h ⟨((lengths_eq_ofFn _ _).mp h1).1, Or.inl ((lengths_eq_ofFn _ _).mp h1).2⟩

/-- **C58 (both steps).** Padding keeps edges and histogram matched: preparing a matched two-dimensional
histogram (without upsampling and smoothing) succeeds for every `pad`, and gives one centre for each cell of
the padded histogram, increasing in both dimensions if the edges are. -/
theorem C58_prep (edges : List (List K)) (hist : NDArr 2 K) (pad : ℕ) (hn : ∀ i, 1 ≤ hist.shape i)
    (he : ∀ e ∈ edges, 2 ≤ e.length ∧ e.Pairwise (· < ·))
    (hm : edges.length = 2 ∧ ((∀ (i : Fin 2) e, edges[(i : ℕ)]? = some e → e.length = hist.shape i) ∨
        ∀ (i : Fin 2) e, edges[(i : ℕ)]? = some e → e.length = hist.shape i + 1)) :
    ∃ cs hh, prepHist edges hist (.num pad) = .ok (cs, hh) ∧ (∀ i, hh.shape i = hist.shape i + 2 * pad) ∧
      cs.length = 2 ∧ ∀ (i : Fin 2) c, cs[(i : ℕ)]? = some c → c.length = hh.shape i ∧ c.Pairwise (· < ·) := by
  have key : ∀ (edges : List (List K)) (hist : NDArr 2 K), (∀ i, 1 ≤ hist.shape i) →
      (∀ e ∈ edges, e.Pairwise (· < ·)) →
      (edges.length = 2 ∧ ((∀ (i : Fin 2) e, edges[(i : ℕ)]? = some e → e.length = hist.shape i) ∨
        ∀ (i : Fin 2) e, edges[(i : ℕ)]? = some e → e.length = hist.shape i + 1)) →
      ∃ cs, matchEdges edges hist = .ok cs ∧ cs.length = 2 ∧
        ∀ (i : Fin 2) c, cs[(i : ℕ)]? = some c → c.length = hist.shape i ∧ c.Pairwise (· < ·) := by
    intro edges hist hn he hm
    obtain ⟨cs, h1, h2, h3⟩ := (C58_match edges hist hn).1 hm
    refine ⟨cs, h1, h2, fun i c hc => ?_⟩
    have hi : (i : ℕ) < edges.length := by rw [hm.1]; exact i.isLt
    obtain ⟨c', hc', hc2, hc3⟩ := h3 i edges[(i : ℕ)] (List.getElem?_eq_getElem hi)
    rw [hc'] at hc
    cases hc
    exact ⟨hc2.1, hc3 (he _ (List.getElem_mem hi))⟩
  cases pad with
  | zero =>
    obtain ⟨cs, h1, h2, h3⟩ := key edges hist hn (fun e h => (he e h).2) hm
    refine ⟨cs, hist, ?_, fun i => by simp, h2, h3⟩
    unfold prepHist
    simp only [padStep, h1]
  | succ n =>
    obtain ⟨ee, hh, v, h1, h2, -, -, h5, h6⟩ := C58_pad edges hist (n + 1)
      ⟨fun _ => 0, fun i => hn i⟩ fun e h => (he e h).1
    have hsel : ∀ (i : Fin 2) r, ee[(i : ℕ)]? = some r → ∃ e, edges[(i : ℕ)]? = some e ∧
        r.length = e.length + 2 * (n + 1) ∧ r.Pairwise (· < ·) := by
      intro i r hr
      have hi : (i : ℕ) < edges.length := by rw [hm.1]; exact i.isLt
      obtain ⟨r', hr', hr2, hr3⟩ := h6 i edges[(i : ℕ)] (List.getElem?_eq_getElem hi)
      rw [hr'] at hr
      cases hr
      exact ⟨_, List.getElem?_eq_getElem hi, hr2.1, hr3 (he _ (List.getElem_mem hi)).2⟩
    obtain ⟨cs, c1, c2, c3⟩ := key ee hh (fun i => by rw [h2.1 i]; have := hn i; omega)
      (by
        intro r hr
        obtain ⟨i, hi, rfl⟩ := List.mem_iff_getElem.mp hr
        obtain ⟨_, -, -, h⟩ := hsel ⟨i, by rw [h5, hm.1] at hi; exact hi⟩ _ (List.getElem?_eq_getElem hi)
        exact h)
      (by
        refine ⟨by rw [h5, hm.1], ?_⟩
        rcases hm.2 with h | h
        · left
          intro i r hr
          obtain ⟨e, e1, e2, -⟩ := hsel i r hr
          rw [e2, h2.1 i, h i e e1]
        · right
          intro i r hr
          obtain ⟨e, e1, e2, -⟩ := hsel i r hr
          rw [e2, h2.1 i, h i e e1]; omega)
    refine ⟨cs, hh, ?_, h2.1, c2, c3⟩
    unfold prepHist
    simp only [padStep, h1, c1]

/-- A 2 × 1 histogram with edges `[0, 1, 3]` and `[0, 2]` meets the hypotheses; padded by one, the edges of the
first dimension are `[-1, 0, 1, 3, 5]`. -/
example : padEdges 1 [0, 1, (3 : ℚ)] = .ok [-1, 0, 1, 3, 5] := by
  norm_num [padEdges]

example : ∃ (edges : List (List ℚ)) (hist : NDArr 2 ℚ), (∀ i, 1 ≤ hist.shape i) ∧
    (∀ e ∈ edges, 2 ≤ e.length ∧ e.Pairwise (· < ·)) ∧ edges.length = 2 ∧
    ∀ (i : Fin 2) e, edges[(i : ℕ)]? = some e → e.length = hist.shape i + 1 := by
  refine ⟨[[0, 1, 3], [0, 2]], ⟨![2, 1], fun idx => (idx 0 : ℚ)⟩, ?_, ?_, rfl, ?_⟩
  · intro i; fin_cases i <;> simp
  · intro e he
    simp only [List.mem_cons, List.not_mem_nil, or_false] at he
    rcases he with rfl | rfl <;> norm_num
  · intro i e he
    fin_cases i <;> simp at he <;> subst he <;> simp

end Kalepy
