import Verif.Model.Axes
import Verif.Props.Grid
import Verif.Props.Params
import Verif.Props.Dist2dOk

/-!
# C168: integrating along chosen axes
-/

namespace Kalepy

variable {d : ℕ} {K : Type*}

/-! ## Specification -/

/-- The one-dimensional trapezoid rule along axis `i`, for fixed positions along the other axes. -/
def Spec.trapzAlong [Field K] (edges : List (List K)) (i : Fin d) (g : (Fin d → ℕ) → K) : (Fin d → ℕ) → K := fun idx =>
  ∑ k ∈ Finset.range ((edges.getD i []).length - 1),
    (edgeAt edges i (k + 1) - edgeAt edges i k) * (g (Function.update idx i k) + g (Function.update idx i (k + 1))) / 2

/-- `x` is the array over the axes outside of `S`, in their order, of lengths `shape` and with values `g`. -/
def Spec.Remaining (shape : Fin d → ℕ) (x : AnyArr K) (S : Finset (Fin d)) (g : (Fin d → ℕ) → K) : Prop :=
  ∃ f : Fin x.ndim → Fin d, StrictMono f ∧ (∀ i, (∃ j, f j = i) ↔ i ∉ S) ∧ (∀ j, x.arr.shape j = shape (f j)) ∧
    ∀ idx : Fin d → ℕ, x.arr.get (fun j => idx (f j)) = g idx

/-- The sum of the first `n i` values along axis `i`. -/
def Spec.sumAlong [AddCommMonoid K] (n : Fin d → ℕ) (i : Fin d) (g : (Fin d → ℕ) → K) : (Fin d → ℕ) → K := fun idx =>
  ∑ k ∈ Finset.range (n i), g (Function.update idx i k)

/-! ## The order of the axes -/

lemma trapzAlong_comm [Field K] (edges : List (List K)) (i j : Fin d) (g : (Fin d → ℕ) → K) :
    Spec.trapzAlong edges i (Spec.trapzAlong edges j g) = Spec.trapzAlong edges j (Spec.trapzAlong edges i g) := by
  by_cases h : i = j
  · rw [h]
  · funext idx
    simp only [Spec.trapzAlong]
    simp only [← Finset.sum_add_distrib, Finset.mul_sum, Finset.sum_div]
    rw [Finset.sum_comm]
    refine Finset.sum_congr rfl fun k _ => Finset.sum_congr rfl fun m _ => ?_
    simp only [Function.update_comm h]
    ring

lemma trapz_perm [Field K] (edges : List (List K)) {l l' : List (Fin d)} (h : l.Perm l') (g : (Fin d → ℕ) → K) :
    l.foldr (Spec.trapzAlong edges) g = l'.foldr (Spec.trapzAlong edges) g :=
  h.foldr_eq' (fun x _ y _ z => trapzAlong_comm edges y x z) g

/-! ## One step of the loop -/

lemma remaining_card {shape : Fin d → ℕ} {x : AnyArr K} {S : Finset (Fin d)} {g : (Fin d → ℕ) → K}
    (h : Spec.Remaining shape x S g) : x.ndim + S.card = d := by
  obtain ⟨f, hf, hr, -, -⟩ := h
  have h1 : (Finset.univ.image f) = Sᶜ := by
    ext i
    simp only [Finset.mem_image, Finset.mem_univ, true_and, Finset.mem_compl]
    exact hr i
  have h2 := Finset.card_image_of_injective Finset.univ hf.injective
  rw [h1, Finset.card_compl, Finset.card_univ, Fintype.card_fin, Fintype.card_fin] at h2
  have h3 := Finset.card_le_univ S
  rw [Fintype.card_fin] at h3
  omega

lemma remaining_pos {n : ℕ} {f : Fin n → Fin d} (hf : StrictMono f) {S : Finset (Fin d)}
    (hr : ∀ i, (∃ j, f j = i) ↔ i ∉ S) (j : Fin n) : (j : ℕ) + (S.filter (· < f j)).card = f j := by
  have h1 : (Finset.Iio j).image f = (Finset.Iio (f j)).filter (· ∉ S) := by
    ext i
    simp only [Finset.mem_image, Finset.mem_Iio, Finset.mem_filter]
    constructor
    · rintro ⟨k, hk, rfl⟩
      exact ⟨hf hk, (hr _).mp ⟨k, rfl⟩⟩
    · rintro ⟨h, hS⟩
      obtain ⟨k, rfl⟩ := (hr i).mpr hS
      exact ⟨k, hf.lt_iff_lt.mp h, rfl⟩
  have h2 := Finset.card_image_of_injective (Finset.Iio j) hf.injective
  rw [h1, Fin.card_Iio] at h2
  have h3 := Finset.card_filter_add_card_filter_not (s := Finset.Iio (f j)) (· ∈ S)
  rw [Fin.card_Iio] at h3
  have h4 : (Finset.Iio (f j)).filter (· ∈ S) = S.filter (· < f j) := by
    ext i
    simp [and_comm]
  rw [h4] at h3
  omega

lemma trapz_step [Field K] {shape : Fin d → ℕ} {edges : List (List K)} (he : EdgesMatch shape edges) {n : ℕ}
    {arr : NDArr (n + 1) K} {S : Finset (Fin d)} {g : (Fin d → ℕ) → K} {f : Fin (n + 1) → Fin d} (hf : StrictMono f)
    (hr : ∀ i, (∃ j, f j = i) ↔ i ∉ S) (hs : ∀ j, arr.shape j = shape (f j))
    (hg : ∀ idx : Fin d → ℕ, arr.get (fun j => idx (f j)) = g idx) (i : Fin (n + 1)) :
    ∃ r, trapzAxis (edges.getD (f i) []) i arr = .ok r ∧
      Spec.Remaining shape (⟨n, r⟩ : AnyArr K) (insert (f i) S) (Spec.trapzAlong edges (f i) g) := by
  have hl : (edges.getD (f i) []).length - 1 = arr.shape i - 1 := by rw [he.2, hs]
  refine ⟨_, if_pos (Or.inl hl), fun j => f (i.succAbove j), hf.comp (Fin.strictMono_succAbove i), ?_, ?_, ?_⟩
  · intro p
    rw [Finset.mem_insert, not_or, ← hr p]
    constructor
    · rintro ⟨j, rfl⟩
      exact ⟨fun h => Fin.succAbove_ne i j (hf.injective h), _, rfl⟩
    · rintro ⟨hp, j, rfl⟩
      obtain ⟨k, rfl⟩ := Fin.exists_succAbove_eq (show j ≠ i from fun h => hp (by rw [h]))
      exact ⟨k, rfl⟩
  · intro j
    exact hs _
  · intro idx
    dsimp only
    rw [Spec.trapzAlong, hl]
    have hup : ∀ k, arr.get (i.insertNth (α := fun _ => ℕ) k fun j => idx (f (i.succAbove j))) = g (Function.update idx (f i) k) := by
      intro k
      rw [← hg]
      congr 1
      funext j
      rcases eq_or_ne j i with rfl | hj
      · simp
      · obtain ⟨m, rfl⟩ := Fin.exists_succAbove_eq hj
        rw [Fin.insertNth_apply_succAbove, Function.update_of_ne fun h => hj (hf.injective h)]
    simp only [hup]
    have hN : (if arr.shape i - 1 = 1 then arr.shape i - 1 else arr.shape i - 1) = arr.shape i - 1 := by simp
    rw [hN]
    refine Finset.sum_congr rfl fun k hk => ?_
    rw [Finset.mem_range] at hk
    have hk0 : (if arr.shape i - 1 = 1 then 0 else k) = k := by split_ifs <;> omega
    rw [hk0, edgeAt, edgeAt, add_comm (g _)]

/-! ## Axes numbered from the front -/

lemma trapzLoop_desc [Field K] {shape : Fin d → ℕ} {edges : List (List K)} (he : EdgesMatch shape edges) (l : List (Fin d))
    (rest : List ℤ) : ∀ (x : AnyArr K) (S : Finset (Fin d)) (g : (Fin d → ℕ) → K), Spec.Remaining shape x S g →
    l.Pairwise (· > ·) → (∀ i ∈ l, ∀ s ∈ S, i < s) →
    ∃ y, trapzLoop edges (l.map (fun i : Fin d => ((i : ℕ) : ℤ)) ++ rest) x = trapzLoop edges rest y ∧
      Spec.Remaining shape y (S ∪ l.toFinset) (l.foldl (fun g i => Spec.trapzAlong edges i g) g) := by
  induction l with
  | nil => intro x S g hx _ _; exact ⟨x, rfl, by simpa using hx⟩
  | cons i l ih =>
    intro x S g hx hp hS
    rw [List.pairwise_cons] at hp
    have hiS : i ∉ S := fun h => lt_irrefl _ (hS i (by simp) i h)
    obtain ⟨n, arr⟩ := x
    obtain ⟨f, hf, hr, hs, hg⟩ := hx
    obtain ⟨j, hj⟩ := (hr i).mpr hiS
    have hpos := remaining_pos hf hr j
    have hemp : S.filter (· < f j) = ∅ := by
      rw [Finset.filter_eq_empty_iff]
      intro s hs
      rw [hj]
      exact not_lt.mpr (hS i (by simp) s hs).le
    rw [hemp, Finset.card_empty, add_zero, hj] at hpos
    cases n with
    | zero => exact j.elim0
    | succ n =>
      obtain ⟨r, hr1, hr2⟩ := trapz_step he hf hr hs hg j
      rw [hj] at hr1 hr2
      obtain ⟨y, hy1, hy2⟩ := ih ⟨n, r⟩ _ _ hr2 hp.2 (by
        intro q hq s hs
        rw [Finset.mem_insert] at hs
        rcases hs with rfl | hs
        · exact hp.1 q hq
        · exact hS q (by simp [hq]) s hs)
      refine ⟨y, ?_, ?_⟩
      · rw [← hy1, List.map_cons, List.cons_append, trapzLoop]
        have h1 : pyIndex edges ((i : ℕ) : ℤ) = .ok (edges.getD i []) :=
          pyIndex_names he.1 (Or.inl rfl) (by rw [List.getD_eq_getElem?_getD, List.getElem?_eq_getElem (by rw [he.1]; exact i.2)]; rfl)
        have h2 : dimIndex (n + 1) ((i : ℕ) : ℤ) = .ok j := by rw [← hpos]; exact dimIndex_names (Or.inl rfl)
        rw [h1]
        dsimp only
        rw [h2]
        dsimp only
        rw [hr1]
      · rw [List.foldl_cons]
        convert hy2 using 1
        ext q
        simp only [List.toFinset_cons, Finset.mem_union, Finset.mem_insert]
        tauto

lemma remaining_start (data : NDArr d K) : Spec.Remaining data.shape (⟨d, data⟩ : AnyArr K) ∅ data.get :=
  ⟨id, strictMono_id, by simp, fun _ => rfl, fun _ => rfl⟩

lemma sort_cast (l : List (Fin d)) :
    (l.map fun i : Fin d => ((i : ℕ) : ℤ)).insertionSort (· ≥ ·) = (l.insertionSort (· ≥ ·)).map fun i : Fin d => ((i : ℕ) : ℤ) := by
  symm
  apply List.map_insertionSort
  intro a _ b _
  simp

lemma sort_desc {l : List (Fin d)} (h : l.Nodup) : (l.insertionSort (· ≥ ·)).Pairwise (· > ·) := by
  have h1 := List.pairwise_insertionSort (· ≥ ·) l
  have h2 : (l.insertionSort (· ≥ ·)).Nodup := (List.perm_insertionSort _ l).nodup_iff.mpr h
  rw [List.nodup_iff_pairwise_ne] at h2
  exact (h1.and h2).imp fun ⟨ha, hb⟩ => lt_of_le_of_ne ha (Ne.symm hb)

/-- **C168**, `trapz_nd`: for distinct axes numbered from the front, in any order, the result is the array over the remaining axes
that holds the trapezoid rule applied along each of the given axes.  Missing: axes numbered from the end (`C168_Claim`), which is
false. -/
theorem C168_trapz_partial [Field K] {data : NDArr d K} {edges : List (List K)} (he : EdgesMatch data.shape edges) {l : List (Fin d)}
    (hl : l.Nodup) :
    ∃ x, trapzNdAxis data edges (some (l.map fun i : Fin d => ((i : ℕ) : ℤ))) = .ok x ∧
      Spec.Remaining data.shape x l.toFinset (l.foldr (Spec.trapzAlong edges) data.get) := by
  obtain ⟨y, h1, h2⟩ := trapzLoop_desc he (l.insertionSort (· ≥ ·)) [] _ _ _ (remaining_start data) (sort_desc hl) (by simp)
  refine ⟨y, ?_, ?_⟩
  · rw [trapzNdAxis, if_pos he, Option.getD_some, sort_cast, ← List.append_nil (List.map _ _), h1, trapzLoop]
  · have hp : (l.insertionSort (· ≥ ·)).Perm l := List.perm_insertionSort _ l
    rw [Finset.empty_union, List.toFinset_eq_of_perm _ _ hp] at h2
    rw [List.foldl_eq_foldr_reverse, trapz_perm edges ((List.reverse_perm _).trans hp)] at h2
    exact h2

/-- `axis=None` integrates along all axes: the total of `C38_mass_sum`. -/
theorem C168_all [Field K] (data : NDArr d K) (edges : List (List K)) {v : K} (h : trapzNd data edges = .ok v) :
    ∃ x, trapzNdAxis data edges none = .ok x ∧ x.ndim = 0 ∧ ∀ idx, x.arr.get idx = v := by
  unfold trapzNd at h
  split_ifs at h with he
  injection h with h
  have hsort : ((List.range d).map fun k : ℕ => (k : ℤ)).insertionSort (· ≥ ·) =
      ((List.range d).map fun k : ℕ => (k : ℤ)).reverse := by
    apply List.Perm.eq_of_pairwise' (List.pairwise_insertionSort _ _) _
      ((List.perm_insertionSort _ _).trans (List.reverse_perm _).symm)
    rw [List.pairwise_reverse, List.pairwise_map]
    exact List.pairwise_lt_range.imp fun h => by simpa using h.le
  have key : ∀ (n : ℕ) (a : NDArr n K), n ≤ edges.length → (∀ i : Fin n, (edges.getD i []).length = a.shape i) →
      ∃ x : AnyArr K, trapzLoop edges ((List.range n).map fun k : ℕ => (k : ℤ)).reverse ⟨n, a⟩ = .ok x ∧ x.ndim = 0 ∧
        ∀ idx, x.arr.get idx = trapzAll edges a := by
    intro n
    induction n with
    | zero =>
      intro a _ _
      refine ⟨⟨0, a⟩, rfl, rfl, fun idx => ?_⟩
      rw [trapzAll]
      congr 1
      funext i
      exact i.elim0
    | succ n ih =>
      intro a hn ha
      have h1 : pyIndex edges (n : ℤ) = .ok (edges.getD n []) := by
        rw [pyIndex_nat edges n (by omega), List.getD_eq_getElem?_getD, List.getElem?_eq_getElem (by omega)]
        rfl
      have h2 : dimIndex (n + 1) (n : ℤ) = .ok (Fin.last n) := dimIndex_names (Or.inl (by simp))
      have hl : (edges.getD n []).length = a.shape (Fin.last n) := ha (Fin.last n)
      have h3 : trapzAxis (edges.getD n []) (Fin.last n) a = .ok (trapzLast (edges.getD n []) a) := by
        unfold trapzAxis
        dsimp only
        rw [if_pos (Or.inl (by rw [hl]))]
        congr 1
        unfold trapzLast
        congr 1
        · funext j
          rw [Fin.succAbove_last]
        · funext idx
          rw [hl]
          have hN : (if a.shape (Fin.last n) - 1 = 1 then a.shape (Fin.last n) - 1 else a.shape (Fin.last n) - 1) =
            a.shape (Fin.last n) - 1 := by simp
          rw [hN]
          refine Finset.sum_congr rfl fun k hk => ?_
          rw [Finset.mem_range] at hk
          have hk0 : (if a.shape (Fin.last n) - 1 = 1 then 0 else k) = k := by split_ifs <;> omega
          rw [hk0, Fin.insertNth_last', Fin.insertNth_last']
      obtain ⟨x, hx1, hx2⟩ := ih (trapzLast (edges.getD n []) a) (by omega) fun i => ha i.castSucc
      refine ⟨x, ?_, hx2.1, fun idx => by rw [hx2.2 idx, trapzAll]⟩
      rw [List.range_succ, List.map_append, List.reverse_append, List.map_singleton, List.reverse_singleton, List.singleton_append,
        trapzLoop, h1]
      dsimp only
      rw [h2]
      dsimp only
      rw [h3]
      exact hx1
  rw [trapzNdAxis, if_pos he, Option.getD_none, hsort, ← h]
  exact key d data he.1.ge he.2

/-! ## Axes numbered from the end -/

/-- One axis may be numbered from the end if it is behind all others (`axis=-1`, `axis=[0, -1]`). -/
theorem C168_trapz_last [Field K] {data : NDArr d K} {edges : List (List K)} (he : EdgesMatch data.shape edges) {l : List (Fin d)}
    (hl : l.Nodup) {i : Fin d} (hi : ∀ j ∈ l, j < i) :
    ∃ x, trapzNdAxis data edges (some ((l.map fun j : Fin d => ((j : ℕ) : ℤ)) ++ [(i : ℤ) - d])) = .ok x ∧
      Spec.Remaining data.shape x (insert i l.toFinset) (Spec.trapzAlong edges i (l.foldr (Spec.trapzAlong edges) data.get)) := by
  have hperm : (l.insertionSort (· ≥ ·)).Perm l := List.perm_insertionSort _ l
  obtain ⟨y, h1, h2⟩ := trapzLoop_desc he (l.insertionSort (· ≥ ·)) [(i : ℤ) - d] _ _ _ (remaining_start data) (sort_desc hl) (by simp)
  rw [Finset.empty_union, List.toFinset_eq_of_perm _ _ hperm] at h2
  rw [List.foldl_eq_foldr_reverse, trapz_perm edges ((List.reverse_perm _).trans hperm)] at h2
  have hcard := remaining_card h2
  obtain ⟨n, arr⟩ := y
  obtain ⟨f, hf, hr, hs, hg⟩ := h2
  have hil : i ∉ l.toFinset := fun h => lt_irrefl _ (hi i (List.mem_toFinset.mp h))
  obtain ⟨j, hj⟩ := (hr i).mpr hil
  have hpos := remaining_pos hf hr j
  rw [hj, Finset.filter_true_of_mem fun q hq => hi q (List.mem_toFinset.mp hq)] at hpos
  dsimp only at hcard
  cases n with
  | zero => exact j.elim0
  | succ n =>
    obtain ⟨r, hr1, hr2⟩ := trapz_step he hf hr hs hg j
    rw [hj] at hr1 hr2
    refine ⟨⟨n, r⟩, ?_, hr2⟩
    have hsort : ((l.map fun j : Fin d => ((j : ℕ) : ℤ)) ++ [(i : ℤ) - d]).insertionSort (· ≥ ·) =
        ((l.insertionSort (· ≥ ·)).map fun j : Fin d => ((j : ℕ) : ℤ)) ++ [(i : ℤ) - d] := by
      apply List.Perm.eq_of_pairwise' (List.pairwise_insertionSort _ _) _
        ((List.perm_insertionSort _ _).trans (List.Perm.append_right _ (hperm.symm.map _)))
      rw [List.pairwise_append]
      refine ⟨?_, by simp, ?_⟩
      · rw [← sort_cast]
        exact List.pairwise_insertionSort _ _
      · intro a ha b hb
        rw [List.mem_map] at ha
        obtain ⟨q, -, rfl⟩ := ha
        rw [List.mem_singleton] at hb
        have := i.2
        omega
    rw [trapzNdAxis, if_pos he, Option.getD_some, hsort, h1, trapzLoop]
    have e1 : pyIndex edges ((i : ℤ) - d) = .ok (edges.getD i []) :=
      pyIndex_names he.1 (Or.inr rfl) (by rw [List.getD_eq_getElem?_getD, List.getElem?_eq_getElem (by rw [he.1]; exact i.2)]; rfl)
    have e2 : dimIndex (n + 1) ((i : ℤ) - d) = .ok j := dimIndex_names (Or.inr (by push_cast; omega))
    rw [e1]
    dsimp only
    rw [e2]
    dsimp only
    rw [hr1]
    rfl

/-- The full claim for `trapz_nd`: axes may be numbered from the end, as everywhere in numpy. -/
def C168_Claim : Prop :=
  ∀ (d : ℕ) (data : NDArr d ℚ) (edges : List (List ℚ)) (axis : List ℤ) (l : List (Fin d)), EdgesMatch data.shape edges → l.Nodup →
    List.Forall₂ Spec.Names axis l →
    ∃ x, trapzNdAxis data edges (some axis) = .ok x ∧
      Spec.Remaining data.shape x l.toFinset (l.foldr (Spec.trapzAlong edges) data.get)

/-- **C168**, refutation: `trapz_nd(data, edges, axis=[-1, -2])` of a three-dimensional array integrates along the last and the
*first* axis (with the edges of the second one): the second number is looked up among the two axes that are left. -/
theorem C168_refuted : ¬ C168_Claim := by
  intro h
  obtain ⟨x, hx, f, hf, hr, -, hg⟩ := h 3 ⟨![2, 2, 2], fun i => i 0⟩ [[0, 1], [0, 2], [0, 4]] [-1, -2] [2, 1]
    ⟨rfl, by intro i; fin_cases i <;> rfl⟩ (by decide)
    (.cons (Or.inr (by norm_num)) (.cons (Or.inr (by norm_num)) .nil))
  have h0 := hg ![0, 0, 0]
  have h1 : ∃ r : AnyArr ℚ, trapzNdAxis (⟨![2, 2, 2], fun i => i 0⟩ : NDArr 3 ℚ) [[0, 1], [0, 2], [0, 4]] (some [-1, -2]) = .ok r ∧
      ∀ idx, r.arr.get idx = 4 := by
    refine ⟨_, rfl, fun idx => ?_⟩
    have e : ∀ (k c : ℕ) (idx : Fin 1 → ℕ), Fin.succAboveCases (α := fun _ => ℕ) (2 : Fin 3) k (Fin.cons (α := fun _ => ℕ) c idx) 0 = c :=
      fun _ _ _ => rfl
    simp [Fin.insertNth]
    rw [e, e, e, e]
    norm_num
  obtain ⟨r, hr1, hr2⟩ := h1
  rw [hx] at hr1
  injection hr1 with hr1
  subst hr1
  rw [hr2] at h0
  simp [Spec.trapzAlong, edgeAt] at h0

/-! ## Masses -/

lemma npDelete_nat {α : Type*} (l : List α) (k : ℕ) (h : k < l.length) : npDelete l (k : ℤ) = .ok (l.eraseIdx k) := by
  rw [npDelete, if_pos ⟨by omega, by omega⟩, Int.toNat_natCast]

/-- Deleting positions in descending order removes exactly these numbers. -/
lemma notAxis_desc (l : List (Fin d)) : ∀ (r : List (Fin d)) (b : ℕ), l.Pairwise (· > ·) → (∀ i ∈ l, (i : ℕ) < b) → r.Pairwise (· < ·) →
    (∀ k < b, ∀ h : k < d, r[k]? = some ⟨k, h⟩) →
    ∃ r', (l.map fun i : Fin d => ((i : ℕ) : ℤ)).foldlM (fun l z => npDelete l z) r = .ok r' ∧ ∀ i, i ∈ r' ↔ i ∈ r ∧ i ∉ l := by
  induction l with
  | nil => intro r b _ _ _ _; exact ⟨r, rfl, by simp⟩
  | cons i l ih =>
    intro r b hl hb hr hk
    rw [List.pairwise_cons] at hl
    have hi := hk i (hb i (by simp)) i.2
    have hlen : (i : ℕ) < r.length := by
      by_contra hc
      rw [List.getElem?_eq_none (by omega)] at hi
      exact absurd hi (by simp)
    obtain ⟨r', h1, h2⟩ := ih (r.eraseIdx i) i hl.2 (fun q hq => hl.1 q hq) (hr.sublist (List.eraseIdx_sublist _ _)) (by
      intro k hki hkd
      rw [List.getElem?_eraseIdx_of_lt hki]
      exact hk k (hki.trans (hb i (by simp))) hkd)
    refine ⟨r', ?_, fun q => ?_⟩
    · rw [List.map_cons, List.foldlM_cons, npDelete_nat r i hlen]
      exact h1
    · rw [h2, List.mem_cons, not_or]
      have hnd : r.Nodup := hr.imp fun h => ne_of_lt h
      have hge : r[(i : ℕ)] = i := by
        rw [List.getElem?_eq_getElem hlen] at hi
        exact Option.some.inj hi
      have he : q ∈ r.eraseIdx i ↔ q ∈ r ∧ q ≠ i := by
        rw [← hnd.erase_getElem i hlen, hge, hnd.mem_erase_iff, and_comm]
      rw [he]
      tauto

/-- **C168**, `trapz_dens_to_mass`: a list of distinct axes numbered from the front means the set of these axes, in any order.  Missing: axes
numbered from the end (`C168_MassClaim`), which is false. -/
theorem C168_mass_partial [Field K] (pdf : NDArr d K) (edges : List (List K)) {l : List (Fin d)} (hl : l.Nodup) :
    trapzDensToMassAxis pdf edges (some (l.map fun i : Fin d => ((i : ℕ) : ℤ))) = trapzDensToMass pdf edges l.toFinset := by
  unfold trapzDensToMassAxis trapzDensToMass
  dsimp only [Option.getD_some]
  by_cases he : EdgesMatch pdf.shape edges
  · rw [if_pos he, if_pos he]
    have hperm : (l.insertionSort (· ≥ ·)).Perm l := List.perm_insertionSort _ l
    obtain ⟨r, h1, h2⟩ := notAxis_desc (l.insertionSort (· ≥ ·)) (List.finRange d) d (sort_desc hl) (fun i _ => i.2)
      (List.pairwise_lt_finRange d) (fun k _ h => by simp [h])
    have h3 : notAxis d (l.map fun i : Fin d => ((i : ℕ) : ℤ)) = .ok r := by rw [notAxis, sort_cast]; exact h1
    have hgiven : (Finset.univ.filter fun i : Fin d => ((i : ℕ) : ℤ) ∈ l.map fun i : Fin d => ((i : ℕ) : ℤ)) = l.toFinset := by
      ext i
      simp only [Finset.mem_filter, Finset.mem_univ, true_and, List.mem_map, List.mem_toFinset]
      constructor
      · rintro ⟨j, hj, e⟩
        have : j = i := Fin.ext (by exact_mod_cast e)
        exact this ▸ hj
      · exact fun h => ⟨i, h, rfl⟩
    have hcut : (Finset.univ.filter fun i : Fin d => i ∉ r) = l.toFinset := by
      ext i
      simp only [Finset.mem_filter, Finset.mem_univ, true_and, List.mem_toFinset, h2, List.mem_finRange, hperm.mem_iff, not_not]
    rw [h3]
    dsimp only
    rw [hgiven, hcut, List.length_map, ← List.toFinset_card_of_nodup hl]
    by_cases h4 : ∃ i ∈ l.toFinset, pdf.shape i = 0
    · rw [if_pos h4, if_pos h4]
    · rw [if_neg h4, if_neg h4, if_pos fun i => Or.inl rfl]
      congr 2
      funext idx
      congr 1
      refine Finset.sum_congr rfl fun c _ => ?_
      congr 2
      funext i
      rw [if_neg (by tauto)]
  · rw [if_neg he, if_neg he]

/-- `axis=None` means all axes. -/
theorem C168_mass_all [Field K] (pdf : NDArr d K) (edges : List (List K)) :
    trapzDensToMassAxis pdf edges none = trapzDensToMass pdf edges Finset.univ := by
  have h := C168_mass_partial pdf edges (List.nodup_finRange d)
  rw [List.toFinset_finRange] at h
  rw [← h]
  unfold trapzDensToMassAxis
  have e : (List.range d).map (fun k : ℕ => (k : ℤ)) = (List.finRange d).map fun i : Fin d => ((i : ℕ) : ℤ) := by
    rw [← List.map_coe_finRange_eq_range, List.map_map]
    rfl
  rw [Option.getD_none, Option.getD_some, e]

/-- One axis numbered from the end: `ValueError`, unless the axis has exactly two values (or none); then the result has
the wrong shape, and the mean of the two values instead of their integral. -/
theorem C168_mass_negative [Field K] {pdf : NDArr d K} {edges : List (List K)} (he : EdgesMatch pdf.shape edges) (i : Fin d) :
    (pdf.shape i ≠ 0 → pdf.shape i ≠ 2 → trapzDensToMassAxis pdf edges (some [(i : ℤ) - d]) = .error .valueError) ∧
    (pdf.shape i = 2 → ∃ M, trapzDensToMassAxis pdf edges (some [(i : ℤ) - d]) = .ok M ∧ M.shape = pdf.shape ∧
      ∀ idx, M.get idx = (pdf.get (Function.update idx i 0) + pdf.get (Function.update idx i 1)) / 2) := by
  have hi := i.2
  have hrest : notAxis d [(i : ℤ) - d] = .ok ((List.finRange d).eraseIdx i) := by
    have e : npDelete (List.finRange d) ((i : ℤ) - d) = .ok ((List.finRange d).eraseIdx i) := by
      rw [npDelete, if_neg (by omega), if_pos ⟨by omega, by rw [List.length_finRange]; omega⟩, List.length_finRange]
      congr 2
      omega
    rw [notAxis, List.insertionSort_cons, List.insertionSort_nil, List.orderedInsert_nil, List.foldlM_cons, e]
    rfl
  have hgiven : (Finset.univ.filter fun j : Fin d => ((j : ℕ) : ℤ) ∈ [(i : ℤ) - d]) = ∅ := by
    rw [Finset.filter_eq_empty_iff]
    intro j _ hj
    rw [List.mem_singleton] at hj
    omega
  have hcut : (Finset.univ.filter fun j : Fin d => j ∉ (List.finRange d).eraseIdx i) = {i} := by
    ext j
    rw [Finset.mem_filter, ← (List.nodup_finRange d).erase_getElem i (by simp), (List.nodup_finRange d).mem_erase_iff]
    simp
  have hex : ¬ ∃ j ∈ (∅ : Finset (Fin d)), pdf.shape j = 0 := by simp
  unfold trapzDensToMassAxis
  dsimp only [Option.getD_some]
  rw [if_pos he, hrest]
  dsimp only
  rw [hgiven, hcut, if_neg hex]
  constructor
  · intro h0 h2
    rw [if_neg]
    intro h
    have := h i
    simp only [Finset.mem_singleton, if_true, Finset.notMem_empty, if_false] at this
    omega
  · intro h2
    rw [if_pos]
    · refine ⟨_, rfl, by simp, fun idx => ?_⟩
      have hcorn : corners ({i} : Finset (Fin d)) = {fun _ => 0, Function.update (fun _ => 0) i 1} := by
        ext c
        simp only [corners, Finset.mem_filter, mem_validIdx, Finset.mem_singleton, Finset.mem_insert]
        constructor
        · rintro ⟨h1, h3⟩
          have hlt : c i < 2 := h1 i
          rcases (by omega : c i = 0 ∨ c i = 1) with h | h
          · left
            funext j
            by_cases hj : j = i
            · rw [hj, h]
            · exact h3 j hj
          · right
            funext j
            by_cases hj : j = i
            · subst hj; simp [h]
            · rw [Function.update_of_ne hj]; exact h3 j hj
        · rintro (rfl | rfl)
          · exact ⟨fun _ => by norm_num, fun _ _ => rfl⟩
          · refine ⟨fun j => ?_, fun j hj => by rw [Function.update_of_ne hj]⟩
            by_cases hj : j = i
            · subst hj; simp
            · rw [Function.update_of_ne hj]; norm_num
      have hne : (fun _ : Fin d => 0) ≠ Function.update (fun _ => 0) i 1 := by
        intro h
        have := congrFun h i
        simp at this
      dsimp only
      rw [hcorn, Finset.sum_pair hne]
      have hw : ∏ j : Fin d, binWidth edges ∅ j (idx j) = 1 := by simp [binWidth]
      rw [hw, mul_one, mul_one, List.length_singleton, pow_one]
      have hidx : ∀ c : Fin d → ℕ, c = (fun _ => 0) ∨ c = Function.update (fun _ => 0) i 1 →
          (fun j => (if (if j ∈ ({i} : Finset (Fin d)) then pdf.shape j - 1 else pdf.shape j) = 1 ∧
            (if j ∈ (∅ : Finset (Fin d)) then pdf.shape j - 1 else pdf.shape j) ≠ 1 then 0 else idx j) + c j) =
          Function.update idx i (c i) := by
        intro c hc
        funext j
        by_cases hj : j = i
        · subst hj
          simp [h2]
        · rw [Function.update_of_ne hj]
          have hc0 : c j = 0 := by
            rcases hc with rfl | rfl
            · rfl
            · rw [Function.update_of_ne hj]
          rw [hc0, if_neg, add_zero]
          simp only [Finset.mem_singleton, hj, if_false, Finset.notMem_empty]
          tauto
      rw [hidx _ (Or.inl rfl), hidx _ (Or.inr rfl), Function.update_self]
    · intro j
      by_cases hj : j = i
      · subst hj; right; simp [h2]
      · left; simp [hj]

/-- The full claim for `trapz_dens_to_mass`: axes may be numbered from the end. -/
def C168_MassClaim : Prop :=
  ∀ (d : ℕ) (pdf : NDArr d ℚ) (edges : List (List ℚ)) (axis : List ℤ) (l : List (Fin d)), l.Nodup →
    List.Forall₂ Spec.Names axis l → trapzDensToMassAxis pdf edges (some axis) = trapzDensToMass pdf edges l.toFinset

/-- **C168**, refutation: `trapz_dens_to_mass([1, 1], [0, 3], axis=-1)` returns the two numbers `[1, 1]` instead of the one mass
`[3]`. -/
theorem C168_mass_refuted : ¬ C168_MassClaim := by
  intro h
  have he : EdgesMatch (⟨![2], fun _ => 1⟩ : NDArr 1 ℚ).shape ([[0, 3]] : List (List ℚ)) := ⟨rfl, by intro i; fin_cases i; rfl⟩
  have h1 := h 1 ⟨![2], fun _ => 1⟩ [[0, 3]] [-1] [0] (by simp) (.cons (Or.inr (by norm_num)) .nil)
  obtain ⟨M, hM, hs, -⟩ := (C168_mass_negative (pdf := (⟨![2], fun _ => 1⟩ : NDArr 1 ℚ)) he 0).2 rfl
  rw [show ((0 : Fin 1) : ℤ) - (1 : ℕ) = -1 from rfl] at hM
  rw [hM, trapzDensToMass, if_pos he, if_neg (by simp)] at h1
  injection h1 with h1
  rw [h1] at hs
  have := congrFun hs 0
  simp at this

/-! ## Masses add up to integrals -/

lemma sumAlong_comm [AddCommMonoid K] (n : Fin d → ℕ) {i j : Fin d} (h : i ≠ j) (g : (Fin d → ℕ) → K) :
    Spec.sumAlong n i (Spec.sumAlong n j g) = Spec.sumAlong n j (Spec.sumAlong n i g) := by
  funext idx
  simp only [Spec.sumAlong]
  rw [Finset.sum_comm]
  simp only [Function.update_comm h]

lemma sumAlong_trapz [Field K] (edges : List (List K)) (n : Fin d → ℕ) {i j : Fin d} (h : i ≠ j) (g : (Fin d → ℕ) → K) :
    Spec.sumAlong n j (Spec.trapzAlong edges i g) = Spec.trapzAlong edges i (Spec.sumAlong n j g) := by
  funext idx
  simp only [Spec.sumAlong, Spec.trapzAlong]
  rw [Finset.sum_comm]
  refine Finset.sum_congr rfl fun k _ => ?_
  rw [← Finset.sum_add_distrib, Finset.mul_sum, Finset.sum_div]
  simp only [Function.update_comm h]

/-- The mass of a cell along some axes. -/
def massAlong [Field K] (edges : List (List K)) (S : Finset (Fin d)) (g : (Fin d → ℕ) → K) (idx : Fin d → ℕ) : K :=
  (∑ c ∈ corners S, g (fun i => idx i + c i) * ∏ i, binWidth edges S i (idx i)) / 2 ^ S.card

lemma massAlong_insert [Field K] (edges : List (List K)) {i : Fin d} {S : Finset (Fin d)} (hi : i ∉ S) (g : (Fin d → ℕ) → K)
    (idx : Fin d → ℕ) : massAlong edges (insert i S) g idx = (edgeAt edges i (idx i + 1) - edgeAt edges i (idx i)) *
      (massAlong edges S g idx + massAlong edges S g (Function.update idx i (idx i + 1))) / 2 := by
  have hw : ∀ idx' : Fin d → ℕ, (∀ j, j ≠ i → idx' j = idx j) →
      ∏ j, binWidth edges S j (idx' j) = ∏ j ∈ Finset.univ.erase i, binWidth edges S j (idx j) := by
    intro idx' h
    rw [← Finset.mul_prod_erase Finset.univ _ (Finset.mem_univ i), binWidth, if_neg hi, one_mul]
    exact Finset.prod_congr rfl fun j hj => by rw [h j (Finset.ne_of_mem_erase hj)]
  have hw1 : ∏ j, binWidth edges (insert i S) j (idx j) = (edgeAt edges i (idx i + 1) - edgeAt edges i (idx i)) *
      ∏ j ∈ Finset.univ.erase i, binWidth edges S j (idx j) := by
    rw [← Finset.mul_prod_erase Finset.univ _ (Finset.mem_univ i)]
    congr 1
    · rw [binWidth, if_pos (Finset.mem_insert_self _ _)]
    · refine Finset.prod_congr rfl fun j hj => ?_
      simp [binWidth, Finset.ne_of_mem_erase hj]
  unfold massAlong
  rw [corners_insert S i hi, hw1, hw idx fun _ _ => rfl, hw (Function.update idx i (idx i + 1)) fun j hj => Function.update_of_ne hj _ _,
    Finset.card_insert_of_notMem hi, Finset.sum_add_distrib, ← Finset.sum_mul, ← Finset.sum_mul, ← Finset.sum_mul, ← Finset.sum_mul,
    pow_succ]
  have hg : ∑ c ∈ corners S, g (fun j => idx j + Function.update c i 1 j) =
      ∑ c ∈ corners S, g (fun j => Function.update idx i (idx i + 1) j + c j) := by
    refine Finset.sum_congr rfl fun c hc => ?_
    congr 1
    funext j
    by_cases hj : j = i
    · subst hj
      have : c j = 0 := (Finset.mem_filter.mp hc).2 j hi
      simp [this]
    · rw [Function.update_of_ne hj, Function.update_of_ne hj]
  rw [hg]
  field_simp

/-- **C168**, masses and integrals: along distinct axes, the masses of `trapz_dens_to_mass` add up to the result of `trapz_nd` (see
`C168_trapz_partial`). -/
theorem C168_sum [Field K] {pdf M : NDArr d K} {edges : List (List K)} {l : List (Fin d)} (hl : l.Nodup)
    (h : trapzDensToMassAxis pdf edges (some (l.map fun i : Fin d => ((i : ℕ) : ℤ))) = .ok M) :
    l.foldr (Spec.sumAlong M.shape) M.get = l.foldr (Spec.trapzAlong edges) pdf.get := by
  rw [C168_mass_partial _ _ hl, trapzDensToMass] at h
  split_ifs at h with he h0
  injection h with h
  subst h
  dsimp only
  have hlen : ∀ i ∈ l, (if i ∈ l.toFinset then pdf.shape i - 1 else pdf.shape i) = (edges.getD i []).length - 1 := by
    intro i hi
    rw [if_pos (List.mem_toFinset.mpr hi), he.2]
  obtain ⟨n, hn⟩ : ∃ n : Fin d → ℕ, n = fun i => if i ∈ l.toFinset then pdf.shape i - 1 else pdf.shape i := ⟨_, rfl⟩
  have hlen' : ∀ i ∈ l, n i = (edges.getD i []).length - 1 := fun i hi => by rw [hn]; exact hlen i hi
  rw [← hn]
  change l.foldr (Spec.sumAlong n) (massAlong edges l.toFinset pdf.get) = _
  clear hn hlen h0 he
  induction l with
  | nil =>
    funext idx
    simp only [List.foldr_nil, massAlong, List.toFinset_nil, Finset.card_empty, pow_zero, div_one]
    have hc : corners (∅ : Finset (Fin d)) = {fun _ => 0} := by
      ext c
      simp only [corners, Finset.mem_filter, mem_validIdx, Finset.mem_singleton, Finset.notMem_empty, not_false_eq_true, true_imp_iff]
      constructor
      · rintro ⟨-, h⟩
        funext i
        exact h i
      · rintro rfl
        exact ⟨fun _ => by norm_num, fun _ => rfl⟩
    rw [hc, Finset.sum_singleton]
    simp [binWidth]
  | cons i l ih =>
    rw [List.nodup_cons] at hl
    have hS : i ∉ l.toFinset := fun h => hl.1 (List.mem_toFinset.mp h)
    have hcomm : ∀ (l' : List (Fin d)), i ∉ l' → ∀ g : (Fin d → ℕ) → K, Spec.sumAlong n i (l'.foldr (Spec.sumAlong n) g) =
        l'.foldr (Spec.sumAlong n) (Spec.sumAlong n i g) := by
      intro l' hl' g
      induction l' with
      | nil => rfl
      | cons j l' ih' =>
        rw [List.mem_cons, not_or] at hl'
        rw [List.foldr_cons, List.foldr_cons, sumAlong_comm n hl'.1, ih' hl'.2]
    have hcomm2 : ∀ (l' : List (Fin d)), i ∉ l' → ∀ g : (Fin d → ℕ) → K, l'.foldr (Spec.sumAlong n) (Spec.trapzAlong edges i g) =
        Spec.trapzAlong edges i (l'.foldr (Spec.sumAlong n) g) := by
      intro l' hl' g
      induction l' with
      | nil => rfl
      | cons j l' ih' =>
        rw [List.mem_cons, not_or] at hl'
        rw [List.foldr_cons, List.foldr_cons, ih' hl'.2, sumAlong_trapz edges n hl'.1]
    have hstep : Spec.sumAlong n i (massAlong edges (i :: l).toFinset pdf.get) =
        Spec.trapzAlong edges i (massAlong edges l.toFinset pdf.get) := by
      funext idx
      rw [Spec.sumAlong, Spec.trapzAlong, hlen' i (by simp)]
      refine Finset.sum_congr rfl fun k _ => ?_
      rw [List.toFinset_cons, massAlong_insert edges hS, Function.update_self, Function.update_idem]
    rw [List.foldr_cons, List.foldr_cons, hcomm l hl.1, hstep, hcomm2 l hl.1, ih hl.2 fun j hj => hlen' j (by simp [hj])]

/-! ## Examples -/

/-- Concrete case: integrating `f(i, j) = i + j` on a 2 × 3 grid along the last axis. -/
example : ∃ x : AnyArr ℚ, trapzNdAxis (⟨![2, 3], fun i => i 0 + i 1⟩ : NDArr 2 ℚ) [[0, 1], [0, 1, 3]] (some [1]) = .ok x ∧
    Spec.Remaining ![2, 3] x {1} (Spec.trapzAlong [[0, 1], [0, 1, 3]] 1 fun i => i 0 + i 1) := by
  have he : EdgesMatch (⟨![2, 3], fun i => i 0 + i 1⟩ : NDArr 2 ℚ).shape ([[0, 1], [0, 1, 3]] : List (List ℚ)) :=
    ⟨rfl, by intro i; fin_cases i <;> rfl⟩
  obtain ⟨x, h1, h2⟩ := C168_trapz_partial (data := (⟨![2, 3], fun i => i 0 + i 1⟩ : NDArr 2 ℚ)) he (l := [1]) (by simp)
  exact ⟨x, h1, by simpa using h2⟩

/-- Its value at the first index 1 is `3/2 + 2·5/2`. -/
example : Spec.trapzAlong ([[0, 1], [0, 1, 3]] : List (List ℚ)) (1 : Fin 2) (fun i => i 0 + i 1) ![1, 0] = 13 / 2 := by
  simp [Spec.trapzAlong, Finset.sum_range_succ, edgeAt]
  norm_num

/-- Masses along the first axis of that grid exist. -/
example : ∃ M, trapzDensToMassAxis (⟨![2, 3], fun i => i 0 + i 1⟩ : NDArr 2 ℚ) [[0, 1], [0, 1, 3]] (some [0]) = .ok M ∧ M.shape = ![1, 3] := by
  have h := C168_mass_partial (⟨![2, 3], fun i => i 0 + i 1⟩ : NDArr 2 ℚ) [[0, 1], [0, 1, 3]] (l := [0]) (by simp)
  simp only [List.map_cons, List.map_nil, Fin.val_zero, Nat.cast_zero] at h
  rw [h, trapzDensToMass, if_pos ⟨rfl, by intro i; fin_cases i <;> rfl⟩, if_neg (by simp)]
  refine ⟨_, rfl, ?_⟩
  funext i
  fin_cases i <;> simp

end Kalepy
