import Mathlib.Tactic.Linarith
import Mathlib.Tactic.NormNum
import Verif.Model.Utils

/-!
# C42: bound_indices, C43: jagged lists
-/

namespace Kalepy

variable {K : Type*}

section mask

variable [LinearOrder K]

/-- The value satisfies the bounds of the row strictly (missing bounds hold). -/
def StrictlyInside (lo hi : Option K) (x : K) : Prop :=
  (∀ l, lo = some l → l < x) ∧ (∀ h, hi = some h → x < h)

/-- The value is strictly below a given lower or above a given upper bound. -/
def StrictlyOutside (lo hi : Option K) (x : K) : Prop :=
  (∃ l, lo = some l ∧ x < l) ∨ (∃ h, hi = some h ∧ h < x)

lemma inRow_false_iff (lo hi : Option K) (x : K) : inRow false lo hi x = true ↔ StrictlyInside lo hi x := by
  rcases lo with _ | l <;> rcases hi with _ | h <;> simp [inRow, StrictlyInside]

lemma inRow_true_iff (lo hi : Option K) (x : K) : inRow true lo hi x = true ↔ StrictlyOutside lo hi x := by
  rcases lo with _ | l <;> rcases hi with _ | h <;> simp [inRow, StrictlyOutside]

lemma boundIndices_go (data : List (List K)) (outside : Bool) (n : ℕ)
    (hd : ∀ row ∈ data, row.length = n) :
    ∀ (pairs : List (Option K × Option K)) (ii : ℕ) (m : List Bool), m.length = n →
      ii + pairs.length ≤ data.length →
      ∃ r : List Bool, boundIndices.go data outside ii (pairs.map fun p => .pair p.1 p.2) (.bools m)
        = .ok (.bools r) ∧ r.length = n ∧
        ∀ j (hj : j < n), r[j]? = some true ↔ (m[j]? = some true ∧
          ∀ k (hk : k < pairs.length), ∃ row x, data[ii + k]? = some row ∧ row[j]? = some x ∧
            inRow outside (pairs[k]).1 (pairs[k]).2 x = true) := by
  intro pairs
  induction pairs with
  | nil =>
    intro ii m hm _
    exact ⟨m, rfl, hm, fun j hj => by simp⟩
  | cons p ps ih =>
    intro ii m hm hle
    simp only [List.length_cons] at hle
    have hi : ii < data.length := by omega
    have hrow := hd _ (List.getElem_mem hi)
    obtain ⟨r, h1, h2, h3⟩ := ih (ii + 1)
      (List.zipWith (· && ·) m ((data[ii]).map (inRow outside p.1 p.2))) (by simp [hm, hrow]) (by omega)
    refine ⟨r, ?_, h2, ?_⟩
    · simp only [List.map_cons]
      rw [boundIndices.go, List.getElem?_eq_getElem hi]
      exact h1
    · intro j hj
      rw [h3 j hj]
      have hjm : j < m.length := by omega
      have hjr : j < (data[ii]).length := by omega
      rw [List.getElem?_eq_getElem (by simp; omega), List.getElem?_eq_getElem hjm]
      simp only [List.getElem_zipWith, List.getElem_map, Option.some.injEq, Bool.and_eq_true]
      constructor
      · rintro ⟨⟨a, b⟩, c⟩
        refine ⟨a, fun k hk => ?_⟩
        cases k with
        | zero => exact ⟨_, _, List.getElem?_eq_getElem hi, List.getElem?_eq_getElem hjr, b⟩
        | succ k =>
          have := c k (by simpa using hk)
          rw [show ii + (k + 1) = ii + 1 + k by omega]
          exact this
      · rintro ⟨a, b⟩
        refine ⟨⟨a, ?_⟩, fun k hk => ?_⟩
        · obtain ⟨row, x, e1, e2, e3⟩ := b 0 (by simp)
          rw [Nat.add_zero, List.getElem?_eq_getElem hi, Option.some.injEq] at e1
          subst e1
          rw [List.getElem?_eq_getElem hjr, Option.some.injEq] at e2
          subst e2
          exact e3
        · have := b (k + 1) (by simpa using hk)
          rw [show ii + 1 + k = ii + (k + 1) by omega]
          exact this

/-- **C42.** `bound_indices(data, bounds)` returns one boolean per data point (column), which is True
exactly if the coordinate of that point is strictly inside of the bounds in every bounded dimension. -/
theorem C42_inside (n : ℕ) (data : List (List K)) (pairs : List (Option K × Option K))
    (hd : ∀ row ∈ data, row.length = n) (hle : pairs.length ≤ data.length) :
    ∃ r : List Bool, boundIndices n data (pairs.map fun p => .pair p.1 p.2) = .ok (.bools r) ∧ r.length = n ∧
      ∀ j (_ : j < n), r[j]? = some true ↔
        ∀ k (hk : k < pairs.length), ∃ row x, data[k]? = some row ∧ row[j]? = some x ∧
          StrictlyInside (pairs[k]).1 (pairs[k]).2 x := by
  obtain ⟨r, h1, h2, h3⟩ := boundIndices_go data false n hd pairs 0 (List.replicate n true) (by simp) (by omega)
  refine ⟨r, h1, h2, fun j hj => ?_⟩
  rw [h3 j hj]
  simp only [List.getElem?_replicate, hj, if_true, true_and, Nat.zero_add, inRow_false_iff]

/-- **C42.** `bound_indices(data, bounds, outside=True)` is True exactly for points that are strictly
outside of the bounds in *every* bounded dimension. -/
theorem C42_outside_partial (n : ℕ) (data : List (List K)) (pairs : List (Option K × Option K))
    (hd : ∀ row ∈ data, row.length = n) (hle : pairs.length ≤ data.length) :
    ∃ r : List Bool, boundIndices n data (pairs.map fun p => .pair p.1 p.2) true = .ok (.bools r) ∧ r.length = n ∧
      ∀ j (_ : j < n), r[j]? = some true ↔
        ∀ k (hk : k < pairs.length), ∃ row x, data[k]? = some row ∧ row[j]? = some x ∧
          StrictlyOutside (pairs[k]).1 (pairs[k]).2 x := by
  obtain ⟨r, h1, h2, h3⟩ := boundIndices_go data true n hd pairs 0 (List.replicate n true) (by simp) (by omega)
  refine ⟨r, h1, h2, fun j hj => ?_⟩
  rw [h3 j hj]
  simp only [List.getElem?_replicate, hj, if_true, true_and, Nat.zero_add, inRow_true_iff]

/-- **C42.** In one dimension the two masks are complementary except for values equal to a bound, which
belong to neither. -/
theorem C42_complement_1d (row : List K) (lo hi : Option K) (hlh : ∀ l h, lo = some l → hi = some h → l ≤ h) :
    ∃ a b : List Bool, boundIndices row.length [row] [.pair lo hi] = .ok (.bools a) ∧
      boundIndices row.length [row] [.pair lo hi] true = .ok (.bools b) ∧
      ∀ (j : ℕ) (x : K), row[j]? = some x →
        ¬ (a[j]? = some true ∧ b[j]? = some true) ∧
        ((a[j]? = some true ∨ b[j]? = some true) ↔ (lo ≠ some x ∧ hi ≠ some x)) := by
  have hd : ∀ r ∈ [row], r.length = row.length := by simp
  obtain ⟨a, ha, hal, ha3⟩ := C42_inside row.length [row] [(lo, hi)] hd (by simp)
  obtain ⟨b, hb, hbl, hb3⟩ := C42_outside_partial row.length [row] [(lo, hi)] hd (by simp)
  refine ⟨a, b, ha, hb, ?_⟩
  intro j x hx
  have hj : j < row.length := (List.getElem?_eq_some_iff.mp hx).1
  have e1 : a[j]? = some true ↔ StrictlyInside lo hi x := by
    rw [ha3 j hj]
    simp [hx]
  have e2 : b[j]? = some true ↔ StrictlyOutside lo hi x := by
    rw [hb3 j hj]
    simp [hx]
  rw [e1, e2]
  rcases lo with _ | l <;> rcases hi with _ | h
  · simp [StrictlyInside, StrictlyOutside]
  · simp only [StrictlyInside, StrictlyOutside, Option.some.injEq, reduceCtorEq, false_and,
      exists_false, false_or, IsEmpty.forall_iff, implies_true, true_and, exists_eq_left', forall_eq',
      ne_eq, not_false_eq_true]
    exact ⟨fun ⟨p, q⟩ => lt_asymm p q, by rw [← ne_eq, ne_comm, ne_iff_lt_or_gt]⟩
  · simp only [StrictlyInside, StrictlyOutside, Option.some.injEq, reduceCtorEq, false_and,
      exists_false, or_false, IsEmpty.forall_iff, implies_true, and_true, exists_eq_left', forall_eq',
      ne_eq, not_false_eq_true]
    exact ⟨fun ⟨p, q⟩ => lt_asymm p q, by rw [← ne_eq, ne_iff_lt_or_gt]⟩
  · simp only [StrictlyInside, StrictlyOutside, Option.some.injEq, exists_eq_left', forall_eq', ne_eq]
    have hl := hlh l h rfl rfl
    refine ⟨fun ⟨⟨p, q⟩, r⟩ => ?_, ?_⟩
    · rcases r with r | r
      · exact lt_asymm p r
      · exact lt_asymm q r
    · constructor
      · rintro (⟨p, q⟩ | p | p)
        · exact ⟨ne_of_lt p, ne_of_gt q⟩
        · exact ⟨ne_of_gt p, ne_of_gt (lt_of_lt_of_le p hl)⟩
        · exact ⟨ne_of_lt (lt_of_le_of_lt hl p), ne_of_lt p⟩
      · rintro ⟨p, q⟩
        rcases lt_or_gt_of_ne p with p | p
        · rcases lt_or_gt_of_ne q with q | q
          · exact Or.inr (Or.inr q)
          · exact Or.inl ⟨p, q⟩
        · exact Or.inr (Or.inl p)

end mask

/-- **C42 (full statement for `outside`, not true of the code):** a point is selected if it is outside of
the box, i.e. violates some bound. -/
def C42_outside_Claim : Prop :=
  ∀ (n : ℕ) (data : List (List ℚ)) (pairs : List (Option ℚ × Option ℚ))
    (_ : ∀ row ∈ data, row.length = n) (_ : pairs.length ≤ data.length) (r : List Bool)
    (_ : boundIndices n data (pairs.map fun p => .pair p.1 p.2) true = .ok (.bools r)) (j : ℕ) (_ : j < n),
    r[j]? = some true ↔ ∃ k, ∃ hk : k < pairs.length, ∃ row x, data[k]? = some row ∧ row[j]? = some x ∧
      StrictlyOutside (pairs[k]).1 (pairs[k]).2 x

/-- **C42 fails for `outside` in two dimensions**: the point (2, 1/2) is outside of the unit square but is
not selected. -/
theorem C42_outside_refuted : ¬ C42_outside_Claim := by
  intro hC
  have := hC 1 [[2], [1 / 2]] [(some 0, some 1), (some 0, some 1)] (by simp) (by simp) [false]
    (by norm_num [boundIndices, boundIndices.go, Mask.andBools, inRow]) 0 (by simp)
  have h2 := this.mpr ⟨0, by simp, [2], 2, by simp, by simp, Or.inr ⟨1, rfl, by norm_num⟩⟩
  simp at h2

/-- **C42.** Without bounds (`bounds=None` or a `None` for each dimension) everything is selected, and nothing with
`outside=True`; but the result is an array of the integers 1 or 0 instead of booleans (positions, not a mask, when used
as an index). -/
theorem C42_none_rows {K : Type*} [LinearOrder K] (n : ℕ) (data : List (List K)) (rows : ℕ) (outside : Bool) :
    boundIndices n data (List.replicate (rows + 1) (.nul : BoundRow K)) outside
      = .ok (.ints (List.replicate n (if outside then 0 else 1))) := by
  have key : ∀ (rows ii : ℕ), boundIndices.go data outside ii (List.replicate rows (.nul : BoundRow K))
      (.ints (List.replicate n (if outside then 0 else 1))) = .ok (.ints (List.replicate n (if outside then 0 else 1))) := by
    intro rows
    induction rows with
    | zero => intro ii; rfl
    | succ r ih =>
      intro ii
      rw [List.replicate_succ, boundIndices.go]
      have : (Mask.ints (List.replicate n (if outside then 0 else 1))).andInt (if outside then -2 else -1)
          = .ints (List.replicate n (if outside then 0 else 1)) := by
        cases outside <;> simp [Mask.andInt]
      rw [this]
      exact ih _
  rw [boundIndices, List.replicate_succ, boundIndices.go]
  have : (Mask.bools (List.replicate n true)).andInt (if outside then -2 else -1)
      = .ints (List.replicate n (if outside then 0 else 1)) := by
    cases outside <;> simp [Mask.andInt]
  rw [this]
  exact key _ _

example : boundIndices 3 [[(0 : ℚ), 1, 2], [5, 5, 5]] ([(some 0, none), (some 4, some 6)].map
    fun p => .pair p.1 p.2) = .ok (.bools [false, true, true]) := by
  norm_num [boundIndices, boundIndices.go, Mask.andBools, inRow, List.replicate]

/-! ### C43 -/

mutual
/-- All scalars of the nested list, in order. -/
def Nest.scalars : Nest K → List K
  | .leaf x => [x]
  | .node l => Nest.scalarsL l
/-- All scalars of a list of nested lists. -/
def Nest.scalarsL : List (Nest K) → List K
  | [] => []
  | t :: l => Nest.scalars t ++ Nest.scalarsL l
end

/-- Whether this is a scalar. -/
def Nest.isLeaf : Nest K → Bool
  | .leaf _ => true
  | .node _ => false

/-- No list mixes scalars and lists. -/
inductive Nest.Unmixed : Nest K → Prop where
  | leaf (x : K) : Nest.Unmixed (.leaf x)
  | flat (l : List (Nest K)) (h : ∀ t ∈ l, t.isLeaf = true) : Nest.Unmixed (.node l)
  | nested (l : List (Nest K)) (h : ∀ t ∈ l, t.isLeaf = false) (hl : ∀ t ∈ l, Nest.Unmixed t) :
      Nest.Unmixed (.node l)

lemma really1d_iff (l : List (Nest K)) : Nest.really1d (.node l) = true ↔ ∀ t ∈ l, t.isLeaf = true := by
  simp only [Nest.really1d, List.all_eq_true]
  constructor <;>
  · intro h t ht
    have := h t ht
    cases t <;> simp_all [Nest.isLeaf]

lemma leaves_eq (l : List (Nest K)) (h : ∀ t ∈ l, t.isLeaf = true) :
    Nest.leaves l = Nest.scalarsL l ∧ l.length = (Nest.scalarsL l).length := by
  induction l with
  | nil => simp [Nest.leaves, Nest.scalarsL]
  | cons t l ih =>
    obtain ⟨h1, h2⟩ := ih fun s hs => h s (by simp [hs])
    have := h t (by simp)
    cases t with
    | leaf x => simp [Nest.leaves, Nest.scalarsL, Nest.scalars, h1, h2]
    | node l => simp [Nest.isLeaf] at this

mutual
theorem flatten_aux (t : Nest K) (l : List (Nest K)) (e : t = .node l) :
    (t.Unmixed → t.flatten = .ok (.array t.scalars)) ∧ (¬ t.Unmixed → t.flatten = .error .valueError) := by
  match t, e with
  | .node l, _ =>
    by_cases h1 : Nest.really1d (.node l) = true
    · have hl := (really1d_iff l).mp h1
      have hf : Nest.flatten (.node l) = .ok (.array (Nest.leaves l)) := by
        rw [Nest.flatten, if_pos h1]
      exact ⟨fun _ => by rw [hf, (leaves_eq l hl).1, Nest.scalars], fun h => absurd (.flat l hl) h⟩
    · obtain ⟨g1, g2⟩ := flattenL_aux l
      constructor
      · intro hu
        cases hu with
        | flat _ h => exact absurd ((really1d_iff l).mpr h) h1
        | nested _ h hl =>
          rw [Nest.flatten, if_neg h1, g1 h hl, Nest.scalars]
      · intro hu
        rw [Nest.flatten, if_neg h1, g2]
        intro h
        exact hu (.nested l (fun t ht => (h t ht).1) (fun t ht => (h t ht).2))

theorem flattenL_aux (l : List (Nest K)) :
    ((∀ t ∈ l, t.isLeaf = false) → (∀ t ∈ l, t.Unmixed) → Nest.flattenList l = .ok (Nest.scalarsL l)) ∧
    (¬ (∀ t ∈ l, t.isLeaf = false ∧ t.Unmixed) → Nest.flattenList l = .error .valueError) := by
  match l with
  | [] => exact ⟨fun _ _ => rfl, fun h => absurd (by simp) h⟩
  | .leaf x :: l =>
    constructor
    · intro h; have := h (.leaf x) (by simp); simp [Nest.isLeaf] at this
    · intro _; rw [Nest.flattenList, Nest.flatten]
  | .node s :: l =>
    obtain ⟨g1, g2⟩ := flatten_aux (.node s) s rfl
    obtain ⟨k1, k2⟩ := flattenL_aux l
    constructor
    · intro h hl
      rw [Nest.flattenList, g1 (hl _ (by simp)), k1 (fun t ht => h t (by simp [ht])) fun t ht => hl t (by simp [ht]),
        Nest.scalarsL]
    · intro h
      by_cases hs : (Nest.node s).Unmixed
      · rw [Nest.flattenList, g1 hs, k2]
        intro h'
        apply h
        intro t ht
        rcases List.mem_cons.mp ht with rfl | ht
        · exact ⟨rfl, hs⟩
        · exact h' t ht
      · rw [Nest.flattenList, g2 hs]
end

mutual
theorem flatlen_aux (t : Nest K) : t.flatlen = t.scalars.length := by
  match t with
  | .leaf x => simp [Nest.flatlen, Nest.scalars]
  | .node l =>
    rw [Nest.flatlen, Nest.scalars]
    split_ifs with h
    · exact (leaves_eq l ((really1d_iff l).mp h)).2
    · exact flatlenL_aux l

theorem flatlenL_aux (l : List (Nest K)) : Nest.flatlenList l = (Nest.scalarsL l).length := by
  match l with
  | [] => simp [Nest.flatlenList, Nest.scalarsL]
  | t :: l =>
    rw [Nest.flatlenList, Nest.scalarsL, List.length_append, flatlen_aux t, flatlenL_aux l]
end

/-- **C43.** For every nested list in which no level mixes scalars and lists, `flatten` returns all its
scalars in order; if some level mixes them, it raises. -/
theorem C43_flatten (l : List (Nest K)) :
    ((Nest.node l).Unmixed → (Nest.node l).flatten = .ok (.array (Nest.node l).scalars)) ∧
    (¬ (Nest.node l).Unmixed → (Nest.node l).flatten = .error .valueError) := flatten_aux _ l rfl

/-- **C43.** `flatlen` is the number of scalars, of any nested list. -/
theorem C43_flatlen (t : Nest K) : t.flatlen = t.scalars.length := flatlen_aux t

/-- **C43.** `really1d` is true exactly for lists of scalars, and for those `flatten` keeps them and
`flatlen` is their number. -/
theorem C43_really1d (t : Nest K) : t.really1d = true ↔ ∃ xs : List K, t = .node (xs.map .leaf) := by
  constructor
  · cases t with
    | leaf x => simp [Nest.really1d]
    | node l =>
      intro h
      have hl := (really1d_iff l).mp h
      refine ⟨Nest.leaves l, ?_⟩
      congr 1
      clear h
      induction l with
      | nil => rfl
      | cons t l ih =>
        have ht := hl t (by simp)
        cases t with
        | leaf x => rw [Nest.leaves, List.map_cons, ← ih fun s hs => hl s (by simp [hs])]
        | node s => simp [Nest.isLeaf] at ht
  · rintro ⟨xs, rfl⟩
    rw [really1d_iff]
    intro t ht
    obtain ⟨x, _, rfl⟩ := List.mem_map.mp ht
    rfl

/-- A nested list that is an array of the given shape. -/
inductive Nest.Regular : Nest K → List ℕ → Prop where
  | leaf (x : K) : Nest.Regular (.leaf x) []
  | empty : Nest.Regular (.node []) [0]
  | node (l : List (Nest K)) (sh : List ℕ) (hne : l ≠ []) (h : ∀ t ∈ l, Nest.Regular t sh) :
      Nest.Regular (.node l) (l.length :: sh)

lemma commonPrefix_self (l : List ℕ) : commonPrefix l l = l := by
  induction l with
  | nil => rfl
  | cons a l ih => simp [commonPrefix, ih]

lemma npShapes_const (l : List (Nest K)) (sh : List ℕ) (hne : l ≠ []) (h : ∀ t ∈ l, t.npShape = sh) :
    Nest.npShapes l = sh := by
  induction l with
  | nil => exact absurd rfl hne
  | cons t l ih =>
    cases l with
    | nil => rw [Nest.npShapes]; exact h t (by simp)
    | cons s l =>
      rw [Nest.npShapes, ih (by simp) fun t ht => h t (by simp [ht]), h t (by simp), commonPrefix_self]

lemma scalarsL_length_const (l : List (Nest K)) (n : ℕ) (h : ∀ t ∈ l, t.scalars.length = n) :
    (Nest.scalarsL l).length = l.length * n := by
  induction l with
  | nil => simp [Nest.scalarsL]
  | cons t l ih =>
    rw [Nest.scalarsL, List.length_append, h t (by simp), ih fun s hs => h s (by simp [hs])]
    simp; ring

lemma regular_size {t : Nest K} {sh : List ℕ} (h : t.Regular sh) :
    t.npShape = sh ∧ t.scalars.length = sh.prod := by
  induction h with
  | leaf x => simp [Nest.npShape, Nest.scalars]
  | empty => simp [Nest.npShape, Nest.scalars, Nest.npShapes, Nest.scalarsL]
  | node l sh hne h ih =>
    constructor
    · rw [Nest.npShape, npShapes_const l sh hne fun t ht => (ih t ht).1]
    · rw [Nest.scalars, scalarsL_length_const l sh.prod fun t ht => (ih t ht).2, List.prod_cons]

/-- **C43.** A regular array of any shape is not reported as jagged.  Missing: the converse, see
`C43_isjagged_refuted`. -/
theorem C43_isjagged_partial {t : Nest K} {sh : List ℕ} (h : t.Regular sh) : t.isjagged = false := by
  cases t with
  | leaf x => rfl
  | node l =>
    obtain ⟨h1, h2⟩ := regular_size h
    rw [Nest.isjagged, h1, C43_flatlen, h2]
    simp

/-- **C43 (full statement for `isjagged`, not true of the code).** -/
def C43_isjagged_Claim : Prop := ∀ t : Nest ℚ, t.isjagged = false ↔ ∃ sh, t.Regular sh

/-- **C43 fails for `isjagged`**: `[[], [1, 2]]` is jagged but has as many scalars as rows. -/
theorem C43_isjagged_refuted : ¬ C43_isjagged_Claim := by
  intro hC
  have h := (hC (.node [.node [], .node [.leaf 1, .leaf 2]])).mp (by
    simp [Nest.isjagged, Nest.npShape, Nest.npShapes, commonPrefix, Nest.flatlen, Nest.really1d,
      Nest.flatlenList])
  obtain ⟨sh, h⟩ := h
  cases h with
  | node _ sh _ h =>
    have h1 := (regular_size (h (.node []) (by simp))).1
    have h2 := (regular_size (h (.node [.leaf 1, .leaf 2]) (by simp))).1
    rw [← h2] at h1
    simp [Nest.npShape, Nest.npShapes] at h1

example : (Nest.node [.node [.leaf (1 : ℚ), .leaf 2], .node [.node [.leaf 3]], .node []]).Unmixed := by
  refine .nested _ (by simp [Nest.isLeaf]) ?_
  intro t ht
  simp only [List.mem_cons, List.not_mem_nil, or_false] at ht
  rcases ht with rfl | rfl | rfl
  · exact .flat _ (by simp [Nest.isLeaf])
  · refine .nested _ (by simp [Nest.isLeaf]) ?_
    intro t ht; simp only [List.mem_singleton] at ht; subst ht
    exact .flat _ (by simp [Nest.isLeaf])
  · exact .flat _ (by simp)

example : ¬ (Nest.node [.leaf (1 : ℚ), .node [.leaf 2]]).Unmixed := by
  intro h
  cases h with
  | flat _ h => have := h (.node [.leaf 2]) (by simp); simp [Nest.isLeaf] at this
  | nested _ h _ => have := h (.leaf 1) (by simp); simp [Nest.isLeaf] at this

end Kalepy
