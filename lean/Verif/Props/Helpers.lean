import Verif.Model.Helpers
import Verif.Props.Masks
import Verif.Props.Spacing
import Verif.Props.Confidence

/-!
# Integers, jagged shapes, colour maps, colour bars and figures
-/

namespace Kalepy

/-! ### C127: isinteger -/

/-- Whether a Python scalar is an integer (not a boolean). -/
def PyNum.IsInt : PyNum → Prop
  | .int _ => True
  | _ => False

/-- Whether a scalar is an integer within these bounds, or a boolean. -/
def PyNum.Within (lo hi : ℤ) : PyNum → Prop
  | .int n => lo ≤ n ∧ n < hi
  | .float _ => False
  | .bool _ => True

lemma fold_kind (k : NpKind) (l : List PyNum) (t : NpKind) (ht : t = .int64 ∨ t = .uint64) :
    l.foldl (fun k y => NpKind.promote k y.kind) k = t ↔
      (k = t ∨ k = .bool ∧ ∃ y ∈ l, y.kind = t) ∧ ∀ y ∈ l, y.kind = t ∨ y.kind = .bool := by
  induction l generalizing k with
  | nil => simp
  | cons x l ih =>
    rw [List.foldl_cons, ih]
    simp only [List.mem_cons, exists_eq_or_imp, forall_eq_or_imp]
    rcases ht with rfl | rfl <;> cases k <;> cases x.kind <;> simp [NpKind.promote]

lemma kindOf_iff (l : List PyNum) (t : NpKind) (ht : t = .int64 ∨ t = .uint64) :
    kindOf l = t ↔ (∃ y ∈ l, y.kind = t) ∧ ∀ y ∈ l, y.kind = t ∨ y.kind = .bool := by
  cases l with
  | nil => rcases ht with rfl | rfl <;> simp [kindOf]
  | cons x l =>
    rw [kindOf, fold_kind _ _ _ ht]
    simp only [List.mem_cons, exists_eq_or_imp, forall_eq_or_imp]
    rcases ht with rfl | rfl <;> cases x.kind <;> simp

lemma kind_int64 (y : PyNum) : y.kind = .int64 ↔ y.IsInt ∧ y.Within (-2 ^ 63) (2 ^ 63) := by
  cases y with
  | int n => simp only [PyNum.kind, PyNum.IsInt, PyNum.Within]; split_ifs <;> simp_all
  | float x => simp [PyNum.kind, PyNum.IsInt]
  | bool b => simp [PyNum.kind, PyNum.IsInt]

lemma kind_uint64 (y : PyNum) : y.kind = .uint64 ↔ y.IsInt ∧ y.Within (2 ^ 63) (2 ^ 64) := by
  cases y with
  | int n =>
    simp only [PyNum.kind, PyNum.IsInt, PyNum.Within]
    split_ifs with h1 h2
    · simp; omega
    · simp; omega
    · simp; omega
  | float x => simp [PyNum.kind, PyNum.IsInt]
  | bool b => simp [PyNum.kind, PyNum.IsInt]

lemma kind_or (y : PyNum) (lo hi : ℤ) (t : NpKind) (h : y.kind = t ↔ y.IsInt ∧ y.Within lo hi) :
    (y.kind = t ∨ y.kind = .bool) ↔ y.Within lo hi := by
  rw [h]
  cases y with
  | int n => simp only [PyNum.kind, PyNum.IsInt, PyNum.Within]; split_ifs <;> simp
  | float x => simp [PyNum.kind, PyNum.Within]
  | bool b => simp [PyNum.kind, PyNum.Within]

/-- **C127 (full statement, not true of the code).** A scalar or list is reported as an integer exactly if it is one, or
all its elements are. -/
def C127_Claim : Prop :=
  (∀ x, isinteger (.scalar x) = true ↔ x.IsInt) ∧ ∀ l, isinteger (.list l) = true ↔ ∀ x ∈ l, x.IsInt

/-- **C127, exactly what the code does.**  A scalar is reported as an integer if it is one in [-2^63, 2^64); a list if it
contains an integer, nothing but integers and booleans, and its integers all lie in [-2^63, 2^63) or all in
[2^63, 2^64).  With `iterable=False` no list is.  Missing: larger integers, the empty list, and lists with booleans. -/
theorem C127_partial :
    (∀ x it, isinteger (.scalar x) it = true ↔ x.IsInt ∧ x.Within (-2 ^ 63) (2 ^ 64)) ∧
    (∀ l, isinteger (.list l) = true ↔ (∃ x ∈ l, x.IsInt) ∧
      ((∀ x ∈ l, x.Within (-2 ^ 63) (2 ^ 63)) ∨ ∀ x ∈ l, x.Within (2 ^ 63) (2 ^ 64))) ∧
    ∀ l, isinteger (.list l) false = false := by
  refine ⟨fun x it => ?_, fun l => ?_, fun l => by simp [isinteger]⟩
  · simp only [isinteger, decide_eq_true_eq]
    rw [kind_int64, kind_uint64]
    cases x with
    | int n => simp only [PyNum.IsInt, PyNum.Within, true_and]; omega
    | float x => simp [PyNum.IsInt]
    | bool b => simp [PyNum.IsInt]
  · simp only [isinteger, true_and, decide_eq_true_eq]
    rw [kindOf_iff _ _ (Or.inl rfl), kindOf_iff _ _ (Or.inr rfl)]
    simp only [kind_or _ _ _ _ (kind_int64 _), kind_or _ _ _ _ (kind_uint64 _)]
    simp only [kind_int64, kind_uint64]
    constructor
    · rintro (⟨⟨y, hy, h⟩, h'⟩ | ⟨⟨y, hy, h⟩, h'⟩)
      · exact ⟨⟨y, hy, h.1⟩, Or.inl h'⟩
      · exact ⟨⟨y, hy, h.1⟩, Or.inr h'⟩
    · rintro ⟨⟨y, hy, h⟩, h' | h'⟩
      · exact Or.inl ⟨⟨y, hy, h, h' y hy⟩, h'⟩
      · exact Or.inr ⟨⟨y, hy, h, h' y hy⟩, h'⟩

/-- **C127 fails**: 2^64 is not reported as an integer, nor is the list of 1 and 2^63. -/
theorem C127_refuted : ¬ C127_Claim := by
  intro h
  have h1 := (C127_partial.1 (.int (2 ^ 64)) true).mp ((h.1 (.int (2 ^ 64))).mpr trivial)
  have := h1.2.2
  omega

/-- **C127.** With one sign and at most 63 bits the claim holds, for every nonempty list without booleans. -/
theorem C127_usual_partial (l : List PyNum) (hne : l ≠ [])
    (h : ∀ x ∈ l, (∃ r, x = .float r) ∨ ∃ n : ℤ, x = .int n ∧ -2 ^ 63 ≤ n ∧ n < 2 ^ 63) :
    isinteger (.list l) = true ↔ ∀ x ∈ l, x.IsInt := by
  rw [C127_partial.2.1]
  constructor
  · rintro ⟨-, h'⟩ x hx
    rcases h x hx with ⟨r, rfl⟩ | ⟨n, rfl, -⟩
    · rcases h' with h' | h'
      · exact (h' _ hx).elim
      · exact (h' _ hx).elim
    · trivial
  · intro h'
    obtain ⟨x, hx⟩ := List.exists_mem_of_ne_nil l hne
    refine ⟨⟨x, hx, h' x hx⟩, Or.inl fun y hy => ?_⟩
    rcases h y hy with ⟨r, rfl⟩ | ⟨n, rfl, hn⟩
    · exact (h' _ hy).elim
    · exact hn

example : isinteger (.list [.int 3, .int (-7)]) = true ∧ isinteger (.list [.int 3, .float (1 / 2)]) = false ∧
    isinteger (.list []) = false ∧ isinteger (.list [.int 1, .int (2 ^ 63)]) = false ∧
    isinteger (.list [.bool true, .int 1]) = true ∧ isinteger (.scalar (.bool true)) = false := by
  simp [isinteger, kindOf, PyNum.kind, NpKind.promote]

/-! ### C128: jshape -/

mutual
/-- The number of elements that a reported shape stands for. -/
def JShape.count : JShape → ℕ
  | .flat sh => sh.prod
  | .nested _ parts => JShape.countList parts

/-- The number of elements that the reported shapes of the parts stand for. -/
def JShape.countList : List JShape → ℕ
  | [] => 0
  | s :: l => s.count + JShape.countList l
end

/-- The shape at the top of a reported shape. -/
def JShape.top : JShape → List ℕ
  | .flat sh => sh
  | .nested sh _ => sh

variable {K : Type*}

mutual
lemma jshapeAt_count (k : ℕ) (t : Nest K) : (t.jshapeAt k).count = t.scalars.length := by
  match t with
  | .leaf x => simp [Nest.jshapeAt, JShape.count, Nest.scalars]
  | .node l =>
    rw [Nest.jshapeAt]
    split_ifs with h
    · rw [JShape.count, h, C43_flatlen]
    · rw [JShape.count, jshapeList_count (k - 1) l, Nest.scalars]

lemma jshapeList_count (k : ℕ) (l : List (Nest K)) :
    JShape.countList (Nest.jshapeList k l) = (Nest.scalarsL l).length := by
  match l with
  | [] => simp [Nest.jshapeList, JShape.countList, Nest.scalarsL]
  | t :: l =>
    rw [Nest.jshapeList, JShape.countList, jshapeAt_count _ t, jshapeList_count k l, Nest.scalarsL,
      List.length_append]
end

/-- **C128 (full statement, not true of the code).** A plain shape is reported exactly for regular arrays, and it is
theirs. -/
def C128_Claim : Prop :=
  ∀ (t : Nest ℚ) sh, t.jshape = .flat sh ↔ t.Regular sh

/-- **C128.** For every nested list, the reported shape stands for as many elements as the list has scalars; its top is
numpy's shape of the list; and a regular array is reported with its shape.  Missing: lists that are not regular can also
be reported with a plain shape, see `C128_refuted`. -/
theorem C128_partial (t : Nest K) :
    t.jshape.count = t.scalars.length ∧ t.jshape.top = t.npShape ∧ ∀ sh, t.Regular sh → t.jshape = .flat sh := by
  refine ⟨jshapeAt_count _ t, ?_, fun sh h => ?_⟩
  · cases t with
    | leaf x => simp [Nest.jshape, Nest.jshapeAt, JShape.top, Nest.npShape]
    | node l =>
      rw [Nest.jshape, Nest.jshapeAt]
      simp only [List.take_length]
      split_ifs <;> rfl
  · obtain ⟨h1, h2⟩ := regular_size h
    cases t with
    | leaf x => cases h; rfl
    | node l =>
      rw [Nest.jshape, Nest.jshapeAt]
      simp only [List.take_length]
      rw [if_pos (by rw [C43_flatlen, h1, h2]), h1]

lemma jshapeList_length (k : ℕ) (l : List (Nest K)) : (Nest.jshapeList k l).length = l.length := by
  induction l with
  | nil => rfl
  | cons t l ih => rw [Nest.jshapeList]; simp [ih]

lemma jshapeList_get (l : List (Nest K)) (i : ℕ) (h : i < l.length) :
    (Nest.jshapeList 0 l)[i]'(by rw [jshapeList_length]; exact h) = l[i].jshape := by
  induction l generalizing i with
  | nil => simp at h
  | cons t l ih =>
    simp only [Nest.jshapeList]
    cases i with
    | zero => simp [Nest.jshape]
    | succ i => simpa using ih i (by simpa using h)

/-- **C128.** If the elements of a list have no common length, the list is reported as its number of elements together
with the reported shapes of the elements, unless it has as many scalars as elements. -/
theorem C128_rows (l : List (Nest K)) (h : (Nest.node l).npShape = [l.length])
    (hs : (Nest.node l).scalars.length ≠ l.length) :
    ∃ parts, (Nest.node l).jshape = .nested [l.length] parts ∧ parts = l.map Nest.jshape := by
  refine ⟨Nest.jshapeList 0 l, ?_, ?_⟩
  · rw [Nest.jshape, Nest.jshapeAt]
    simp only [List.take_length]
    rw [if_neg (by rw [C43_flatlen, h]; simpa using hs.symm), h]
    rfl
  · apply List.ext_getElem (by simp [jshapeList_length])
    intro i h1 h2
    rw [jshapeList_get l i (by simpa using h2)]
    simp

/-- **C128 fails**: the jagged list `[[], [1, 2]]` is reported with the plain shape (2,). -/
theorem C128_refuted : ¬ C128_Claim := by
  intro hC
  have h := (hC (.node [.node [], .node [.leaf 1, .leaf 2]]) [2]).mp (by
    simp [Nest.jshape, Nest.jshapeAt, Nest.npShape, Nest.npShapes, commonPrefix, Nest.flatlen, Nest.really1d,
      Nest.flatlenList])
  have := (regular_size h).1
  cases h with
  | node _ sh _ h =>
    have h1 := (regular_size (h (.node []) (by simp))).1
    simp [Nest.npShape, Nest.npShapes] at h1

example : (Nest.node [.node [.leaf (1 : ℚ)], .node [.leaf 2, .leaf 3]]).jshape =
    .nested [2] [.flat [1], .flat [2]] := by
  simp [Nest.jshape, Nest.jshapeAt, Nest.jshapeList, Nest.npShape, Nest.npShapes, commonPrefix, Nest.flatlen,
    Nest.really1d, Nest.flatlenList]

/-! ### C129: colours and colour maps -/

/-- **C129 (full statement, not true of the code).** A colour and a colour map that are given are used, whatever the
other one is. -/
def C129_Claim : Prop :=
  ∀ (Col Map : Type) (next : Col) (toCmap : Col → Map) (mid : Map → Col) (color : Option Col) (cmap : Option Map),
    (∀ c, color = some c → (parseColorCmap next toCmap some id mid color cmap).1 = c) ∧
    ∀ m, cmap = some m → (parseColorCmap next toCmap some id mid color cmap).2 = m

/-- **C129.** A given colour is always used, and a given colour map if no colour is given; the other one of the two is
derived from the one that is used: the middle of the map, or the map made of the colour.  If neither is given, the
colour is the next one of the axes.  Missing: a colour map given together with a colour is ignored. -/
theorem C129_partial {Col Map Arg : Type*} (next : Col) (toCmap : Col → Map) (get : Arg → Option Map)
    (listed : Arg → Map) (mid : Map → Col) :
    (∀ c cmap, parseColorCmap next toCmap get listed mid (some c) cmap = (c, toCmap c)) ∧
    (∀ a m, get a = some m → parseColorCmap next toCmap get listed mid none (some a) = (mid m, m)) ∧
    (∀ a, get a = none → parseColorCmap next toCmap get listed mid none (some a) = (mid (listed a), listed a)) ∧
    parseColorCmap next toCmap get listed mid none none = (next, toCmap next) := by
  refine ⟨fun c cmap => rfl, fun a m h => ?_, fun a h => ?_, rfl⟩ <;> simp [parseColorCmap, h]

/-- **C129 fails** for a colour map given together with a colour. -/
theorem C129_refuted : ¬ C129_Claim := by
  intro h
  have := (h Unit Bool () (fun _ => false) (fun _ => ()) (some ()) (some true)).2 true rfl
  simp [parseColorCmap] at this

lemma linspace01_pairwise {m : ℕ} (hm : 0 < m) : (npLinspace 0 1 m).Pairwise (· < ·) := by
  rw [npLinspace, if_neg hm.ne', List.pairwise_map]
  refine List.pairwise_lt_range.imp fun {a b} hab => ?_
  have : (a : ℝ) < b := by exact_mod_cast hab
  have hm' : (0 : ℝ) < 1 / m := by positivity
  simp only [sub_zero, zero_add]
  exact mul_lt_mul_of_pos_right this hm'

/-- Between two neighbouring colours the map is linear. -/
lemma fromList_segment (colors : List ℝ) (k : ℕ) (hk : k + 1 < colors.length) {s : ℝ} (h0 : 0 ≤ s) (h1 : s ≤ 1) :
    fromList colors ((k + s) / (colors.length - 1 : ℕ)) = (1 - s) * colors[k] + s * colors[k + 1] := by
  obtain ⟨m, hm⟩ : ∃ m, colors.length = m + 1 := ⟨colors.length - 1, by omega⟩
  have hm0 : 0 < m := by omega
  have hmr : (0 : ℝ) < m := by exact_mod_cast hm0
  have e : colors.length - 1 = m := by omega
  rw [fromList, e]
  set xp := npLinspace 0 1 m with hxp
  have hpw : xp.Pairwise (· < ·) := linspace01_pairwise hm0
  have hlen : xp.length = m + 1 := npLinspace_length _ _ _
  have hget : ∀ i (h : i < xp.length), xp[i] = i / m := by
    intro i h
    have := npLinspace_getElem? 0 1 hm0 (by omega : i ≤ m)
    rw [List.getElem?_eq_getElem (by omega)] at this
    have := Option.some.inj this
    rw [this]; ring
  rcases h1.lt_or_eq with h1 | rfl
  · have hsr : searchRight xp ((k + s) / m) = k + 1 := by
      obtain ⟨s1, s2⟩ := searchRight_spec (hpw.imp le_of_lt) ((k + s) / m)
      rcases Nat.lt_trichotomy (searchRight xp ((k + s) / m)) (k + 1) with h | h | h
      · have := s2 k (by omega) (by omega)
        rw [hget, div_lt_div_iff_of_pos_right hmr] at this
        linarith
      · exact h
      · have := s1 (k + 1) (by omega) h
        rw [hget, div_le_div_iff_of_pos_right hmr] at this
        push_cast at this
        linarith
    unfold npInterp
    rw [hsr]
    simp only
    rw [if_neg (by omega), List.getD_eq_getElem _ _ (by omega : k < xp.length),
      List.getD_eq_getElem _ _ (by omega : k + 1 < xp.length), List.getD_eq_getElem _ _ (by omega : k < colors.length),
      List.getD_eq_getElem _ _ hk, hget, hget]
    split_ifs with h
    · have : s = 0 := by
        field_simp at h
        linarith
      subst this; ring
    · push_cast
      field_simp
      ring
  · have := npInterp_point hpw (by omega : xp.length = colors.length) (k + 1) (by omega)
    rw [hget] at this
    push_cast at this
    rw [this]; ring

/-- **C129.** Cutting a colour map to [lo, hi] with n ≥ 2 colours: the k-th of n equally spaced points of [0, 1] gets the
colour of the k-th of n equally spaced points of [lo, hi], and in between the colours are interpolated linearly.  With
n < 2 an exception is raised. -/
theorem C129_cut (cmap : ℝ → ℝ) (lo hi : ℝ) (n : ℕ) :
    (n < 2 → cutColormap cmap lo hi n = .error .valueError) ∧
    (2 ≤ n → ∃ f, cutColormap cmap lo hi n = .ok f ∧
      ∀ (k : ℕ) (s : ℝ), k + 1 < n → 0 ≤ s → s ≤ 1 → f ((k + s) / (n - 1)) =
        (1 - s) * cmap (lo + (hi - lo) * (k / (n - 1))) + s * cmap (lo + (hi - lo) * ((k + 1) / (n - 1)))) := by
  constructor
  · intro h; rw [cutColormap, if_pos h]
  · intro h
    refine ⟨_, by rw [cutColormap, if_neg (by omega)], fun k s hk h0 h1 => ?_⟩
    obtain ⟨m, rfl⟩ : ∃ m, n = m + 1 := ⟨n - 1, by omega⟩
    have hm0 : 0 < m := by omega
    have hl : ((npLinspace lo hi (m + 1 - 1)).map cmap).length = m + 1 := by simp [npLinspace_length]
    have := fromList_segment ((npLinspace lo hi (m + 1 - 1)).map cmap) k (by rw [hl]; exact hk) h0 h1
    have hget : ∀ i (h : i < ((npLinspace lo hi (m + 1 - 1)).map cmap).length),
        ((npLinspace lo hi (m + 1 - 1)).map cmap)[i] = cmap (lo + (hi - lo) * (i / m)) := by
      intro i h
      rw [hl] at h
      have := npLinspace_getElem? lo hi hm0 (by omega : i ≤ m)
      rw [List.getElem?_eq_getElem (by rw [npLinspace_length]; omega)] at this
      rw [List.getElem_map]
      congr 1
      have h2 : (npLinspace lo hi (m + 1 - 1))[i]'(by rw [npLinspace_length]; omega) = _ := Option.some.inj this
      rw [h2]; ring
    rw [hget, hget, hl] at this
    simp only [Nat.add_sub_cancel] at this
    push_cast at this ⊢
    simpa using this

/-- Every point of [0, 1] lies on a segment. -/
lemma exists_segment {m : ℕ} (hm : 0 < m) {t : ℝ} (h0 : 0 ≤ t) (h1 : t ≤ 1) :
    ∃ (k : ℕ) (s : ℝ), k < m ∧ 0 ≤ s ∧ s ≤ 1 ∧ t = (k + s) / m := by
  have hmr : (0 : ℝ) < m := by exact_mod_cast hm
  rcases h1.lt_or_eq with h1 | rfl
  · refine ⟨⌊t * m⌋₊, t * m - ⌊t * m⌋₊, ?_, ?_, ?_, ?_⟩
    · rw [Nat.floor_lt (by positivity)]
      nlinarith
    · have := Nat.floor_le (by positivity : 0 ≤ t * m); linarith
    · have := Nat.lt_floor_add_one (t * m); linarith
    · field_simp; ring
  · refine ⟨m - 1, 1, by omega, by norm_num, le_rfl, ?_⟩
    rw [Nat.cast_sub hm]; push_cast; field_simp; ring

/-- **C129.** The cut map stays within the range of the colours on [lo, hi]; it starts and ends with the colours at lo and
hi; and if the colour changes by at most `L` per unit, it is everywhere within `L (hi - lo) / (n - 1)` of the colour at
the corresponding point of [lo, hi]. -/
theorem C129_cut_close (cmap : ℝ → ℝ) {lo hi : ℝ} (hlh : lo ≤ hi) {n : ℕ} (hn : 2 ≤ n) {f : ℝ → ℝ}
    (hf : cutColormap cmap lo hi n = .ok f) :
    f 0 = cmap lo ∧ f 1 = cmap hi ∧
    (∀ a b, (∀ x, lo ≤ x → x ≤ hi → a ≤ cmap x ∧ cmap x ≤ b) → ∀ t, 0 ≤ t → t ≤ 1 → a ≤ f t ∧ f t ≤ b) ∧
    ∀ L, (∀ x y, lo ≤ x → x ≤ hi → lo ≤ y → y ≤ hi → |cmap x - cmap y| ≤ L * |x - y|) →
      ∀ t, 0 ≤ t → t ≤ 1 → |f t - cmap (lo + (hi - lo) * t)| ≤ L * ((hi - lo) / (n - 1)) := by
  obtain ⟨f', hf', h⟩ := (C129_cut cmap lo hi n).2 hn
  obtain rfl : f = f' := Except.ok.inj (hf.symm.trans hf')
  obtain ⟨m, rfl⟩ : ∃ m, n = m + 1 := ⟨n - 1, by omega⟩
  have hm0 : 0 < m := by omega
  have hmr : (0 : ℝ) < m := by exact_mod_cast hm0
  push_cast at h ⊢
  simp only [add_sub_cancel_right] at h ⊢
  have hd : 0 ≤ hi - lo := by linarith
  have hin : ∀ r : ℝ, 0 ≤ r → r ≤ 1 → lo ≤ lo + (hi - lo) * r ∧ lo + (hi - lo) * r ≤ hi := by
    intro r h0 h1
    constructor
    · have := mul_nonneg hd h0; linarith
    · have := mul_le_of_le_one_right hd h1; linarith
  refine ⟨?_, ?_, ?_, ?_⟩
  · have := h 0 0 (by omega) le_rfl zero_le_one
    simpa using this
  · have := h (m - 1) 1 (by omega) zero_le_one le_rfl
    rw [Nat.cast_sub hm0] at this
    push_cast at this
    simp only [sub_add_cancel, div_self hmr.ne', sub_self, zero_mul, one_mul, mul_one, zero_add,
      add_sub_cancel] at this
    exact this
  · intro a b hab t h0 h1
    obtain ⟨k, s, hk, hs0, hs1, rfl⟩ := exists_segment hm0 h0 h1
    rw [h k s (by omega) hs0 hs1]
    have hkm : (k : ℝ) + 1 ≤ m := by exact_mod_cast hk
    have i1 := hin (k / m) (by positivity) (by rw [div_le_one hmr]; linarith)
    have i2 := hin ((k + 1) / m) (by positivity) (by rw [div_le_one hmr]; linarith)
    have c1 := hab _ i1.1 i1.2
    have c2 := hab _ i2.1 i2.2
    constructor <;> nlinarith
  · intro L hL t h0 h1
    obtain ⟨k, s, hk, hs0, hs1, rfl⟩ := exists_segment hm0 h0 h1
    rw [h k s (by omega) hs0 hs1]
    have hkm : (k : ℝ) + 1 ≤ m := by exact_mod_cast hk
    have i1 := hin (k / m) (by positivity) (by rw [div_le_one hmr]; linarith)
    have i2 := hin ((k + 1) / m) (by positivity) (by rw [div_le_one hmr]; linarith)
    have i3 := hin ((k + s) / m) h0 h1
    have l1 := hL _ _ i1.1 i1.2 i3.1 i3.2
    have l2 := hL _ _ i2.1 i2.2 i3.1 i3.2
    set A := cmap (lo + (hi - lo) * (k / m))
    set B := cmap (lo + (hi - lo) * ((k + 1) / m))
    set C := cmap (lo + (hi - lo) * ((k + s) / m))
    set w := (hi - lo) / m with hw
    have hw0 : 0 ≤ w := by positivity
    have e1 : |lo + (hi - lo) * (k / m) - (lo + (hi - lo) * ((k + s) / m))| = s * w := by
      rw [show lo + (hi - lo) * (k / m) - (lo + (hi - lo) * ((k + s) / m)) = -(s * w) by rw [hw]; field_simp; ring,
        abs_neg, abs_of_nonneg (by positivity)]
    have e2 : |lo + (hi - lo) * ((k + 1) / m) - (lo + (hi - lo) * ((k + s) / m))| = (1 - s) * w := by
      rw [show lo + (hi - lo) * ((k + 1) / m) - (lo + (hi - lo) * ((k + s) / m)) = (1 - s) * w by
        rw [hw]; field_simp; ring, abs_of_nonneg (mul_nonneg (by linarith) hw0)]
    rw [e1] at l1
    rw [e2] at l2
    have hA := abs_le.mp l1
    have hB := abs_le.mp l2
    have hLw : 0 ≤ L * w := by
      rcases hs0.lt_or_eq with hs | rfl
      · by_contra hneg
        have : L * (s * w) < 0 := by nlinarith
        linarith [hA.1, hA.2]
      · have := (abs_nonneg _).trans l2
        simpa using this
    rw [abs_le]
    have hs1' : 0 ≤ 1 - s := by linarith
    have p1 := mul_le_mul_of_nonneg_left hA.2 hs1'
    have p2 := mul_le_mul_of_nonneg_left hA.1 hs1'
    have p3 := mul_le_mul_of_nonneg_left hB.2 hs0
    have p4 := mul_le_mul_of_nonneg_left hB.1 hs0
    have q : 2 * (s * (1 - s)) * (L * w) ≤ L * w := by
      have : 2 * (s * (1 - s)) ≤ 1 := by nlinarith [sq_nonneg (1 - 2 * s)]
      nlinarith
    constructor <;> nlinarith

/-- **C129.** The part of the colour map used for contours is a part of [0, 1] around the middle, for any number of
quantiles; it is more than a point as soon as there is a quantile. -/
theorem C129_contours (nq : ℕ) : ∃ d : ℝ, contourRange nq = (1 / 2 - d, 1 / 2 + d) ∧ 0 ≤ d ∧ d < 1 / 2 ∧
    (0 < nq → 0 < d) := by
  refine ⟨if nq < 4 then nq * (8 / 100) else 7 / 10 / 2, rfl, ?_, ?_, ?_⟩
  · split_ifs <;> positivity
  · split_ifs with h
    · have : (nq : ℝ) ≤ 3 := by exact_mod_cast (by omega : nq ≤ 3)
      linarith
    · norm_num
  · intro h
    have : (0 : ℝ) < nq := by exact_mod_cast h
    split_ifs <;> positivity

/-- **C129.** A grey scale that is linear is cut without any error. -/
theorem C129_linear (a b lo hi : ℝ) {n : ℕ} (hn : 2 ≤ n) : ∃ f, cutColormap (fun x => a + b * x) lo hi n = .ok f ∧
    ∀ t, 0 ≤ t → t ≤ 1 → f t = a + b * (lo + (hi - lo) * t) := by
  obtain ⟨f, hf, h⟩ := (C129_cut (fun x => a + b * x) lo hi n).2 hn
  refine ⟨f, hf, fun t h0 h1 => ?_⟩
  have hn1 : ((n - 1 : ℕ) : ℝ) = (n : ℝ) - 1 := by rw [Nat.cast_sub (by omega)]; norm_num
  obtain ⟨k, s, hk, hs0, hs1, rfl⟩ := exists_segment (by omega : 0 < n - 1) h0 h1
  have hp : (0 : ℝ) < (n : ℝ) - 1 := by rw [← hn1]; exact_mod_cast (by omega : 0 < n - 1)
  rw [hn1, h k s (by omega) hs0 hs1]
  field_simp
  ring

example : ∃ f, cutColormap (fun x => x ^ 2) (1 / 4) (3 / 4) 10 = .ok f ∧ f 0 = 1 / 16 ∧ f 1 = 9 / 16 := by
  obtain ⟨f, hf, -⟩ := (C129_cut (fun x => x ^ 2) (1 / 4) (3 / 4) 10).2 (by norm_num)
  obtain ⟨h0, h1, -⟩ := C129_cut_close _ (by norm_num) (by norm_num) hf
  exact ⟨f, hf, by rw [h0]; norm_num, by rw [h1]; norm_num⟩

/-! ### C130: contour lines in a colour bar -/

lemma barColors_eq {Col : Type*} (grey : Col) (levels : List ℝ) (invert : Bool) (smap : Option ((ℝ → Col) × (ℝ → Col))) :
    ∃ col : ℝ → Col, (col = fun x => match smap with
      | none => grey | some (m, rev) => if invert then rev x else m x) ∧
    barLineColors grey levels invert none smap = levels.map col := by
  refine ⟨_, rfl, ?_⟩
  cases smap with
  | none => rfl
  | some p => cases invert <;> rfl

/-- **C130.** In a vertical colour bar a horizontal line is drawn at every level, in order, and in a horizontal bar a
vertical one; without colours and map they are grey, with a map they have the colours of the levels, in the reversed map
if `invert`; the outline of each line has the colour of the line as far from the other end. -/
theorem C130_lines {Col : Type*} (grey : Col) (o : String) (hv : Bool)
    (ho : if hv then ['v'] <+: o.toList else ['h'] <+: o.toList) (levels : List ℝ) (invert : Bool)
    (smap : Option ((ℝ → Col) × (ℝ → Col))) :
    ∃ lines, drawColorbarContours grey o levels invert none smap = .ok lines ∧ lines.map (·.level) = levels ∧
      (∀ l ∈ lines, l.horizontal = hv ∧
        l.color = match smap with | none => grey | some (m, rev) => if invert then rev l.level else m l.level) ∧
      lines.map (·.outline) = (lines.map (·.color)).reverse := by
  obtain ⟨col, hcol, hc⟩ := barColors_eq grey levels invert smap
  have hdraw : drawColorbarContours grey o levels invert none smap =
      .ok (((levels.zip (levels.map col)).zip (levels.map col).reverse).map
        fun x => (⟨hv, x.1.1, x.1.2, x.2⟩ : BarLine Col)) := by
    unfold drawColorbarContours
    simp only
    rw [hc]
    cases hv with
    | true => rw [if_pos (by simpa using ho)]
    | false =>
      have ho' : ['h'] <+: o.toList := by simpa using ho
      rw [if_neg ?_, if_pos ho']
      intro hv
      obtain ⟨u, hu⟩ := hv
      obtain ⟨w, hw⟩ := ho'
      rw [← hu] at hw
      simp at hw
  refine ⟨_, hdraw, ?_, ?_, ?_⟩
  · rw [List.map_map]
    apply List.ext_getElem (by simp)
    intro i h1 h2
    simp
  · intro l hl
    obtain ⟨x, hx, rfl⟩ := List.mem_map.mp hl
    refine ⟨rfl, ?_⟩
    obtain ⟨i, hi, rfl⟩ := List.getElem_of_mem hx
    simp [hcol]
  · rw [List.map_map, List.map_map]
    apply List.ext_getElem (by simp)
    intro i h1 h2
    simp

/-- **C130.** Other orientations are refused. -/
theorem C130_orientation {Col : Type*} (grey : Col) (o : String) (levels : List ℝ) (invert : Bool)
    (colors : Option (List Col)) (smap : Option ((ℝ → Col) × (ℝ → Col))) :
    drawColorbarContours grey o levels invert colors smap = .error .runtimeError ↔
      ¬ ['v'] <+: o.toList ∧ ¬ ['h'] <+: o.toList := by
  unfold drawColorbarContours
  simp only
  split_ifs with h1 h2 <;> simp [h1, *]

/-- **C130 (full statement, not true of the code).** A line is drawn at every level, whatever colours are given. -/
def C130_Claim : Prop :=
  ∀ (o : String) (levels : List ℝ) (colors : List ℕ), ['v'] <+: o.toList →
    ∃ lines, drawColorbarContours 0 o levels true (some colors) none = .ok lines ∧ lines.map (·.level) = levels

/-- **C130.** With given colours lines are drawn at the first levels, as many as there are colours. -/
theorem C130_colors_partial {Col : Type*} (grey : Col) (o : String) (ho : ['v'] <+: o.toList ∨ ['h'] <+: o.toList)
    (levels : List ℝ) (invert : Bool) (colors : List Col) (smap : Option ((ℝ → Col) × (ℝ → Col))) :
    ∃ lines, drawColorbarContours grey o levels invert (some colors) smap = .ok lines ∧
      lines.map (·.level) = levels.take colors.length ∧ lines.map (·.color) = colors.take levels.length := by
  have key : ∀ h : Bool,
      (((levels.zip colors).zip colors.reverse).map fun x => (⟨h, x.1.1, x.1.2, x.2⟩ : BarLine Col)).map (·.level)
        = levels.take colors.length ∧
      (((levels.zip colors).zip colors.reverse).map fun x => (⟨h, x.1.1, x.1.2, x.2⟩ : BarLine Col)).map (·.color)
        = colors.take levels.length := by
    intro h
    constructor
    · rw [List.map_map]
      apply List.ext_getElem (by simp; omega)
      intro i h1 h2
      simp
    · rw [List.map_map]
      apply List.ext_getElem (by simp)
      intro i h1 h2
      simp
  unfold drawColorbarContours
  simp only
  split_ifs with h1 h2
  · exact ⟨_, rfl, key true⟩
  · exact ⟨_, rfl, key false⟩
  · exact absurd ho (by simp [h1, h2])

/-- **C130 fails** if fewer colours than levels are given: the other levels are silently left out. -/
theorem C130_refuted : ¬ C130_Claim := by
  intro h
  obtain ⟨lines, h1, h2⟩ := h "vertical" [1, 2] [5] (by decide)
  obtain ⟨lines', h1', h2', -⟩ := C130_colors_partial 0 "vertical" (Or.inl (by decide)) [1, 2] true [5] none
  obtain rfl : lines = lines' := Except.ok.inj (h1.symm.trans h1')
  rw [h2] at h2'
  simp at h2'

example : drawColorbarContours "0.5" "vertical" [1, 2] = .ok [⟨true, 1, "0.5", "0.5"⟩, ⟨true, 2, "0.5", "0.5"⟩] := by
  simp [drawColorbarContours, barLineColors]

/-! ### C131: the figure of a corner plot -/

/-- **C131.** A figure always has as many rows as columns of panels, namely the number asked for; the spacing and the
size that are given are used. -/
theorem C131_given (size : ℕ) (grid : GridArg) (h w x y : ℝ) :
    (∀ given hs ws fs, (figax size given grid hs ws fs).rows = size ∧ (figax size given grid hs ws fs).cols = size) ∧
    (figax size false grid (some h) (some w) (some (.pair x y))).figsize = some (x, y) ∧
    (figax size false grid (some h) (some w) (some (.num x))).figsize = some (x, x) ∧
    (∀ fs, (figax size true grid (some h) (some w) fs).figsize = none) ∧
    (∀ given fs, (figax size given grid (some h) (some w) fs).hspace = h ∧
      (figax size given grid (some h) (some w) fs).wspace = w) := by
  refine ⟨fun _ _ _ _ => ⟨rfl, rfl⟩, rfl, rfl, fun _ => rfl, fun _ _ => ⟨rfl, rfl⟩⟩

/-- **C131.** Without a given size the figure is square, between 6 and 20 inches, does not shrink when panels are added,
and has four inches per panel from two to five panels. -/
theorem C131_default (grid : GridArg) (hs ws : Option ℝ) : ∃ s : ℕ → ℝ,
    (∀ n, (figax n false grid hs ws).figsize = some (s n, s n)) ∧ (∀ n, 6 ≤ s n ∧ s n ≤ 20) ∧ Monotone s ∧
    ∀ n : ℕ, 2 ≤ n → n ≤ 5 → s n = 4 * n := by
  refine ⟨fun n => max 6 (min (4 * n) 20), fun n => rfl, fun n => ⟨le_max_left _ _, ?_⟩, ?_, ?_⟩
  · exact max_le (by norm_num) (min_le_right _ _)
  · intro a b hab
    have : (a : ℝ) ≤ b := by exact_mod_cast hab
    exact max_le_max le_rfl (min_le_min (by linarith) le_rfl)
  · intro n h2 h5
    have h2' : (2 : ℝ) ≤ n := by exact_mod_cast h2
    have h5' : (n : ℝ) ≤ 5 := by exact_mod_cast h5
    simp only
    rw [min_eq_left (by linarith), max_eq_right (by linarith)]

/-- **C131.** Grid lines are drawn by default and with given settings, and not with `grid=False`. -/
theorem C131_grid (size : ℕ) (given : Bool) (hs ws : Option ℝ) (fs : Option SizeArg) :
    (figax size given .true hs ws fs).grid.isSome = true ∧ (figax size given .off hs ws fs).grid = none ∧
    ∀ s, (figax size given (.settings s) hs ws fs).grid = some s := ⟨rfl, rfl, fun _ => rfl⟩

example : (figax 3).figsize = some (12, 12) ∧ (figax 1).figsize = some (6, 6) ∧ (figax 7).figsize = some (20, 20) := by
  norm_num [figax]

end Kalepy
