import Mathlib.Tactic.Linarith
import Mathlib.Tactic.Ring
import Mathlib.Tactic.FieldSimp
import Mathlib.Tactic.NormNum
import Mathlib.Tactic.FinCases
import Mathlib.Data.Fin.VecNotation
import Verif.Model.Corner
import Verif.Props.Minmax
import Verif.Proofs.Grid
import Verif.Props.Edges

/-!
# C56: the limits of corner plots
-/

namespace Kalepy

variable {n : ℕ}

namespace Spec

/-- The range given to a data set with extrema `lo` and `hi`: extended by 5% of its width on either side. -/
noncomputable def margin (lo hi : ℝ) : ℝ × ℝ := (lo - (hi - lo) / 20, hi + (hi - lo) / 20)

/-- The range given to a data set with extrema `lo` and `hi`, stored in an array of the element type of the data. -/
noncomputable def range (dt : DType) (lo hi : ℝ) : ℝ × ℝ := (dt.store (margin lo hi).1, dt.store (margin lo hi).2)

/-- The call adjusts the limits. -/
def Adjusts (auto : Bool) (p : CornerCall n) : Prop := p.limit.getD auto = true

/-- `c` shows the range `l` of every parameter in every panel in which that parameter is an axis: the column's parameter on
the x-axis; the row's parameter on the y-axis off the diagonal; the last diagonal panel has its parameter on the y-axis if rotated. -/
def ShowsLimits (c : Corner n) (l : Fin n → ℝ × ℝ) : Prop :=
  (∀ i j, j < i → (c.axes i j).xlim = some (l j) ∧ (c.axes i j).ylim = some (l i)) ∧
  ∀ i : Fin n, if c.rotate = true ∧ (i : ℕ) = n - 1 then (c.axes i i).ylim = some (l i)
    else (c.axes i i).xlim = some (l i)

end Spec

lemma stretch_tenth (dt : DType) (lo hi : ℝ) : stretchBy dt (lo, hi) (1 / 10, 1 / 10) = Spec.range dt lo hi := by
  simp only [stretchBy, Spec.range, Spec.margin]
  congr 2 <;> ring

lemma pyInt_le_of_le {x : ℝ} {m : ℤ} (h : x ≤ m) : ((pyInt x : ℤ) : ℝ) ≤ m := by
  unfold pyInt
  split_ifs with h0
  · exact (Int.floor_le x).trans h
  · exact_mod_cast Int.ceil_le.mpr h

lemma le_pyInt_of_le {x : ℝ} {m : ℤ} (h : (m : ℝ) ≤ x) : (m : ℝ) ≤ (pyInt x : ℤ) := by
  unfold pyInt
  split_ifs with h0
  · exact_mod_cast Int.le_floor.mpr h
  · exact h.trans (Int.le_ceil x)

lemma range_covers {dt : DType} {lo hi : ℝ} (h : lo ≤ hi) (h1 : dt.Holds lo) (h2 : dt.Holds hi) :
    (Spec.range dt lo hi).1 ≤ lo ∧ hi ≤ (Spec.range dt lo hi).2 := by
  cases dt with
  | float =>
    simp only [Spec.range, Spec.margin, DType.store]
    constructor <;> linarith
  | int =>
    obtain ⟨a, rfl⟩ := h1
    obtain ⟨b, rfl⟩ := h2
    simp only [Spec.range, Spec.margin, DType.store]
    constructor
    · apply pyInt_le_of_le; linarith
    · apply le_pyInt_of_le; linarith

lemma range_holds (dt : DType) (lo hi : ℝ) :
    dt.Holds (Spec.range dt lo hi).1 ∧ dt.Holds (Spec.range dt lo hi).2 := by
  cases dt with
  | float => exact ⟨trivial, trivial⟩
  | int => exact ⟨⟨_, rfl⟩, ⟨_, rfl⟩⟩

/-- The new limits of one parameter, for nonempty values. -/
lemma cornerLimit_eq (dt : DType) {vals : List ℝ} {lo hi : ℝ} (he : IsExtrema vals lo hi)
    (hv : ∀ x ∈ vals, dt.Holds x) (prev : Option (ℝ × ℝ)) :
    cornerLimit dt vals prev = .ok (applyPrev dt (Spec.range dt lo hi) (prev.map fun p => (some p.1, some p.2))) := by
  have hle : lo ≤ hi := (he.2.2 lo he.1).2
  obtain ⟨c1, c2⟩ := range_covers hle (hv _ he.1) (hv _ he.2.1)
  have he2 : IsExtrema [(Spec.range dt lo hi).1, (Spec.range dt lo hi).2] (Spec.range dt lo hi).1
      (Spec.range dt lo hi).2 := by
    refine ⟨by simp, by simp, fun x hx => ?_⟩
    simp at hx
    rcases hx with rfl | rfl
    · exact ⟨le_rfl, by linarith⟩
    · exact ⟨by linarith, le_rfl⟩
  unfold cornerLimit
  rw [(minmax_eq dt false none none (data := vals) (by simpa using he)).2.1, stretch_tenth]
  have e0 : applyLimit dt (applyPrev dt (Spec.range dt lo hi) none) none = Spec.range dt lo hi := rfl
  simp only [e0]
  rw [(minmax_eq dt false _ none (data := [(Spec.range dt lo hi).1, (Spec.range dt lo hi).2]) (by simpa using he2)).1]
  simp only [applyLimit]

/-- Limits that a list of calls (with element types `dt`) gives to one parameter: the smallest and largest of the
Spec.range extrema of the calls that adjust the limits. -/
structure Spec.IsHull (dt : Fin n → DType) (calls : List (CornerCall n)) (i : Fin n) (l : ℝ × ℝ) : Prop where
  /-- both ends come from calls -/
  attained_lo : ∃ p ∈ calls, ∃ lo hi, IsExtrema (p.vals i) lo hi ∧ l.1 = (Spec.range (dt i) lo hi).1
  attained_hi : ∃ p ∈ calls, ∃ lo hi, IsExtrema (p.vals i) lo hi ∧ l.2 = (Spec.range (dt i) lo hi).2
  /-- no call reaches further -/
  bounds : ∀ p ∈ calls, ∀ lo hi, IsExtrema (p.vals i) lo hi →
    l.1 ≤ (Spec.range (dt i) lo hi).1 ∧ (Spec.range (dt i) lo hi).2 ≤ l.2

lemma Spec.IsHull.unique {dt : Fin n → DType} {c1 c2 : List (CornerCall n)} (hp : c1.Perm c2) {i : Fin n}
    {a b : ℝ × ℝ} (ha : Spec.IsHull dt c1 i a) (hb : Spec.IsHull dt c2 i b) : a = b := by
  apply Prod.ext
  · obtain ⟨p, hp1, lo, hi, he, e⟩ := ha.attained_lo
    obtain ⟨q, hq1, lo', hi', he', e'⟩ := hb.attained_lo
    have h1 := (hb.bounds p (hp.mem_iff.mp hp1) lo hi he).1
    have h2 := (ha.bounds q (hp.mem_iff.mpr hq1) lo' hi' he').1
    linarith
  · obtain ⟨p, hp1, lo, hi, he, e⟩ := ha.attained_hi
    obtain ⟨q, hq1, lo', hi', he', e'⟩ := hb.attained_hi
    have h1 := (hb.bounds p (hp.mem_iff.mp hp1) lo hi he).2
    have h2 := (ha.bounds q (hp.mem_iff.mpr hq1) lo' hi' he').2
    linarith

/-- The calls considered: the values of parameter `i` are nonempty and of the element type `dt i` in all calls. -/
def Spec.SameTypes (dt : Fin n → DType) (calls : List (CornerCall n)) : Prop :=
  ∀ p ∈ calls, ∀ i, p.dt i = dt i ∧ p.vals i ≠ [] ∧ ∀ x ∈ p.vals i, (dt i).Holds x

lemma setExtrema_shows (c : Corner n) (l : Fin n → ℝ × ℝ) :
    Spec.ShowsLimits { c with
      limits := fun i => some (l i)
      axes := setExtrema c.rotate l c.axes } l := by
  refine ⟨fun i j hij => ?_, fun i => ?_⟩
  · simp only [setExtrema]
    rw [if_neg (by omega), if_neg (by omega)]
    exact ⟨rfl, rfl⟩
  · simp only [setExtrema, lt_self_iff_false, if_false, if_true]
    by_cases h : c.rotate = true ∧ (i : ℕ) = n - 1
    · rw [if_pos h, if_pos (by simpa using h)]
    · rw [if_neg h, if_neg (by simpa using h)]

/-- Visibility is that of the lower triangle. -/
def Spec.Triangle (c : Corner n) : Prop := ∀ i j, (c.axes i j).visible = true ↔ j ≤ i

lemma new_triangle (limits : Option (Fin n → ℝ × ℝ)) (rotate : Bool) : Spec.Triangle (Corner.new limits rotate) := by
  intro i j
  cases limits with
  | none => simp [Corner.new]
  | some l =>
    simp only [Corner.new, setExtrema]
    by_cases h : i < j
    · simp [h]
    · rw [if_neg h]
      split_ifs <;> simp [h] <;> exact not_lt.mp h

lemma call_triangle {c c' : Corner n} {p : CornerCall n} (h : c.call p = .ok c') (ht : Spec.Triangle c) :
    Spec.Triangle c' ∧ c'.rotate = c.rotate ∧ c'.auto = c.auto := by
  unfold Corner.call at h
  split at h
  · split at h
    · cases h
    · rename_i l _
      cases h
      refine ⟨fun i j => ?_, rfl, rfl⟩
      simp only [setExtrema]
      by_cases h : i < j
      · simp [h]
      · rw [if_neg h]
        have := ht i j
        split_ifs <;> simpa using this
  · cases h
    exact ⟨ht, rfl, rfl⟩

lemma calls_triangle {c c' : Corner n} (calls : List (CornerCall n)) (h : c.calls calls = .ok c')
    (ht : Spec.Triangle c) : Spec.Triangle c' ∧ c'.rotate = c.rotate ∧ c'.auto = c.auto := by
  induction calls generalizing c with
  | nil => cases h; exact ⟨ht, rfl, rfl⟩
  | cons p ps ih =>
    rw [Corner.calls] at h
    split at h
    · cases h
    · rename_i c1 h1
      obtain ⟨a, b, d⟩ := call_triangle h1 ht
      obtain ⟨a', b', d'⟩ := ih h a
      exact ⟨a', b'.trans b, d'.trans d⟩

/-- One call that adjusts the limits. -/
lemma call_adjust (c : Corner n) (p : CornerCall n) (dt : Fin n → DType) (hp : Spec.Adjusts c.auto p)
    (ht : Spec.SameTypes dt [p]) :
    ∃ l : Fin n → ℝ × ℝ, c.call p = .ok { c with
        limits := fun i => some (l i)
        axes := setExtrema c.rotate l c.axes } ∧
      ∀ i, ∃ lo hi, IsExtrema (p.vals i) lo hi ∧
        l i = applyPrev (dt i) (Spec.range (dt i) lo hi) ((c.limits i).map fun q => (some q.1, some q.2)) := by
  have hx : ∀ i, ∃ lo hi, IsExtrema (p.vals i) lo hi := fun i =>
    exists_extrema (ht p (by simp) i).2.1
  choose lo hi he using hx
  refine ⟨fun i => applyPrev (dt i) (Spec.range (dt i) (lo i) (hi i)) ((c.limits i).map fun q => (some q.1, some q.2)),
    ?_, fun i => ⟨lo i, hi i, he i, rfl⟩⟩
  unfold Corner.call
  rw [if_pos (show p.limit.getD c.auto = true from hp)]
  have : finSeq (fun i => cornerLimit (p.dt i) (p.vals i) (c.limits i)) =
      .ok fun i => applyPrev (dt i) (Spec.range (dt i) (lo i) (hi i)) ((c.limits i).map fun q => (some q.1, some q.2)) := by
    apply finSeq_ok.mpr
    intro i
    obtain ⟨h1, h2, h3⟩ := ht p (by simp) i
    rw [h1]
    exact cornerLimit_eq (dt i) (he i) h3 _
  rw [this]

/-- What the limits of `c` are after the calls `done` that adjusted them. -/
def Spec.LimitsOf (dt : Fin n → DType) (done : List (CornerCall n)) (c : Corner n) : Prop :=
  (done = [] → ∀ i, c.limits i = none) ∧
  (done ≠ [] → ∃ l : Fin n → ℝ × ℝ, (∀ i, c.limits i = some (l i)) ∧ (∀ i, Spec.IsHull dt done i (l i)) ∧
    Spec.ShowsLimits c l)

lemma hull_first (dt : Fin n → DType) (p : CornerCall n) (i : Fin n) {lo hi : ℝ} (he : IsExtrema (p.vals i) lo hi) :
    Spec.IsHull dt [p] i (Spec.range (dt i) lo hi) := by
  refine ⟨⟨p, by simp, lo, hi, he, rfl⟩, ⟨p, by simp, lo, hi, he, rfl⟩, fun q hq lo' hi' he' => ?_⟩
  rw [List.mem_singleton] at hq
  subst hq
  obtain ⟨rfl, rfl⟩ := he.unique he'
  exact ⟨le_rfl, le_rfl⟩

lemma hull_holds {dt : Fin n → DType} {done : List (CornerCall n)} {i : Fin n} {l : ℝ × ℝ}
    (h : Spec.IsHull dt done i l) : (dt i).Holds l.1 ∧ (dt i).Holds l.2 := by
  obtain ⟨_, _, lo, hi, _, e⟩ := h.attained_lo
  obtain ⟨_, _, lo', hi', _, e'⟩ := h.attained_hi
  rw [e, e']
  exact ⟨(range_holds _ _ _).1, (range_holds _ _ _).2⟩

lemma hull_next {dt : Fin n → DType} {done : List (CornerCall n)} {p : CornerCall n} {i : Fin n} {l : ℝ × ℝ}
    (h : Spec.IsHull dt done i l) {lo hi : ℝ} (he : IsExtrema (p.vals i) lo hi) :
    Spec.IsHull dt (done ++ [p]) i
      (applyPrev (dt i) (Spec.range (dt i) lo hi) (some (some l.1, some l.2))) := by
  obtain ⟨k1, k2⟩ := hull_holds h
  obtain ⟨r1, r2⟩ := range_holds (dt i) lo hi
  have s1 : (dt i).store (min (Spec.range (dt i) lo hi).1 l.1) = min (Spec.range (dt i) lo hi).1 l.1 := by
    apply DType.store_of_holds
    rcases min_choice (Spec.range (dt i) lo hi).1 l.1 with e | e <;> rw [e] <;> assumption
  have s2 : (dt i).store (max (Spec.range (dt i) lo hi).2 l.2) = max (Spec.range (dt i) lo hi).2 l.2 := by
    apply DType.store_of_holds
    rcases max_choice (Spec.range (dt i) lo hi).2 l.2 with e | e <;> rw [e] <;> assumption
  simp only [applyPrev, s1, s2]
  refine ⟨?_, ?_, fun q hq lo' hi' he' => ?_⟩
  · rcases min_choice (Spec.range (dt i) lo hi).1 l.1 with e | e <;> simp only [e]
    · exact ⟨p, by simp, lo, hi, he, rfl⟩
    · obtain ⟨q, hq, x⟩ := h.attained_lo
      exact ⟨q, by simp [hq], x⟩
  · rcases max_choice (Spec.range (dt i) lo hi).2 l.2 with e | e <;> simp only [e]
    · exact ⟨p, by simp, lo, hi, he, rfl⟩
    · obtain ⟨q, hq, x⟩ := h.attained_hi
      exact ⟨q, by simp [hq], x⟩
  · rcases List.mem_append.mp hq with hq | hq
    · obtain ⟨a, b⟩ := h.bounds q hq lo' hi' he'
      exact ⟨(min_le_right _ _).trans a, b.trans (le_max_right _ _)⟩
    · rw [List.mem_singleton] at hq
      subst hq
      obtain ⟨rfl, rfl⟩ := he.unique he'
      exact ⟨min_le_left _ _, le_max_left _ _⟩

lemma call_limits {dt : Fin n → DType} {done : List (CornerCall n)} {c : Corner n} (hc : Spec.LimitsOf dt done c)
    {p : CornerCall n} (hp : Spec.Adjusts c.auto p) (ht : Spec.SameTypes dt [p]) :
    ∃ c', c.call p = .ok c' ∧ Spec.LimitsOf dt (done ++ [p]) c' := by
  obtain ⟨l, hcall, hl⟩ := call_adjust c p dt hp ht
  refine ⟨_, hcall, by simp, fun _ => ⟨l, fun i => rfl, fun i => ?_, setExtrema_shows c l⟩⟩
  obtain ⟨lo, hi, he, e⟩ := hl i
  rw [e]
  by_cases hd : done = []
  · subst hd
    rw [hc.1 rfl i]
    simp only [Option.map_none, List.nil_append]
    exact hull_first dt p i he
  · obtain ⟨l0, h1, h2, -⟩ := hc.2 hd
    rw [h1 i]
    simp only [Option.map_some]
    exact hull_next (h2 i) he

lemma calls_limits {dt : Fin n → DType} (calls : List (CornerCall n)) {done : List (CornerCall n)} {c : Corner n}
    (hc : Spec.LimitsOf dt done c) (ht : Spec.SameTypes dt (calls.filter fun p => p.limit.getD c.auto)) :
    ∃ c', c.calls calls = .ok c' ∧
      Spec.LimitsOf dt (done ++ calls.filter fun p => p.limit.getD c.auto) c' := by
  induction calls generalizing c done with
  | nil => exact ⟨c, rfl, by simpa using hc⟩
  | cons p ps ih =>
    by_cases hp : p.limit.getD c.auto = true
    · rw [List.filter_cons_of_pos (by simpa using hp)] at ht ⊢
      obtain ⟨c1, h1, hc1⟩ := call_limits hc hp (fun q hq i => ht q (by simp at hq; simp [hq]) i)
      have ha : c1.auto = c.auto := by
        unfold Corner.call at h1
        rw [if_pos hp] at h1
        split at h1
        · cases h1
        · cases h1; rfl
      obtain ⟨c2, h2, hc2⟩ := ih hc1 (by rw [ha]; exact fun q hq i => ht q (by simp [hq]) i)
      refine ⟨c2, ?_, ?_⟩
      · rw [Corner.calls, h1]; exact h2
      · rw [ha] at hc2; simpa using hc2
    · rw [List.filter_cons_of_neg (by simpa using hp)] at ht ⊢
      obtain ⟨c2, h2, hc2⟩ := ih hc ht
      refine ⟨c2, ?_, hc2⟩
      rw [Corner.calls, Corner.call, if_neg hp]
      exact h2

/-- **C56 (partial).** For every sequence of plot calls on a corner plot with automatic limits, if the values of each
parameter have the same element type in all calls that adjust the limits (e.g. all data are floats): the
limits of each parameter are the outermost of the ranges of these calls (extrema extended by 5% of the width), so
they contain all values plotted, and every panel of the triangle shows them; the other panels are invisible.
Missing: calls whose data have different element types (see `C56_refuted`). -/
theorem C56_limits_partial (dt : Fin n → DType) (rotate : Bool) (calls : List (CornerCall n))
    (ht : Spec.SameTypes dt (calls.filter fun p => p.limit.getD true)) :
    ∃ c, (Corner.new none rotate).calls calls = .ok c ∧ Spec.Triangle c ∧ c.rotate = rotate ∧
      Spec.LimitsOf dt (calls.filter fun p => p.limit.getD true) c ∧
      ∀ p ∈ calls, p.limit.getD true = true → ∀ i, ∀ x ∈ p.vals i,
        ∃ l, c.limits i = some l ∧ l.1 ≤ x ∧ x ≤ l.2 := by
  have h0 : Spec.LimitsOf dt [] (Corner.new none rotate : Corner n) := ⟨fun _ _ => rfl, fun h => absurd rfl h⟩
  obtain ⟨c, h, hc⟩ := calls_limits calls h0 ht
  obtain ⟨t1, t2, -⟩ := calls_triangle calls h (new_triangle none rotate)
  refine ⟨c, h, t1, t2, hc, fun p hp hlim i x hx => ?_⟩
  have hmem : p ∈ calls.filter fun p => p.limit.getD true := List.mem_filter.mpr ⟨hp, hlim⟩
  obtain ⟨l, l1, l2, -⟩ := hc.2 (List.ne_nil_of_mem hmem)
  obtain ⟨e1, e2, e3⟩ := ht p hmem i
  obtain ⟨lo, hi, he⟩ := exists_extrema e2
  obtain ⟨b1, b2⟩ := (l2 i).bounds p hmem lo hi he
  obtain ⟨c1, c2⟩ := range_covers (dt := dt i) (he.2.2 lo he.1).2 (e3 _ he.1) (e3 _ he.2.1)
  have := he.2.2 x hx
  exact ⟨l i, l1 i, by linarith, by linarith⟩

/-- **C56 (partial), order.** The limits, and those shown in the panels, do not depend on the order of the calls. -/
theorem C56_order_partial (dt : Fin n → DType) (rotate : Bool) (calls calls' : List (CornerCall n))
    (hp : calls.Perm calls') (ht : Spec.SameTypes dt (calls.filter fun p => p.limit.getD true)) :
    ∃ c c', (Corner.new none rotate).calls calls = .ok c ∧ (Corner.new none rotate).calls calls' = .ok c' ∧
      c.limits = c'.limits ∧
      ((∃ p ∈ calls, p.limit.getD true = true) → ∃ l, Spec.ShowsLimits c l ∧ Spec.ShowsLimits c' l) := by
  have hpf : (calls.filter fun p => p.limit.getD true).Perm (calls'.filter fun p => p.limit.getD true) :=
    hp.filter _
  obtain ⟨c, h, t, -, hc, -⟩ := C56_limits_partial dt rotate calls ht
  obtain ⟨c', h', t', -, hc', -⟩ := C56_limits_partial dt rotate calls'
    (fun q hq i => ht q (hpf.mem_iff.mpr hq) i)
  refine ⟨c, c', h, h', ?_, ?_⟩
  · by_cases hd : (calls.filter fun p => p.limit.getD true) = []
    · have hd' : (calls'.filter fun p => p.limit.getD true) = [] := by
        rw [hd] at hpf; exact hpf.nil_eq.symm
      funext i
      rw [hc.1 hd i, hc'.1 hd' i]
    · have hd' : (calls'.filter fun p => p.limit.getD true) ≠ [] := fun e => by
        rw [e] at hpf; exact hd hpf.eq_nil
      obtain ⟨l, l1, l2, -⟩ := hc.2 hd
      obtain ⟨l', l1', l2', -⟩ := hc'.2 hd'
      funext i
      rw [l1 i, l1' i, Spec.IsHull.unique hpf (l2 i) (l2' i)]
  · rintro ⟨p, hpm, hlim⟩
    have hm : p ∈ calls.filter fun p => p.limit.getD true := List.mem_filter.mpr ⟨hpm, hlim⟩
    obtain ⟨l, l1, l2, l3⟩ := hc.2 (List.ne_nil_of_mem hm)
    obtain ⟨l', l1', l2', l3'⟩ := hc'.2 (List.ne_nil_of_mem (hpf.mem_iff.mp hm))
    have : l' = l := funext fun i => (Spec.IsHull.unique hpf (l2 i) (l2' i)).symm
    exact ⟨l, l3, this ▸ l3'⟩

/-- **C56 (partial), growth.** Further calls never shrink the limits of any parameter. -/
theorem C56_grow_partial (dt : Fin n → DType) (rotate : Bool) (calls more : List (CornerCall n))
    (ht : Spec.SameTypes dt ((calls ++ more).filter fun p => p.limit.getD true)) :
    ∃ c c', (Corner.new none rotate).calls calls = .ok c ∧
      (Corner.new none rotate).calls (calls ++ more) = .ok c' ∧
      ∀ i l, c.limits i = some l → ∃ l', c'.limits i = some l' ∧ l'.1 ≤ l.1 ∧ l.2 ≤ l'.2 := by
  rw [List.filter_append] at ht
  obtain ⟨c, h, -, -, hc, -⟩ := C56_limits_partial dt rotate calls (fun q hq i => ht q (by simp only [List.mem_append]; exact Or.inl hq) i)
  obtain ⟨c', h', -, -, hc', -⟩ := C56_limits_partial dt rotate (calls ++ more) (by rw [List.filter_append]; exact ht)
  refine ⟨c, c', h, h', fun i l hl => ?_⟩
  by_cases hd : (calls.filter fun p => p.limit.getD true) = []
  · rw [hc.1 hd i] at hl; cases hl
  · obtain ⟨l0, l1, l2, -⟩ := hc.2 hd
    rw [l1 i] at hl
    cases hl
    rw [List.filter_append] at hc'
    obtain ⟨m0, m1, m2, -⟩ := hc'.2 (by simp [hd])
    refine ⟨m0 i, m1 i, ?_, ?_⟩
    · obtain ⟨p, hp, lo, hi, he, e⟩ := (l2 i).attained_lo
      rw [e]
      exact ((m2 i).bounds p (List.mem_append_left _ hp) lo hi he).1
    · obtain ⟨p, hp, lo, hi, he, e⟩ := (l2 i).attained_hi
      rw [e]
      exact ((m2 i).bounds p (List.mem_append_left _ hp) lo hi he).2

/-- **C56, given limits.** Limits given at construction stay, in all panels, whatever is plotted (unless a call asks for
adjusted limits). -/
theorem C56_given (l : Fin n → ℝ × ℝ) (rotate : Bool) (calls : List (CornerCall n))
    (h : ∀ p ∈ calls, p.limit ≠ some true) :
    (Corner.new (some l) rotate).calls calls = .ok (Corner.new (some l) rotate) ∧
    Spec.ShowsLimits (Corner.new (some l) rotate) l := by
  constructor
  · induction calls with
    | nil => rfl
    | cons p ps ih =>
      have hp : ¬ p.limit.getD (Corner.new (some l) rotate).auto = true := by
        have := h p (by simp)
        rcases hl : p.limit with _ | b
        · simp [Corner.new]
        · cases b
          · simp
          · exact absurd hl this
      rw [Corner.calls, Corner.call, if_neg hp]
      exact ih fun q hq => h q (by simp [hq])
  · exact setExtrema_shows ⟨fun _ => none, false, rotate, fun ii jj => ⟨none, none, !decide (ii < jj)⟩⟩ l

/-- **C56, automatic edges.** For `plot`, `clean` and `plot_kde` without given edges the limits come from the automatic
edges; they contain the data of the KDE. -/
theorem C56_kde_data {d : ℕ} (srt : List ℝ → List ℕ) (data : List (Fin d → ℝ)) (hne : data ≠ [])
    (nmin nmax : ℤ) (h0 : 0 < nmin) (h1 : nmin ≤ nmax) (refine : ℝ) (hr : 0 < refine) (E : List (List ℝ))
    (hE : parseEdges srt data .none none none nmin nmax none refine none = .ok E) (rotate : Bool)
    (before after : List (CornerCall d))
    (hb : Spec.SameTypes (fun _ => .float) ((before ++ after).filter fun p => p.limit.getD true)) :
    ∃ c, (Corner.new none rotate).calls
        (before ++ .plotKde (fun _ => .float) (fun i => E.getD i []) none :: after) = .ok c ∧
      ∀ x ∈ data, ∀ i, ∃ l, c.limits i = some l ∧ l.1 ≤ x i ∧ x i ≤ l.2 := by
  obtain ⟨-, ext, hext, hi⟩ := C45_edges srt data .none none none nmin nmax none refine none hr E hE
  obtain ⟨ext', hext', he⟩ := C22_none data hne
  rw [hext] at hext'
  injection hext' with hext'
  subst hext'
  have hl : ∀ i : Fin d, ∃ l a b, E[(i : ℕ)]? = some l ∧ a ∈ l ∧ b ∈ l ∧ ∀ x ∈ data, a ≤ x i ∧ x i ≤ b := by
    intro i
    obtain ⟨l, hl, m, w, hm1, hm2, hw, hs⟩ := hi i .auto rfl
    have hm : 0 < m := lt_of_lt_of_le h0 (hm2 h1)
    have hle : (ext i).1 ≤ (ext i).2 := ((he i).2.2 _ (he i).1).2
    obtain ⟨-, a, b, ha, hb, -, -, hx⟩ := C45_covers (pad := 1) (by omega) hw (by norm_num)
      (Or.inr ⟨hle, by norm_num⟩) (hs hm)
    refine ⟨l, a, b, hl, List.mem_of_getElem? ha, List.mem_of_getElem? hb, fun x hxd => ?_⟩
    have := (he i).2.2 (x i) (List.mem_map_of_mem hxd)
    exact hx _ this.1 this.2
  have ht : Spec.SameTypes (fun _ => .float) ((before ++ .plotKde (fun _ => .float) (fun i : Fin d => E.getD i []) none ::
      after).filter fun p => p.limit.getD true) := by
    intro p hp i
    rw [List.filter_append] at hp hb
    rcases List.mem_append.mp hp with hp | hp
    · exact hb p (List.mem_append_left _ hp) i
    · rw [List.filter_cons_of_pos (by rfl)] at hp
      rcases List.mem_cons.mp hp with rfl | hp
      · obtain ⟨l, a, b, hl, ha, -, -⟩ := hl i
        refine ⟨rfl, ?_, fun _ _ => trivial⟩
        simp only [CornerCall.vals, List.getD_eq_getElem?_getD, hl, Option.getD_some]
        exact List.ne_nil_of_mem ha
      · exact hb p (List.mem_append_right _ hp) i
  obtain ⟨c, hc, -, -, -, hcov⟩ := C56_limits_partial _ rotate _ ht
  refine ⟨c, hc, fun x hx i => ?_⟩
  obtain ⟨l, a, b, hl, ha, hb', hab⟩ := hl i
  have hmem : (CornerCall.plotKde (fun _ => .float) (fun i : Fin d => E.getD i []) none) ∈
      before ++ .plotKde (fun _ => .float) (fun i => E.getD i []) none :: after := by simp
  have hv : ∀ y ∈ l, y ∈ (CornerCall.plotKde (fun _ => .float) (fun i : Fin d => E.getD i []) none).vals i := by
    intro y hy
    simpa only [CornerCall.vals, List.getD_eq_getElem?_getD, hl, Option.getD_some] using hy
  obtain ⟨l1, e1, q1, -⟩ := hcov _ hmem rfl i a (hv a ha)
  obtain ⟨l2, e2, -, q2⟩ := hcov _ hmem rfl i b (hv b hb')
  rw [e1] at e2
  cases e2
  exact ⟨l1, e1, q1.trans (hab x hx).1, (hab x hx).2.trans q2⟩

/-- **C56 (full statement, not true of the code).** -/
def C56_Claim : Prop :=
  ∀ (calls : List (CornerCall 1)), (∀ p ∈ calls, ∀ i, p.vals i ≠ [] ∧ ∀ x ∈ p.vals i, (p.dt i).Holds x) →
    ∀ c, (Corner.new none true).calls calls = .ok c → ∀ p ∈ calls, p.limit.getD true = true → ∀ i, ∀ x ∈ p.vals i,
      ∃ l, c.limits i = some l ∧ l.1 ≤ x ∧ x ≤ l.2

/-- **C56 fails** when data of integers are plotted after data of floats: the limits are then stored as integers,
rounded towards zero.  Here the data 0.5, 0.9 and then 0, 0: the upper limit becomes 0. -/
theorem C56_refuted : ¬ C56_Claim := by
  intro h
  have e1 : IsExtrema [(1 : ℝ) / 2, 9 / 10] (1 / 2) (9 / 10) := by
    refine ⟨by simp, by simp, fun x hx => ?_⟩
    simp at hx
    rcases hx with rfl | rfl <;> norm_num
  have e2 : IsExtrema [(0 : ℝ), 0] 0 0 := by
    refine ⟨by simp, by simp, fun x hx => ?_⟩
    simp at hx
    subst hx; simp
  obtain ⟨c1, h1, hc1⟩ := call_limits (dt := fun _ : Fin 1 => .float) (done := []) (c := Corner.new none true)
    (p := .plotData .float (fun _ => [1 / 2, 9 / 10]) none) ⟨fun _ _ => rfl, fun h => absurd rfl h⟩ rfl
    (by intro p hp i; simp at hp; subst hp; exact ⟨rfl, by simp [CornerCall.vals], fun _ _ => trivial⟩)
  have hint : ∀ x ∈ [(0 : ℝ), 0], DType.int.Holds x := by
    intro x hx; simp at hx; subst hx; exact ⟨0, by simp⟩
  obtain ⟨l1, k1, k2, -⟩ := hc1.2 (by simp)
  have ha : c1.auto = true := (call_triangle h1 (new_triangle none true)).2.2
  obtain ⟨l, hcall, hl⟩ := call_adjust c1 (.plotData .int (fun _ => [0, 0]) none) (fun _ => .int)
    (by rw [ha]; rfl) (by intro p hp i; simp at hp; subst hp; exact ⟨rfl, by simp [CornerCall.vals], hint⟩)
  obtain ⟨lo, hi, he, e⟩ := hl 0
  obtain ⟨rfl, rfl⟩ := e2.unique he
  obtain ⟨p, hp, lo', hi', he', e'⟩ := (k2 0).attained_hi
  rw [List.nil_append, List.mem_singleton] at hp
  subst hp
  obtain ⟨rfl, rfl⟩ := e1.unique he'
  have hrun : (Corner.new none true).calls [.plotData .float (fun _ : Fin 1 => [1 / 2, 9 / 10]) none,
      .plotData .int (fun _ => [0, 0]) none] = .ok { c1 with
        limits := fun i => some (l i)
        axes := setExtrema c1.rotate l c1.axes } := by
    simp only [Corner.calls, h1, hcall]
  obtain ⟨l', hl', -, hx⟩ := h _ (by
    intro p hp i
    simp at hp
    rcases hp with rfl | rfl
    · exact ⟨by simp [CornerCall.vals], fun _ _ => trivial⟩
    · exact ⟨by simp [CornerCall.vals], hint⟩) _ hrun (.plotData .float (fun _ => [1 / 2, 9 / 10]) none)
    (by simp) rfl 0 (9 / 10) (by simp [CornerCall.vals])
  simp only [Option.some.injEq] at hl'
  subst hl'
  rw [e, k1 0] at hx
  simp only [Option.map_some, applyPrev, Spec.range, Spec.margin, DType.store, e'] at hx
  have : pyInt (max (((pyInt (0 + (0 - 0) / 20 : ℝ)) : ℤ) : ℝ) (9 / 10 + (9 / 10 - 1 / 2) / 20)) = 0 := by
    unfold pyInt
    norm_num [Int.floor_eq_iff]
  rw [this] at hx
  norm_num at hx

/-- Two data sets of floats: the limits are -0.1 (from the first, of range 0 to 2) and 5.1 (second: 3 to 5). -/
example : ∃ c, (Corner.new none true).calls [.plotData .float (fun _ : Fin 1 => [0, 2]) none,
    .plotData .float (fun _ => [5, 3]) none] = .ok c ∧ c.limits 0 = some (-1 / 10, 51 / 10) := by
  have ht : Spec.SameTypes (fun _ : Fin 1 => DType.float) [.plotData .float (fun _ : Fin 1 => [0, 2]) none,
      .plotData .float (fun _ => [5, 3]) none] := by
    intro p hp i
    simp at hp
    rcases hp with rfl | rfl <;> exact ⟨rfl, by simp [CornerCall.vals], fun _ _ => trivial⟩
  obtain ⟨c, h, -, -, hc, -⟩ := C56_limits_partial (fun _ => .float) true
    [.plotData .float (fun _ : Fin 1 => [0, 2]) none, .plotData .float (fun _ => [5, 3]) none] ht
  refine ⟨c, h, ?_⟩
  obtain ⟨l, l1, l2, -⟩ := hc.2 (by simp [CornerCall.limit])
  rw [l1 0]
  congr 1
  have e1 : IsExtrema [(0 : ℝ), 2] 0 2 := by
    refine ⟨by simp, by simp, fun x hx => ?_⟩
    simp at hx
    rcases hx with rfl | rfl <;> norm_num
  have e2 : IsExtrema [(5 : ℝ), 3] 3 5 := by
    refine ⟨by simp, by simp, fun x hx => ?_⟩
    simp at hx
    rcases hx with rfl | rfl <;> norm_num
  refine Spec.IsHull.unique (List.Perm.refl _) (l2 0) ⟨?_, ?_, ?_⟩
  · exact ⟨.plotData .float (fun _ => [0, 2]) none, by simp [CornerCall.limit], 0, 2, e1, by
      norm_num [Spec.range, Spec.margin, DType.store]⟩
  · exact ⟨.plotData .float (fun _ => [5, 3]) none, by simp [CornerCall.limit], 3, 5, e2, by
      norm_num [Spec.range, Spec.margin, DType.store]⟩
  · intro p hp lo hi he
    simp [CornerCall.limit] at hp
    rcases hp with rfl | rfl
    · obtain ⟨rfl, rfl⟩ := e1.unique he
      norm_num [Spec.range, Spec.margin, DType.store]
    · obtain ⟨rfl, rfl⟩ := e2.unique he
      norm_num [Spec.range, Spec.margin, DType.store]

end Kalepy
