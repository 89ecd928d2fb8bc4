import Mathlib.Tactic.Linarith
import Mathlib.Tactic.NormNum
import Mathlib.Tactic.Positivity
import Verif.Model.Utils

/-!
# C34: minmax
-/

namespace Kalepy

lemma npMin_spec (a : ℝ) (l : List ℝ) : npMin a l ∈ a :: l ∧ ∀ x ∈ a :: l, npMin a l ≤ x := by
  unfold npMin
  induction l generalizing a with
  | nil => simp
  | cons b l ih =>
    obtain ⟨h1, h2⟩ := ih (min a b)
    simp only [List.foldl_cons, List.mem_cons] at *
    refine ⟨?_, ?_⟩
    · rcases h1 with h | h
      · rw [h]
        rcases min_choice a b with h' | h' <;> simp [h']
      · exact Or.inr (Or.inr h)
    · intro x hx
      have h0 := h2 (min a b) (Or.inl rfl)
      rcases hx with rfl | rfl | hx
      · exact h0.trans (min_le_left _ _)
      · exact h0.trans (min_le_right _ _)
      · exact h2 x (Or.inr hx)

lemma npMax_spec (a : ℝ) (l : List ℝ) : npMax a l ∈ a :: l ∧ ∀ x ∈ a :: l, x ≤ npMax a l := by
  unfold npMax
  induction l generalizing a with
  | nil => simp
  | cons b l ih =>
    obtain ⟨h1, h2⟩ := ih (max a b)
    simp only [List.foldl_cons, List.mem_cons] at *
    refine ⟨?_, ?_⟩
    · rcases h1 with h | h
      · rw [h]
        rcases max_choice a b with h' | h' <;> simp [h']
      · exact Or.inr (Or.inr h)
    · intro x hx
      have h0 := h2 (max a b) (Or.inl rfl)
      rcases hx with rfl | rfl | hx
      · exact (le_max_left _ _).trans h0
      · exact (le_max_right _ _).trans h0
      · exact h2 x (Or.inr hx)

/-- `lo` and `hi` are the smallest and largest element of the list. -/
def IsExtrema {K : Type*} [LE K] (data : List K) (lo hi : K) : Prop :=
  lo ∈ data ∧ hi ∈ data ∧ ∀ x ∈ data, lo ≤ x ∧ x ≤ hi

lemma IsExtrema.unique {data : List ℝ} {a b a' b' : ℝ} (h : IsExtrema data a b)
    (h' : IsExtrema data a' b') : a = a' ∧ b = b' :=
  ⟨le_antisymm (h.2.2 _ h'.1).1 (h'.2.2 _ h.1).1,
   le_antisymm (h'.2.2 _ h.2.1).2 (h.2.2 _ h'.2.1).2⟩

lemma exists_extrema {data : List ℝ} (h : data ≠ []) : ∃ lo hi, IsExtrema data lo hi := by
  cases data with
  | nil => exact absurd rfl h
  | cons a l =>
    exact ⟨npMin a l, npMax a l, (npMin_spec a l).1, (npMax_spec a l).1,
      fun x hx => ⟨(npMin_spec a l).2 x hx, (npMax_spec a l).2 x hx⟩⟩

/-- The extrema, without options. -/
lemma minmax_eq (dt : DType) {data : List ℝ} (positive : Bool)
    (prev limit : Option (Option ℝ × Option ℝ)) {lo hi : ℝ}
    (h : IsExtrema (if positive then data.filter (0 < ·) else data) lo hi) :
    minmax dt data positive prev none none limit =
      .ok (some (some (applyLimit dt (applyPrev dt (lo, hi) prev) limit).1,
        some (applyLimit dt (applyPrev dt (lo, hi) prev) limit).2)) ∧
    (∀ f, minmax dt data positive prev (some f) none limit =
      .ok (some (some (applyLimit dt (applyPrev dt (stretchBy dt (lo, hi) f) prev) limit).1,
        some (applyLimit dt (applyPrev dt (stretchBy dt (lo, hi) f) prev) limit).2))) ∧
    (∀ f, 0 < lo → minmax dt data positive prev none (some f) limit =
      let s := stretchBy .float (Real.logb 10 lo, Real.logb 10 hi) f
      .ok (some (some (applyLimit .float (applyPrev .float ((10 : ℝ) ^ s.1, (10 : ℝ) ^ s.2) prev) limit).1,
        some (applyLimit .float (applyPrev .float ((10 : ℝ) ^ s.1, (10 : ℝ) ^ s.2) prev) limit).2))) := by
  have hd : data ≠ [] := by
    rintro rfl; simp [IsExtrema] at h
  cases hl : (if positive then data.filter (0 < ·) else data) with
  | nil => rw [hl] at h; simp [IsExtrema] at h
  | cons a l =>
    rw [hl] at h
    obtain ⟨e1, e2⟩ := h.unique ⟨(npMin_spec a l).1, (npMax_spec a l).1,
      fun x hx => ⟨(npMin_spec a l).2 x hx, (npMax_spec a l).2 x hx⟩⟩
    subst e1 e2
    unfold minmax
    simp only [if_neg hd, hl]
    refine ⟨trivial, fun f => trivial, fun f h0 => ?_⟩
    rw [if_pos h0]

/-- **C34.** Without options, `minmax` returns the smallest and largest element (of either element
type); with `positive=True` those of the positive elements, raising if there are none; for empty data
it returns `prev`. -/
theorem C34_extrema (dt : DType) (data : List ℝ) :
    (data ≠ [] → ∃ lo hi, minmax dt data = .ok (some (some lo, some hi)) ∧ IsExtrema data lo hi) ∧
    (data ≠ [] → (∃ x ∈ data, 0 < x) → ∃ lo hi, minmax dt data true = .ok (some (some lo, some hi)) ∧
      IsExtrema (data.filter (0 < ·)) lo hi) ∧
    (data ≠ [] → (∀ x ∈ data, x ≤ 0) → minmax dt data true = .error .valueError) ∧
    (∀ positive prev stretch logStretch limit,
      minmax dt [] positive prev stretch logStretch limit = .ok prev) := by
  refine ⟨fun h => ?_, fun h ⟨x, hx, hx0⟩ => ?_, fun h h' => ?_, fun _ _ _ _ _ => rfl⟩
  · obtain ⟨lo, hi, he⟩ := exists_extrema h
    exact ⟨lo, hi, (minmax_eq dt false none none he).1, he⟩
  · have hne : data.filter (0 < ·) ≠ [] := by
      intro h0
      have : x ∈ data.filter (0 < ·) := by simp [hx, hx0]
      rw [h0] at this; cases this
    obtain ⟨lo, hi, he⟩ := exists_extrema hne
    exact ⟨lo, hi, (minmax_eq dt true none none (by simpa using he)).1, he⟩
  · have : data.filter (0 < ·) = [] := by
      rw [List.filter_eq_nil_iff]; intro x hx; simpa using h' x hx
    unfold minmax
    simp only [if_neg h, if_true, this]

/-- **C34.** `stretch`, for float data: each end is moved away from the centre of the range by its own factor (the first
one for the lower end), `log_stretch` does the same to the logarithms of positive data. -/
theorem C34_stretch (data : List ℝ) (mn mx : ℝ) (he : IsExtrema data mn mx) (f g : ℝ) :
    minmax .float data (stretch := some (f, g))
      = .ok (some (some (mn - f * ((mx - mn) / 2)), some (mx + g * ((mx - mn) / 2)))) ∧
    (0 < mn → ∃ lo hi, minmax .float data (logStretch := some (f, g)) = .ok (some (some lo, some hi)) ∧ 0 < lo ∧ 0 < hi ∧
      Real.logb 10 lo = Real.logb 10 mn - f * ((Real.logb 10 mx - Real.logb 10 mn) / 2) ∧
      Real.logb 10 hi = Real.logb 10 mx + g * ((Real.logb 10 mx - Real.logb 10 mn) / 2)) := by
  obtain ⟨_, h2, h3⟩ := minmax_eq .float false none none (data := data) (by simpa using he)
  refine ⟨?_, fun h0 => ?_⟩
  · rw [h2]
    simp only [applyLimit, applyPrev, stretchBy, DType.store, Except.ok.injEq, Option.some.injEq, Prod.mk.injEq]
    constructor <;> ring
  · refine ⟨_, _, h3 (f, g) h0, ?_, ?_, ?_, ?_⟩ <;> simp only [applyLimit, applyPrev, stretchBy, DType.store]
    · positivity
    · positivity
    · rw [Real.logb_rpow (by norm_num) (by norm_num)]; ring
    · rw [Real.logb_rpow (by norm_num) (by norm_num)]; ring

lemma applyPrev_float_le (mm : ℝ × ℝ) (prev : Option (Option ℝ × Option ℝ)) :
    (applyPrev .float mm prev).1 ≤ mm.1 ∧ mm.2 ≤ (applyPrev .float mm prev).2 ∧
    (∀ p q, prev = some (some p, q) → (applyPrev .float mm prev).1 ≤ p) ∧
    (∀ p q, prev = some (q, some p) → p ≤ (applyPrev .float mm prev).2) := by
  rcases prev with _ | ⟨_ | lo, _ | hi⟩ <;> simp [applyPrev, DType.store]

/-- **C34.** With `prev`, and `stretch` or `log_stretch` factors `≥ 0` (so that stretching never
shrinks), the result covers all data and covers `prev`.  Float data. Missing: integer arrays, see
`C34_int_refuted`. -/
theorem C34_covers_partial (data : List ℝ) (prev : Option (Option ℝ × Option ℝ))
    (stretch logStretch : Option (ℝ × ℝ))
    (hs : ∀ f, stretch = some f → 0 ≤ f.1 ∧ 0 ≤ f.2) (hl : ∀ f, logStretch = some f → 0 ≤ f.1 ∧ 0 ≤ f.2)
    (lo hi : ℝ) (h : minmax .float data false prev stretch logStretch = .ok (some (some lo, some hi)))
    (hne : data ≠ []) :
    (∀ x ∈ data, lo ≤ x ∧ x ≤ hi) ∧ (∀ p q, prev = some (some p, q) → lo ≤ p) ∧
    (∀ p q, prev = some (q, some p) → p ≤ hi) := by
  obtain ⟨a, b, he⟩ := exists_extrema hne
  obtain ⟨e1, e2, e3⟩ := minmax_eq .float false prev none (data := data) (by simpa using he)
  have hab : a ≤ b := (he.2.2 a he.1).2
  have key : ∀ mm : ℝ × ℝ, mm.1 ≤ a → b ≤ mm.2 →
      (some (some (applyLimit .float (applyPrev .float mm prev) none).1,
        some (applyLimit .float (applyPrev .float mm prev) none).2)) = some (some lo, some hi) →
      (∀ x ∈ data, lo ≤ x ∧ x ≤ hi) ∧ (∀ p q, prev = some (some p, q) → lo ≤ p) ∧
      (∀ p q, prev = some (q, some p) → p ≤ hi) := by
    intro mm h1 h2 heq
    simp only [applyLimit, Option.some.injEq, Prod.mk.injEq] at heq
    obtain ⟨rfl, rfl⟩ := heq
    obtain ⟨p1, p2, p3, p4⟩ := applyPrev_float_le mm prev
    exact ⟨fun x hx => ⟨p1.trans (h1.trans (he.2.2 x hx).1), ((he.2.2 x hx).2.trans h2).trans p2⟩, p3, p4⟩
  have hst : ∀ (m n : ℝ) (f : ℝ × ℝ), m ≤ n → 0 ≤ f.1 → 0 ≤ f.2 →
      (stretchBy .float (m, n) f).1 ≤ m ∧ n ≤ (stretchBy .float (m, n) f).2 := by
    intro m n f hmn h1 h2
    simp only [stretchBy, DType.store]
    constructor <;> nlinarith
  cases stretch with
  | none =>
    cases logStretch with
    | none =>
      rw [e1] at h; injection h with h
      exact key (a, b) le_rfl le_rfl h
    | some f =>
      by_cases h0 : 0 < a
      · rw [e3 f h0] at h; injection h with h
        obtain ⟨f1, f2⟩ := hl f rfl
        have h0b : 0 < b := h0.trans_le hab
        obtain ⟨s1, s2⟩ := hst (Real.logb 10 a) (Real.logb 10 b) f
          (Real.logb_le_logb_of_le (by norm_num) h0 hab) f1 f2
        refine key _ ?_ ?_ h
        · calc (10 : ℝ) ^ (stretchBy .float (Real.logb 10 a, Real.logb 10 b) f).1
              ≤ (10 : ℝ) ^ Real.logb 10 a := Real.rpow_le_rpow_of_exponent_le (by norm_num) s1
            _ = a := Real.rpow_logb (by norm_num) (by norm_num) h0
        · calc b = (10 : ℝ) ^ Real.logb 10 b := (Real.rpow_logb (by norm_num) (by norm_num) h0b).symm
            _ ≤ _ := Real.rpow_le_rpow_of_exponent_le (by norm_num) s2
      · exfalso
        cases data with
        | nil => exact hne rfl
        | cons c l =>
          have := (he.unique ⟨(npMin_spec c l).1, (npMax_spec c l).1,
            fun x hx => ⟨(npMin_spec c l).2 x hx, (npMax_spec c l).2 x hx⟩⟩).1
          unfold minmax at h
          simp only [if_neg hne, Bool.false_eq_true, if_false, ← this, if_neg h0] at h
          cases h
  | some f =>
    cases logStretch with
    | none =>
      rw [e2 f] at h; injection h with h
      obtain ⟨f1, f2⟩ := hs f rfl
      obtain ⟨s1, s2⟩ := hst a b f hab f1 f2
      exact key _ s1 s2 h
    | some f' =>
      exfalso
      cases data with
      | nil => exact hne rfl
      | cons c l => 
        unfold minmax at h
        simp only [if_neg hne, Bool.false_eq_true, if_false] at h
        cases h

/-- **C34.** With `limit` the lower result is not below the lower limit and the upper result not above
the upper limit, whatever the other options; and when some datum (or a given `prev`-free range) meets
the limits, the result is a proper interval.  Float data. -/
theorem C34_limit_partial (data : List ℝ) (positive : Bool) (prev : Option (Option ℝ × Option ℝ))
    (stretch logStretch : Option (ℝ × ℝ)) (llo lhi : Option ℝ) (lo hi : ℝ) (hne : data ≠ [])
    (h : minmax .float data positive prev stretch logStretch (some (llo, lhi))
      = .ok (some (some lo, some hi))) :
    (∀ l, llo = some l → l ≤ lo) ∧ (∀ l, lhi = some l → hi ≤ l) := by
  have key : ∀ mm : ℝ × ℝ,
      (some (some (applyLimit .float (applyPrev .float mm prev) (some (llo, lhi))).1,
        some (applyLimit .float (applyPrev .float mm prev) (some (llo, lhi))).2))
        = some (some lo, some hi) →
      (∀ l, llo = some l → l ≤ lo) ∧ (∀ l, lhi = some l → hi ≤ l) := by
    intro mm heq
    simp only [Option.some.injEq, Prod.mk.injEq] at heq
    obtain ⟨rfl, rfl⟩ := heq
    constructor
    · rintro l rfl; simp [applyLimit, DType.store]
    · rintro l rfl; simp [applyLimit, DType.store]
  unfold minmax at h
  rw [if_neg hne] at h
  split at h
  · cases h
  · split at h
    · injection h with h; exact key _ h
    · cases h
    · injection h with h; exact key _ h
    · dsimp only at h
      split at h
      · injection h with h; exact key _ h
      · cases h

/-- **C34.** If some datum lies within the limits, the limited result (no stretch, no `prev`) is a
nonempty interval within the limits that contains every datum within the limits. -/
theorem C34_limit_interval_partial (data : List ℝ) (l u x : ℝ) (hx : x ∈ data) (h1 : l ≤ x) (h2 : x ≤ u) :
    ∃ lo hi, minmax .float data (limit := some (some l, some u)) = .ok (some (some lo, some hi)) ∧
      l ≤ lo ∧ hi ≤ u ∧ ∀ y ∈ data, l ≤ y → y ≤ u → lo ≤ y ∧ y ≤ hi := by
  have hne : data ≠ [] := List.ne_nil_of_mem hx
  obtain ⟨a, b, he⟩ := exists_extrema hne
  refine ⟨max a l, min b u, (minmax_eq .float false none (some (some l, some u)) (by simpa using he)).1,
    le_max_right _ _, min_le_right _ _, fun y hy h3 h4 => ⟨max_le (he.2.2 y hy).1 h3,
      le_min (he.2.2 y hy).2 h4⟩⟩

/-! ### batches -/

/-- The values an array of this element type can hold. -/
def DType.Holds (dt : DType) (x : ℝ) : Prop :=
  match dt with
  | .float => True
  | .int => ∃ n : ℤ, x = n

lemma DType.store_of_holds {dt : DType} {x : ℝ} (h : dt.Holds x) : dt.store x = x := by
  cases dt with
  | float => rfl
  | int =>
    obtain ⟨n, rfl⟩ := h
    simp only [DType.store, pyInt]
    split_ifs <;> simp

/-- Feeding batches one after another, each with the previous result as `prev`. -/
noncomputable def minmaxBatches (dt : DType) (batches : List (List ℝ)) :
    Res (Option (Option ℝ × Option ℝ)) :=
  batches.foldlM (fun prev b => minmax dt b (prev := prev)) none

lemma IsExtrema.append {a b : List ℝ} {l1 h1 l2 h2 : ℝ} (ha : IsExtrema a l1 h1) (hb : IsExtrema b l2 h2) :
    IsExtrema (a ++ b) (min l2 l1) (max h2 h1) := by
  refine ⟨?_, ?_, ?_⟩
  · rcases min_choice l2 l1 with h | h <;> rw [h]
    · exact List.mem_append_right _ hb.1
    · exact List.mem_append_left _ ha.1
  · rcases max_choice h2 h1 with h | h <;> rw [h]
    · exact List.mem_append_right _ hb.2.1
    · exact List.mem_append_left _ ha.2.1
  · intro x hx
    rcases List.mem_append.mp hx with h | h
    · exact ⟨(min_le_right _ _).trans (ha.2.2 x h).1, (ha.2.2 x h).2.trans (le_max_right _ _)⟩
    · exact ⟨(min_le_left _ _).trans (hb.2.2 x h).1, (hb.2.2 x h).2.trans (le_max_left _ _)⟩

/-- **C34.** Batches: for data of either element type, feeding batches (some possibly empty) one after
another through `prev` gives the extrema of all data together (`None` if there are none at all). -/
theorem C34_batches (dt : DType) (batches : List (List ℝ)) (hd : ∀ b ∈ batches, ∀ x ∈ b, dt.Holds x) :
    minmaxBatches dt batches = minmax dt batches.flatten := by
  have key : ∀ (bs : List (List ℝ)) (acc : List ℝ), (∀ b ∈ bs, ∀ x ∈ b, dt.Holds x) →
      (∀ x ∈ acc, dt.Holds x) → ∀ p, minmax dt acc = .ok p →
      bs.foldlM (fun prev b => minmax dt b (prev := prev)) p = minmax dt (acc ++ bs.flatten) := by
    intro bs
    induction bs with
    | nil => intro acc _ _ p hp; simp [hp]; rfl
    | cons b bs ih =>
      intro acc hb hacc p hp
      have hb0 := hb b (by simp)
      have hstep : minmax dt b (prev := p) = minmax dt (acc ++ b) := by
        by_cases hbe : b = []
        · subst hbe; rw [List.append_nil, hp]; rfl
        · obtain ⟨l2, h2, heb⟩ := exists_extrema hbe
          by_cases hae : acc = []
          · subst hae
            have : p = none := by injection hp with hp; exact hp.symm
            subst this; rfl
          · obtain ⟨l1, h1, hea⟩ := exists_extrema hae
            rw [(minmax_eq dt false none none (data := acc) (by simpa using hea)).1] at hp
            injection hp with hp
            subst hp
            rw [(minmax_eq dt false _ none (data := b) (by simpa using heb)).1,
              (minmax_eq dt false none none (data := acc ++ b) (by simpa using hea.append heb)).1]
            have hs1 : dt.Holds (min l2 l1) := by
              rcases min_choice l2 l1 with h | h <;> rw [h]
              · exact hb0 _ heb.1
              · exact hacc _ hea.1
            have hs2 : dt.Holds (max h2 h1) := by
              rcases max_choice h2 h1 with h | h <;> rw [h]
              · exact hb0 _ heb.2.1
              · exact hacc _ hea.2.1
            simp only [applyLimit, applyPrev, DType.store_of_holds hs1, DType.store_of_holds hs2]
      have hq : ∃ q, minmax dt (acc ++ b) = .ok q := by
        by_cases he : acc ++ b = []
        · rw [he]; exact ⟨none, rfl⟩
        · obtain ⟨l, h, hh⟩ := exists_extrema he
          exact ⟨_, (minmax_eq dt false none none (by simpa using hh)).1⟩
      obtain ⟨q, hq⟩ := hq
      rw [List.foldlM_cons, hstep, hq]
      change List.foldlM _ q bs = _
      rw [ih (acc ++ b) (fun b' h' => hb b' (by simp [h'])) (by
        intro x hx
        rcases List.mem_append.mp hx with h | h
        · exact hacc x h
        · exact hb0 x h) q hq]
      simp
  have := key batches [] hd (by simp) none rfl
  simpa [minmaxBatches] using this

/-- **C34.** The result for batches does not depend on their order, nor on the order of the data. -/
theorem C34_batches_order (dt : DType) (b1 b2 : List (List ℝ)) (hp : b1.flatten.Perm b2.flatten)
    (hd : ∀ b ∈ b1, ∀ x ∈ b, dt.Holds x) (hd2 : ∀ b ∈ b2, ∀ x ∈ b, dt.Holds x) :
    minmaxBatches dt b1 = minmaxBatches dt b2 := by
  rw [C34_batches dt b1 hd, C34_batches dt b2 hd2]
  by_cases he : b1.flatten = []
  · have : b2.flatten = [] := by rw [he] at hp; exact hp.symm.eq_nil
    rw [he, this]
  · obtain ⟨l, h, hh⟩ := exists_extrema he
    have h2 : IsExtrema b2.flatten l h :=
      ⟨hp.mem_iff.mp hh.1, hp.mem_iff.mp hh.2.1, fun x hx => hh.2.2 x (hp.mem_iff.mpr hx)⟩
    rw [(minmax_eq dt false none none (by simpa using hh)).1,
      (minmax_eq dt false none none (by simpa using h2)).1]

/-- **C34 (full statement for `prev`, not true of the code).** -/
def C34_prev_Claim : Prop :=
  ∀ (dt : DType) (data : List ℝ) (_ : ∀ x ∈ data, dt.Holds x) (_ : data ≠ []) (p : ℝ) (lo hi : ℝ)
    (_ : minmax dt data (prev := some (some p, none)) = .ok (some (some lo, some hi))), lo ≤ p

/-- **C34 fails for integer arrays**: `minmax([3], prev=[-0.5, None])` returns a lower bound of 0, since
the float is truncated when it is stored in the integer array. -/
theorem C34_int_refuted : ¬ C34_prev_Claim := by
  intro hC
  have he : IsExtrema [(3 : ℝ)] 3 3 := by simp [IsExtrema]
  have := (minmax_eq .int false (some (some (-1 / 2), none)) none (data := [3]) (by simpa using he)).1
  have h := hC .int [3] (by intro x hx; simp only [List.mem_singleton] at hx; subst hx; exact ⟨3, by norm_num⟩)
    (by simp) (-1 / 2) _ _ this
  have h2 : (applyLimit .int (applyPrev .int ((3 : ℝ), (3 : ℝ)) (some (some (-1 / 2), none))) none).1 = 0 := by
    simp only [applyLimit, applyPrev, DType.store, pyInt]
    rw [if_neg (by norm_num)]
    have : ⌈min (3 : ℝ) (-1 / 2)⌉ = 0 := by rw [Int.ceil_eq_iff]; norm_num
    rw [this]; norm_num
  rw [h2] at h
  norm_num at h

example : ∃ lo hi, minmax .float [1, 4, 2] false (some (some 0, none)) (some (1 / 10, 2 / 10)) none
    (some (none, some 5)) = .ok (some (some lo, some hi)) := by
  have he : IsExtrema [(1 : ℝ), 4, 2] 1 4 := by simp [IsExtrema]; norm_num
  exact ⟨_, _, (minmax_eq .float false _ _ (data := [1, 4, 2]) (by simpa using he)).2.1 _⟩

end Kalepy
