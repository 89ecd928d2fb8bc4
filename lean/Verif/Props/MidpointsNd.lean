import Mathlib.Analysis.SpecialFunctions.Pow.Real
import Verif.Model.MidpointsNd
import Verif.Proofs.Sample
import Verif.Props.Bandwidth

/-!
# C166: midpoints along several axes
-/

namespace Kalepy

variable {d : ℕ}

/-- The values around an index: those at `idx`, moved by one along any of the given axes. -/
def Spec.neighbours (a : NDArr d ℝ) (axes : Finset (Fin d)) (idx : Fin d → ℕ) (S : Finset (Fin d)) : ℝ :=
  a.get fun i => idx i + if i ∈ S ∩ axes then 1 else 0

/-- Specification: the mean of the values around an index. -/
noncomputable def Spec.cellMean (a : NDArr d ℝ) (axes : Finset (Fin d)) (idx : Fin d → ℕ) : ℝ :=
  (∑ S ∈ axes.powerset, Spec.neighbours a axes idx S) / 2 ^ axes.card

/-- Specification: the geometric mean of the values around an index. -/
noncomputable def Spec.cellGeomMean (a : NDArr d ℝ) (axes : Finset (Fin d)) (idx : Fin d → ℕ) : ℝ :=
  (∏ S ∈ axes.powerset, Spec.neighbours a axes idx S) ^ ((2 ^ axes.card : ℝ)⁻¹)

lemma corners_powerset {K : Type*} [AddCommMonoid K] (axes : Finset (Fin d)) (f : (Fin d → ℕ) → K) :
    ∑ c ∈ corners axes, f c = ∑ S ∈ axes.powerset, f fun i => if i ∈ S ∩ axes then 1 else 0 := by
  symm
  refine Finset.sum_bij' (fun S _ i => if i ∈ S ∩ axes then 1 else 0) (fun c _ => Finset.univ.filter fun i => c i = 1) ?_ ?_ ?_ ?_ ?_
  · intro S hS
    simp only [corners, Finset.mem_filter, mem_validIdx]
    refine ⟨fun i => ?_, fun i hi => ?_⟩
    · dsimp only
      split_ifs <;> norm_num
    · rw [if_neg]
      simp [hi]
  · intro c hc
    simp only [corners, Finset.mem_filter, mem_validIdx] at hc
    rw [Finset.mem_powerset]
    intro i hi
    by_contra h
    have := hc.2 i h
    simp [this] at hi
  · intro S hS
    rw [Finset.mem_powerset] at hS
    ext i
    simp only [Finset.mem_filter, Finset.mem_univ, true_and, Finset.mem_inter]
    constructor
    · intro h
      by_contra hn
      rw [if_neg fun h => hn h.1] at h
      simp at h
    · intro h
      rw [if_pos ⟨h, hS h⟩]
  · intro c hc
    simp only [corners, Finset.mem_filter, mem_validIdx] at hc
    funext i
    have h1 : c i < 2 := hc.1 i
    by_cases h : c i = 1
    · have : i ∈ axes := by
        by_contra hn
        have := hc.2 i hn
        omega
      simp [h, this]
    · simp [h]
      omega
  · intro S _; rfl

/-! ## When `midpoints` succeeds -/

lemma midAxis_error {K : Type*} [Field K] {i : Fin d} {a : NDArr d K} {e : PyErr} (h : midAxis i a = .error e) :
    e = .runtimeError ∧ a.shape i < 2 := by
  unfold midAxis at h
  split_ifs at h with h1
  injection h with h
  exact ⟨h.symm, h1⟩

lemma midAxes_count {K : Type*} [Field K] (l : List (Fin d)) (a : NDArr d K) :
    ((∀ i ∈ l, l.count i < a.shape i) → ∃ m, midAxes l a = .ok m ∧ ∀ i, m.shape i = a.shape i - l.count i) ∧
    ((∃ i ∈ l, a.shape i ≤ l.count i) → midAxes l a = .error .runtimeError) := by
  induction l generalizing a with
  | nil => exact ⟨fun _ => ⟨a, rfl, by simp⟩, by simp⟩
  | cons j l ih =>
    simp only [midAxes, List.foldlM_cons] at ih ⊢
    by_cases hj : a.shape j < 2
    · have he : midAxis j a = .error .runtimeError := if_pos hj
      rw [he]
      refine ⟨fun h => ?_, fun _ => rfl⟩
      have := h j (by simp)
      rw [List.count_cons_self] at this
      have := List.count_pos_iff (a := j) (l := l)
      by_cases hm : j ∈ l
      · have := this.mpr hm; omega
      · rw [List.count_eq_zero_of_not_mem hm] at *
        omega
    · obtain ⟨b, hb, hs⟩ : ∃ b, midAxis j a = .ok b ∧ b.shape = Function.update a.shape j (a.shape j - 1) :=
        ⟨_, if_neg hj, rfl⟩
      rw [hb]
      change (_ → ∃ m, List.foldlM (fun m i => midAxis i m) b l = .ok m ∧ _)
        ∧ (_ → List.foldlM (fun m i => midAxis i m) b l = .error .runtimeError)
      obtain ⟨h1, h2⟩ := ih b
      constructor
      · intro h
        obtain ⟨m, hm, hsh⟩ := h1 fun i hi => by
          have := h i (by simp [hi])
          rw [hs]
          by_cases hij : i = j
          · subst hij
            rw [List.count_cons_self] at this
            simp only [Function.update_self]; omega
          · rw [List.count_cons_of_ne (Ne.symm hij)] at this
            simpa [hij] using this
        refine ⟨m, hm, fun i => ?_⟩
        rw [hsh, hs]
        by_cases hij : i = j
        · subst hij
          rw [List.count_cons_self]; simp only [Function.update_self]; omega
        · rw [List.count_cons_of_ne (Ne.symm hij)]; simp [hij]
      · rintro ⟨i, hi, hc⟩
        by_cases hil : i ∈ l
        · refine h2 ⟨i, hil, ?_⟩
          rw [hs]
          by_cases hij : i = j
          · subst hij
            rw [List.count_cons_self] at hc
            simp only [Function.update_self]; omega
          · rw [List.count_cons_of_ne (Ne.symm hij)] at hc
            simpa [hij] using hc
        · have hij : i = j := by simpa [hil] using hi
          subst hij
          rw [List.count_cons_self, List.count_eq_zero_of_not_mem hil] at hc
          omega

/-- **C166**, when it succeeds: `midpoints` along the given axes (each may be given several times) succeeds if and only if
every axis is longer than the number of times it is given; otherwise it raises a `RuntimeError`.  The result is shorter by
this number along every axis. -/
theorem C166_succeeds (a : NDArr d ℝ) (log : Bool) (hlog : log = true → ∀ idx, ValidIdx a.shape idx → 0 < a.get idx)
    (axis : Option (List (Fin d))) :
    if ∀ i ∈ axis.getD (List.finRange d), (axis.getD (List.finRange d)).count i < a.shape i then
      ∃ m, midpointsNd a log axis = .ok m ∧ ∀ i, m.shape i = a.shape i - (axis.getD (List.finRange d)).count i
    else midpointsNd a log axis = .error .runtimeError := by
  obtain ⟨h1, h2⟩ := midAxes_count (axis.getD (List.finRange d)) a
  obtain ⟨h3, h4⟩ := midAxes_count (axis.getD (List.finRange d)) (a.map (Real.logb 10))
  cases log
  · have e : midpointsNd a false axis = midAxes (axis.getD (List.finRange d)) a := rfl
    rw [e]
    split_ifs with h
    · exact h1 h
    · push Not at h
      exact h2 h
  · have e : midpointsNd a true axis
        = (midAxes (axis.getD (List.finRange d)) (a.map (Real.logb 10))).map fun m => m.map ((10 : ℝ) ^ ·) := if_pos (hlog rfl)
    rw [e]
    split_ifs with h
    · obtain ⟨m, hm, hs⟩ := h3 h
      rw [hm]
      exact ⟨_, rfl, hs⟩
    · push Not at h
      rw [h4 h]
      rfl

lemma midAxes_mean (l : List (Fin d)) (hl : l.Nodup) (a : NDArr d ℝ) {m : NDArr d ℝ} (h : midAxes l a = .ok m) :
    ∀ idx, m.get idx = Spec.cellMean a l.toFinset idx := by
  have hs : ∀ i ∈ l, 2 ≤ a.shape i := by
    by_contra hc
    push Not at hc
    obtain ⟨i, hi, hc⟩ := hc
    rw [(midAxes_count l a).2 ⟨i, hi, by rw [List.count_eq_one_of_mem hl hi]; omega⟩] at h
    cases h
  obtain ⟨G, hG, -, hget⟩ := midAxes_ok l hl a hs
  rw [hG] at h
  injection h with h
  subst h
  intro idx
  rw [hget, corners_powerset, Spec.cellMean, List.toFinset_card_of_nodup hl]
  rfl

/-- **C166**, linear: the midpoints along different axes are the means of the values around. -/
theorem C166_mean (a : NDArr d ℝ) (axis : Option (List (Fin d))) (hl : (axis.getD (List.finRange d)).Nodup) {m : NDArr d ℝ}
    (h : midpointsNd a false axis = .ok m) (idx : Fin d → ℕ) :
    m.get idx = Spec.cellMean a (axis.getD (List.finRange d)).toFinset idx :=
  midAxes_mean _ hl a h idx

lemma neighbours_valid {a : NDArr d ℝ} {axes : Finset (Fin d)} {idx : Fin d → ℕ}
    (h : ∀ i, (idx i + if i ∈ axes then 1 else 0) < a.shape i) (S : Finset (Fin d)) :
    ValidIdx a.shape fun i => idx i + if i ∈ S ∩ axes then 1 else 0 := by
  intro i
  have := h i
  by_cases hi : i ∈ axes
  · rw [if_pos hi] at this
    dsimp only
    split_ifs <;> omega
  · rw [if_neg hi] at this
    dsimp only
    rw [if_neg (by simp [hi])]
    omega

/-- **C166**, logarithmic: the log-midpoints of positive values along different axes are the geometric means of the values
around. -/
theorem C166_log (a : NDArr d ℝ) (axis : Option (List (Fin d))) (hl : (axis.getD (List.finRange d)).Nodup) {m : NDArr d ℝ}
    (h : midpointsNd a true axis = .ok m) {idx : Fin d → ℕ} (hi : ValidIdx m.shape idx) :
    m.get idx = Spec.cellGeomMean a (axis.getD (List.finRange d)).toFinset idx := by
  obtain ⟨l, hl0⟩ : ∃ l, l = axis.getD (List.finRange d) := ⟨_, rfl⟩
  unfold midpointsNd at h
  rw [← hl0] at h hl ⊢
  simp only [if_true] at h
  split_ifs at h with hp
  obtain ⟨g, hg, rfl⟩ := map_ok h
  have hm := midAxes_mean l hl _ hg idx
  obtain ⟨g', hg', hs⟩ := (midAxes_count l (a.map (Real.logb 10))).1 (by
    by_contra hc
    push Not at hc
    rw [(midAxes_count l (a.map (Real.logb 10))).2 hc] at hg
    cases hg)
  obtain rfl : g' = g := by rw [hg] at hg'; injection hg' with e; exact e.symm
  have hv : ∀ i, (idx i + if i ∈ l.toFinset then 1 else 0) < a.shape i := by
    intro i
    have h1 : idx i < g'.shape i := hi i
    have h2 : g'.shape i = a.shape i - l.count i := hs i
    by_cases hil : i ∈ l
    · rw [List.count_eq_one_of_mem hl hil] at h2
      simp only [List.mem_toFinset, hil, if_true]; omega
    · rw [List.count_eq_zero_of_not_mem hil] at h2
      simp only [List.mem_toFinset, hil, if_false]; omega
  have hpos : ∀ S, 0 < Spec.neighbours a l.toFinset idx S := fun S => hp _ (neighbours_valid hv S)
  change (10 : ℝ) ^ g'.get idx = _
  rw [hm, Spec.cellMean, Spec.cellGeomMean]
  have e : ∀ S, Spec.neighbours (a.map (Real.logb 10)) l.toFinset idx S = Real.logb 10 (Spec.neighbours a l.toFinset idx S) :=
    fun S => rfl
  simp only [e]
  rw [← Real.logb_prod _ _ fun S _ => (hpos S).ne', div_eq_mul_inv, Real.rpow_mul (by norm_num),
    Real.rpow_logb (by norm_num) (by norm_num) (Finset.prod_pos fun S _ => hpos S)]

/-- **C166**, order: the result does not depend on the order in which different axes are given. -/
theorem C166_order (a : NDArr d ℝ) (log : Bool) {l l' : List (Fin d)} (hl : l.Nodup) (hp : l.Perm l') :
    midpointsNd a log (some l) = midpointsNd a log (some l') := by
  have key : ∀ b : NDArr d ℝ, midAxes l b = midAxes l' b := by
    intro b
    by_cases h : ∀ i ∈ l, l.count i < b.shape i
    · obtain ⟨m, hm, hs⟩ := (midAxes_count l b).1 h
      obtain ⟨m', hm', hs'⟩ := (midAxes_count l' b).1 fun i hi => by
        rw [← hp.count_eq]; exact h i (hp.mem_iff.mpr hi)
      rw [hm, hm']
      congr 1
      have e1 : m.shape = m'.shape := by funext i; rw [hs, hs', hp.count_eq]
      have e2 : m.get = m'.get := by
        funext idx
        rw [midAxes_mean l hl b hm, midAxes_mean l' (hp.nodup_iff.mp hl) b hm', List.toFinset_eq_of_perm _ _ hp]
      cases m; cases m'
      simp only at e1 e2
      rw [e1, e2]
    · push Not at h
      obtain ⟨i, hi, hc⟩ := h
      rw [(midAxes_count l b).2 ⟨i, hi, hc⟩, (midAxes_count l' b).2 ⟨i, hp.mem_iff.mp hi, by rw [← hp.count_eq]; exact hc⟩]
  simp only [midpointsNd, Option.getD_some, key]

/-- **C166**, range: midpoints never leave the range of the values. -/
theorem C166_range (a : NDArr d ℝ) (axis : Option (List (Fin d))) (hl : (axis.getD (List.finRange d)).Nodup) {m : NDArr d ℝ}
    (h : midpointsNd a false axis = .ok m) {lo hi : ℝ} (ha : ∀ idx, ValidIdx a.shape idx → lo ≤ a.get idx ∧ a.get idx ≤ hi)
    {idx : Fin d → ℕ} (hv : ValidIdx m.shape idx) : lo ≤ m.get idx ∧ m.get idx ≤ hi := by
  obtain ⟨l, hl0⟩ : ∃ l, l = axis.getD (List.finRange d) := ⟨_, rfl⟩
  have hsx := C166_succeeds a false (by simp) axis
  rw [C166_mean a axis hl h idx]
  rw [← hl0] at hl hsx ⊢
  split_ifs at hsx with hc
  · obtain ⟨m', hm', hs⟩ := hsx
    obtain rfl : m' = m := by rw [h] at hm'; injection hm' with e; exact e.symm
    have hv' : ∀ i, (idx i + if i ∈ l.toFinset then 1 else 0) < a.shape i := by
      intro i
      have h1 : idx i < m'.shape i := hv i
      have h2 := hs i
      by_cases hil : i ∈ l
      · rw [List.count_eq_one_of_mem hl hil] at h2
        simp only [List.mem_toFinset, hil, if_true]; omega
      · rw [List.count_eq_zero_of_not_mem hil] at h2
        simp only [List.mem_toFinset, hil, if_false]; omega
    have hb : ∀ S, lo ≤ Spec.neighbours a l.toFinset idx S ∧ Spec.neighbours a l.toFinset idx S ≤ hi := fun S =>
      ha _ (neighbours_valid hv' S)
    have hc : (0 : ℝ) < 2 ^ l.toFinset.card := by positivity
    rw [Spec.cellMean, le_div_iff₀ hc, div_le_iff₀ hc]
    have h1 := Finset.card_nsmul_le_sum l.toFinset.powerset (fun S => Spec.neighbours a l.toFinset idx S) lo fun S _ => (hb S).1
    have h2 := Finset.sum_le_card_nsmul l.toFinset.powerset (fun S => Spec.neighbours a l.toFinset idx S) hi fun S _ => (hb S).2
    rw [Finset.card_powerset, nsmul_eq_mul] at h1 h2
    push_cast at h1 h2
    exact ⟨by linarith, by linarith⟩
  · rw [h] at hsx
    cases hsx

/-! ## Examples -/

/-- The array `[[0, 1, 2], [10, 11, 12]]`: midpoints along both axes, `[[5.5, 6.5]]`; along the first axis twice, an
exception. -/
example : (∃ m, midpointsNd (⟨![2, 3], fun i => 10 * i 0 + i 1⟩ : NDArr 2 ℝ) = .ok m ∧ m.shape = ![1, 2] ∧
      m.get ![0, 0] = 11 / 2 ∧ m.get ![0, 1] = 13 / 2) ∧
    midpointsNd (⟨![2, 3], fun i => 10 * i 0 + i 1⟩ : NDArr 2 ℝ) false (some [0, 0]) = .error .runtimeError := by
  constructor
  · refine ⟨_, rfl, ?_, ?_, ?_⟩
    · funext i
      fin_cases i <;> simp
    · norm_num [Function.update]
    · norm_num [Function.update]
  · simp [midpointsNd, midAxes, midAxis]
    rfl

/-- Log-midpoints of positive values exist. -/
example : ∃ m, midpointsNd (⟨![2, 2], fun i => i 0 + i 1 + 1⟩ : NDArr 2 ℝ) true (some [1]) = .ok m := by
  have h := C166_succeeds (⟨![2, 2], fun i => i 0 + i 1 + 1⟩ : NDArr 2 ℝ) true (fun _ idx _ => by positivity) (some [1])
  rw [if_pos (by simp)] at h
  exact ⟨h.choose, h.choose_spec.1⟩

end Kalepy
