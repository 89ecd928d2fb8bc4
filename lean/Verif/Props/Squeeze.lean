import Verif.Model.Squeeze
import Verif.Props.MidpointsNd

/-!
# C178: `midpoints` with `squeeze`
-/

namespace Kalepy

variable {d n : ℕ}

/-- `b` is `a` without its axes of length one: the axes of `b` are, in order, those of `a` whose length is not one, and an element of `a` is
found in `b` by leaving out the positions along the axes of length one. -/
def Spec.IsSqueezed {K : Type*} (a : NDArr d K) (b : NDArr n K) : Prop :=
  ∃ f : Fin n → Fin d, StrictMono f ∧ (∀ i, (∃ k, f k = i) ↔ a.shape i ≠ 1) ∧ (∀ k, b.shape k = a.shape (f k)) ∧
    (∀ idx, ValidIdx a.shape idx → ValidIdx b.shape (fun k => idx (f k)) ∧ b.get (fun k => idx (f k)) = a.get idx)

lemma squeeze_isSqueezed {K : Type*} (a : NDArr d K) : Spec.IsSqueezed a a.squeeze.2 := by
  refine ⟨fun k => a.keptAxes.orderEmbOfFin rfl k, (a.keptAxes.orderEmbOfFin rfl).strictMono, fun i => ?_, fun k => rfl, fun idx hi => ⟨?_, ?_⟩⟩
  · have : i ∈ Set.range (a.keptAxes.orderEmbOfFin rfl) ↔ i ∈ (a.keptAxes : Set (Fin d)) := by rw [Finset.range_orderEmbOfFin]
    refine this.trans ?_
    simp [NDArr.keptAxes]
  · exact fun k => hi _
  · show a.get _ = a.get idx
    congr 1
    funext i
    split_ifs with h
    · have := (a.keptAxes.orderIsoOfFin rfl).apply_symm_apply ⟨i, h⟩
      exact congrArg idx (congrArg Subtype.val this)
    · have h1 : a.shape i = 1 := by
        by_contra hc
        exact h (by simp [NDArr.keptAxes, hc])
      have := hi i
      omega

/-- **C178.** With `squeeze=True`, `midpoints` succeeds and fails as without, and its result is that without `squeeze` but for the axes of length one. -/
theorem C178_squeeze (a : NDArr d ℝ) (log : Bool) (axis : Option (List (Fin d))) :
    (∀ e, midpointsSq a log axis true = .error e ↔ midpointsSq a log axis false = .error e) ∧
    ∀ m : NDArr d ℝ, midpointsSq a log axis false = .ok ⟨d, m⟩ →
      ∃ n, ∃ b : NDArr n ℝ, midpointsSq a log axis true = .ok ⟨n, b⟩ ∧ Spec.IsSqueezed m b := by
  unfold midpointsSq
  cases h : midpointsNd a log axis with
  | error e => simp
  | ok m =>
    refine ⟨fun e => by simp, fun m' hm => ?_⟩
    simp only [Bool.false_eq_true, if_false, Except.ok.injEq, Sigma.mk.injEq, heq_eq_eq, true_and] at hm
    subst hm
    exact ⟨_, m.squeeze.2, rfl, squeeze_isSqueezed m⟩

/-- **C178.** This determines the result: two arrays without the axes of length one of the same array have the same number of axes, the same shape and
the same elements. -/
theorem C178_unique {K : Type*} {n n' : ℕ} (a : NDArr d K) (b : NDArr n K) (b' : NDArr n' K) (h : Spec.IsSqueezed a b)
    (h' : Spec.IsSqueezed a b') : ∃ e : n = n', (∀ k, b.shape k = b'.shape (Fin.cast e k)) ∧
      ∀ idx, ValidIdx b.shape idx → b.get idx = b'.get fun k => idx (Fin.cast e.symm k) := by
  obtain ⟨f, f1, f2, f3, f4⟩ := h
  obtain ⟨g, g1, g2, g3, g4⟩ := h'
  have hr : Set.range f = Set.range g := by
    ext i
    exact (f2 i).trans (g2 i).symm
  have hn : n = n' := by
    have h1 := Set.card_range_of_injective f1.injective
    have h2 := Set.card_range_of_injective g1.injective
    simp only [Fintype.card_fin] at h1 h2
    rw [← h1, ← h2]
    exact Fintype.card_congr (Equiv.setCongr hr)
  subst hn
  have hfg : f = g := by
    apply StrictMono.range_inj f1 g1 |>.mp hr
  subst hfg
  refine ⟨rfl, fun k => (f3 k).trans (g3 k).symm, fun idx hi => ?_⟩
  classical
  obtain ⟨j, hj, hjv⟩ : ∃ j : Fin d → ℕ, (∀ k, j (f k) = idx k) ∧ ValidIdx a.shape j := by
    refine ⟨fun i => if h : ∃ k, f k = i then idx h.choose else 0, fun k => ?_, fun i => ?_⟩
    · have : ∃ k', f k' = f k := ⟨k, rfl⟩
      show (if h : ∃ k', f k' = f k then idx h.choose else 0) = idx k
      rw [dif_pos this]
      exact congrArg idx (f1.injective this.choose_spec)
    · show (if h : ∃ k, f k = i then idx h.choose else 0) < a.shape i
      split_ifs with h
      · have := hi h.choose
        rwa [f3, h.choose_spec] at this
      · have : ¬ a.shape i ≠ 1 := fun hc => h ((f2 i).mpr hc)
        omega
  have e : idx = fun k => j (f k) := funext fun k => (hj k).symm
  rw [e, (f4 j hjv).2]
  exact ((g4 j hjv).2).symm

/-- An array with the shape `(2, 3, 1)`, whose midpoints along the first axis have the shape `(1, 3, 1)` and are squeezed to three numbers. -/
example : ∃ (m : NDArr 3 ℝ) (n : ℕ) (b : NDArr n ℝ),
    midpointsSq ⟨![2, 3, 1], fun i => i 0 + 10 * i 1⟩ false (some [0]) false = .ok ⟨3, m⟩ ∧ m.shape = ![1, 3, 1] ∧
    midpointsSq ⟨![2, 3, 1], fun i => i 0 + 10 * i 1⟩ false (some [0]) true = .ok ⟨n, b⟩ ∧ n = 1 := by
  obtain ⟨m, h, hs⟩ : ∃ m : NDArr 3 ℝ, midpointsNd ⟨![2, 3, 1], fun i => i 0 + 10 * i 1⟩ false (some [0]) = .ok m ∧ m.shape = ![1, 3, 1] := by
    refine ⟨_, rfl, ?_⟩
    show Function.update ![2, 3, 1] (0 : Fin 3) (![2, 3, 1] (0 : Fin 3) - 1) = ![1, 3, 1]
    decide
  refine ⟨m, _, m.squeeze.2, by unfold midpointsSq; rw [h]; rfl, hs, by unfold midpointsSq; rw [h]; rfl, ?_⟩
  show (Finset.univ.filter fun i => m.shape i ≠ 1).card = 1
  rw [hs]
  decide

end Kalepy
