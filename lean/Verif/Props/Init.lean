import Mathlib.LinearAlgebra.Matrix.PosDef
import Mathlib.Algebra.Order.Star.Real
import Verif.Model.KDE
import Verif.Spec.Density
import Verif.Props.Edges

/-!
# The constructor: weights (C16), effective number of points (C17), bandwidth (C18), kernel matrix (C19)
-/

namespace Kalepy

open Matrix

variable {d : ℕ}

/-- What a successful construction consists of. -/
lemma init_inv {E : Ext} {a : KDEArgs d} {k : KDE d} (h : KDE.init E a = .ok k) :
    ∃ reflect weights cov bw0 D out eff ext,
      checkReflect a.dataset a.reflect = .ok reflect ∧ a.dataset ≠ [] ∧
      checkWeights a.dataset.length a.weights = .ok weights ∧
      covArg a.dataset weights a.covariance = .ok cov ∧
      bwMatrix d (effNum a.dataset.length weights a.neff) a.diagonal a.bandwidth = .ok bw0 ∧
      getDistribution a.kernel = .ok D ∧ a.extra = [] ∧
      kernelOut E D (effNum a.dataset.length weights a.neff) = .ok out ∧
      effExtrema a.dataset (Kernel.init D (rescaleBw bw0 a.rescale) cov a.helper a.chunk).matrix out = .ok eff ∧
      parseExtrema eff (extremaArg a.extrema reflect) = .ok ext ∧
      k = { squeeze := a.squeeze
            dataset := a.dataset
            weights := weights
            neff := effNum a.dataset.length weights a.neff
            covariance := cov
            bandwidth := rescaleBw bw0 a.rescale
            kernel := Kernel.init D (rescaleBw bw0 a.rescale) cov a.helper a.chunk
            extrema := ext
            reflect := reflect
            pointsSpec := a.points
            pointsVal := none
            cdfCache := none } := by
  unfold KDE.init at h
  split at h
  · cases h
  · rename_i reflect hr
    split at h
    · cases h
    · rename_i hne
      split at h
      · cases h
      · rename_i weights hw
        split at h
        · cases h
        · rename_i cov hc
          split at h
          · cases h
          · rename_i bw0 hb
            split at h
            · cases h
            · rename_i D hD
              split at h
              · cases h
              · rename_i he
                split at h
                · cases h
                · rename_i out ho
                  split at h
                  · cases h
                  · rename_i eff hf
                    split at h
                    · cases h
                    · rename_i ext hx
                      cases h
                      exact ⟨reflect, weights, cov, bw0, D, out, eff, ext, hr, hne, hw, hc, hb, hD,
                        by simpa using he, ho, hf, hx, rfl⟩

/-! ## C16 -/

/-- Specification: valid weights, one finite non-negative number per data point, not all of them zero. -/
def Spec.ValidW (n : ℕ) (w : List ℝ) : Prop := w.length = n ∧ (∀ x ∈ w, 0 ≤ x) ∧ ∃ x ∈ w, 0 < x

lemma checkWeights_inv {n : ℕ} {a : WArg} {w : Option (List ℝ)} (h : checkWeights n a = .ok w) :
    (a = .none ∧ w = none) ∨ ∃ l, a = .arr (l.map Flt.fin) ∧ w = some l ∧ Spec.ValidW n l := by
  cases a with
  | none => left; cases h; exact ⟨rfl, rfl⟩
  | badShape => cases h
  | list l => simp only [checkWeights] at h; split_ifs at h
  | arr l =>
    right
    simp only [checkWeights] at h
    split_ifs at h with h1 h2
    cases h
    push Not at h1 h2
    have hfin : ∀ x ∈ l, x = Flt.fin x.val := by
      intro x hx
      have := h2.2 x hx
      cases x <;> simp_all [Flt.bad, Flt.val]
    refine ⟨l.map Flt.val, ?_, rfl, by simpa using h1, ?_, ?_⟩
    · rw [List.map_map]
      congr 1
      conv_lhs => rw [← List.map_id l]
      exact List.map_congr_left fun x hx => hfin x hx
    · intro y hy
      obtain ⟨x, hx, rfl⟩ := List.mem_map.mp hy
      have := h2.2 x hx
      rw [hfin x hx] at this
      simpa [Flt.bad] using this
    · obtain ⟨x, hx, hn⟩ := h2.1
      refine ⟨x.val, List.mem_map_of_mem hx, ?_⟩
      have hb := h2.2 x hx
      rw [hfin x hx] at hn hb
      simp only [Flt.nonzero, Flt.bad, not_lt] at hn hb
      exact lt_of_le_of_ne hb (Ne.symm hn)

lemma checkWeights_valid {n : ℕ} {l : List ℝ} (h : Spec.ValidW n l) :
    checkWeights n (.arr (l.map Flt.fin)) = .ok (some l) := by
  obtain ⟨h1, h2, x, hx, hp⟩ := h
  simp only [checkWeights]
  rw [if_neg (by simp [h1]), if_neg, List.map_map]
  · congr 2
    conv_rhs => rw [← List.map_id l]
    rfl
  · push Not
    refine ⟨⟨.fin x, List.mem_map_of_mem hx, hp.ne'⟩, ?_⟩
    intro w hw
    obtain ⟨y, hy, rfl⟩ := List.mem_map.mp hw
    simpa [Flt.bad] using h2 y hy

/-- **C16.** Whenever `KDE(...)` succeeds, the dataset is not empty, and either no weights were given and none
are stored, or an array of valid weights was given and exactly these are stored. -/
theorem C16_weights {E : Ext} {a : KDEArgs d} {k : KDE d} (h : KDE.init E a = .ok k) :
    a.dataset ≠ [] ∧ ((a.weights = .none ∧ k.weights = none) ∨
      ∃ l, a.weights = .arr (l.map Flt.fin) ∧ k.weights = some l ∧ Spec.ValidW a.dataset.length l) := by
  obtain ⟨_, w, _, _, _, _, _, _, _, hne, hw, _, _, _, _, _, _, _, rfl⟩ := init_inv h
  exact ⟨hne, checkWeights_inv hw⟩

/-- **C16.** In particular an invalid array of weights is refused: of the wrong length, with an entry that is
NaN, infinite or negative, or all zero. -/
theorem C16_refused (E : Ext) (a : KDEArgs d) (l : List Flt) (ha : a.weights = .arr l)
    (hbad : l.length ≠ a.dataset.length ∨ (∃ w ∈ l, w = .nan ∨ w = .pinf ∨ w = .ninf ∨ ∃ x < 0, w = .fin x) ∨
      ∀ w ∈ l, w = .fin 0) : ∃ e, KDE.init E a = .error e := by
  cases h : KDE.init E a with
  | error e => exact ⟨e, rfl⟩
  | ok k =>
    exfalso
    obtain ⟨hne, h | ⟨w, hw, _, h1, h2, x, hx, hp⟩⟩ := C16_weights h
    · rw [ha] at h; cases h.1
    · rw [ha] at hw
      cases hw
      rcases hbad with hbad | ⟨v, hv, hbad⟩ | hbad
      · simp at hbad; exact hbad h1
      · obtain ⟨y, hy, rfl⟩ := List.mem_map.mp hv
        simp only [reduceCtorEq, false_or, Flt.fin.injEq] at hbad
        obtain ⟨z, hz, rfl⟩ := hbad
        exact absurd (h2 y hy) (not_le.mpr hz)
      · have := hbad (.fin x) (List.mem_map_of_mem hx)
        simp only [Flt.fin.injEq] at this
        exact hp.ne' this

/-- A Python list of weights is never accepted, although the documentation asks for `array_like`. -/
theorem C16_list_refused (E : Ext) (a : KDEArgs d) (l : List Flt) (ha : a.weights = .list l) :
    ∃ e, KDE.init E a = .error e := by
  cases h : KDE.init E a with
  | error e => exact ⟨e, rfl⟩
  | ok k =>
    exfalso
    obtain ⟨hne, h | ⟨w, hw, _⟩⟩ := C16_weights h
    · rw [ha] at h; cases h.1
    · rw [ha] at hw; cases hw

/-- **C16.** Valid weights are not a reason to refuse: with a finite kernel, a number as bandwidth, a given
covariance with non-negative diagonal and no further arguments, the construction succeeds. -/
theorem C16_accepted (E : Ext) (data : List (Fin d → ℝ)) (hne : data ≠ []) (w : List ℝ)
    (hw : Spec.ValidW data.length w) (D : Dist) (hD : D.finite = true) (b : ℝ)
    (cov : Matrix (Fin d) (Fin d) ℝ) (hc : ∀ i, 0 ≤ cov i i) :
    ∃ k, KDE.init E
      { dataset := data
        weights := .arr (w.map Flt.fin)
        kernel := .cls D
        bandwidth := .val (.num b)
        covariance := some cov } = .ok k ∧ k.weights = some w := by
  obtain ⟨dat, h1, h2⟩ := dataExtrema_spec hne
  unfold KDE.init
  simp only [checkReflect, if_neg hne, checkWeights_valid hw, covArg, bwMatrix, computeBw, Except.map,
    getDistribution, kernelOut, hD, if_true, effExtrema, h1]
  rw [if_neg (by simp), if_pos]
  · exact ⟨_, rfl, rfl⟩
  · intro i
    simp only [Kernel.init, rescaleBw, Matrix.of_apply]
    exact mul_nonneg (hc i) (sq_nonneg _)

/-- Concrete case of the hypotheses of `C16_accepted`. -/
example : Spec.ValidW 2 [0, 3] := ⟨rfl, by simp, 3, by simp, by norm_num⟩

/-! ## C17 -/

lemma sum_dev (w : List ℝ) (a b : ℝ) :
    (w.map fun x => (a * x - b) ^ 2).sum = a ^ 2 * (w.map (· ^ 2)).sum - 2 * a * b * w.sum + w.length * b ^ 2 := by
  induction w with
  | nil => simp
  | cons x w ih => simp only [List.map_cons, List.sum_cons, ih, List.length_cons, Nat.cast_add, Nat.cast_one]; ring

lemma sum_sq_dev_nonneg (w : List ℝ) (a b : ℝ) : 0 ≤ (w.map fun x => (a * x - b) ^ 2).sum :=
  List.sum_nonneg fun y hy => by obtain ⟨x, _, rfl⟩ := List.mem_map.mp hy; exact sq_nonneg _

lemma sq_sum_le (w : List ℝ) (hne : w ≠ []) : w.sum ^ 2 ≤ w.length * (w.map (· ^ 2)).sum := by
  have h := sum_sq_dev_nonneg w w.length w.sum
  rw [sum_dev] at h
  have hl : (0:ℝ) < w.length := by exact_mod_cast List.length_pos_iff.mpr hne
  have : 0 ≤ (w.length : ℝ) * (w.length * (w.map (· ^ 2)).sum - w.sum ^ 2) := by nlinarith
  nlinarith [nonneg_of_mul_nonneg_right this hl]

lemma list_sum_eq_zero {l : List ℝ} (h0 : ∀ x ∈ l, 0 ≤ x) (h : l.sum = 0) : ∀ x ∈ l, x = 0 := by
  intro x hx
  have := List.single_le_sum h0 x hx
  exact le_antisymm (h ▸ this) (h0 x hx)

lemma sq_sum_eq_iff (w : List ℝ) (hne : w ≠ []) :
    w.sum ^ 2 = w.length * (w.map (· ^ 2)).sum ↔ ∀ x ∈ w, ∀ y ∈ w, x = y := by
  have hl : (0:ℝ) < w.length := by exact_mod_cast List.length_pos_iff.mpr hne
  constructor
  · intro h
    have hz : (w.map fun x => ((w.length : ℝ) * x - w.sum) ^ 2).sum = 0 := by rw [sum_dev]; nlinarith
    have hall : ∀ x ∈ w, (w.length : ℝ) * x = w.sum := by
      intro x hx
      have := list_sum_eq_zero (by
        intro y hy
        obtain ⟨z, _, rfl⟩ := List.mem_map.mp hy
        exact sq_nonneg _) hz _ (List.mem_map_of_mem (f := fun x => ((w.length : ℝ) * x - w.sum) ^ 2) hx)
      nlinarith [pow_eq_zero_iff (two_ne_zero) |>.mp this]
    intro x hx y hy
    exact mul_left_cancel₀ hl.ne' ((hall x hx).trans (hall y hy).symm)
  · intro h
    cases w with
    | nil => exact absurd rfl hne
    | cons a w =>
      have : a :: w = List.replicate (w.length + 1) a := by
        rw [List.eq_replicate_iff]
        exact ⟨by simp, fun x hx => h x hx a (by simp)⟩
      rw [this]
      simp
      ring

lemma sum_sq_eq_iff {w : List ℝ} (hw : ∀ x ∈ w, 0 ≤ x) (hs : 0 < w.sum) :
    w.sum ^ 2 = (w.map (· ^ 2)).sum ↔
      ∃ pre x post, w = pre ++ x :: post ∧ 0 < x ∧ (∀ y ∈ pre, y = 0) ∧ ∀ y ∈ post, y = 0 := by
  constructor
  · induction w with
    | nil => simp at hs
    | cons a w ih =>
      intro h
      have ha := hw a (by simp)
      have hw' : ∀ x ∈ w, 0 ≤ x := fun x hx => hw x (by simp [hx])
      have hT : 0 ≤ w.sum := List.sum_nonneg hw'
      have hQ := sum_sq_le_sq_sum hw'
      simp only [List.sum_cons, List.map_cons] at h hs
      have h1 : a * w.sum = 0 := by nlinarith [mul_nonneg ha hT]
      have h2 : w.sum ^ 2 = (w.map (· ^ 2)).sum := by nlinarith
      rcases mul_eq_zero.mp h1 with h0 | h0
      · subst h0
        obtain ⟨pre, x, post, rfl, hx, hp, hq⟩ := ih hw' (by simpa using hs) h2
        exact ⟨0 :: pre, x, post, rfl, hx, by
          intro y hy
          rcases List.mem_cons.mp hy with rfl | hy
          · rfl
          · exact hp y hy, hq⟩
      · exact ⟨[], a, w, rfl, by simpa [h0] using hs, by simp, list_sum_eq_zero hw' h0⟩
  · rintro ⟨pre, x, post, rfl, hx, hp, hq⟩
    have z : ∀ l : List ℝ, (∀ y ∈ l, y = 0) → l.sum = 0 ∧ (l.map (· ^ 2)).sum = 0 := by
      intro l hl
      induction l with
      | nil => simp
      | cons a l ih =>
        have := ih fun y hy => hl y (by simp [hy])
        simp [hl a (by simp), this.1, this.2]
    simp [(z pre hp).1, (z pre hp).2, (z post hq).1, (z post hq).2]

lemma validW_sum {n : ℕ} {w : List ℝ} (h : Spec.ValidW n w) : 0 < w.sum := by
  obtain ⟨_, h2, x, hx, hp⟩ := h
  exact hp.trans_le (List.single_le_sum h2 x hx)

lemma neff_eq {E : Ext} {a : KDEArgs d} {k : KDE d} (h : KDE.init E a = .ok k) (hn : a.neff = none) :
    (k.weights = none → k.neff = a.dataset.length) ∧
    (∀ w, k.weights = some w → k.neff = w.sum ^ 2 / (w.map (· ^ 2)).sum) := by
  obtain ⟨_, w, _, _, _, _, _, _, _, hne, hw, _, _, _, _, _, _, _, rfl⟩ := init_inv h
  constructor
  · intro h; simp only at h; subst h; simp [effNum, hn]
  · intro w h; simp only at h; subst h; simp [effNum, hn]

lemma stored_valid {E : Ext} {a : KDEArgs d} {k : KDE d} (h : KDE.init E a = .ok k) {w : List ℝ}
    (hw : k.weights = some w) : Spec.ValidW a.dataset.length w := by
  obtain ⟨_, h | ⟨l, _, h1, h2⟩⟩ := C16_weights h
  · rw [h.2] at hw; cases hw
  · rw [h1] at hw; cases hw; exact h2

/-- **C17.** Without weights the effective number of points is the number of points. -/
theorem C17_unweighted {E : Ext} {a : KDEArgs d} {k : KDE d} (h : KDE.init E a = .ok k) (hn : a.neff = none)
    (hw : a.weights = .none) : k.neff = a.dataset.length := by
  obtain ⟨_, h1 | ⟨l, h1, _⟩⟩ := C16_weights h
  · exact (neff_eq h hn).1 h1.2
  · rw [hw] at h1; cases h1

/-- **C17.** It lies between 1 and the number of points. -/
theorem C17_bounds {E : Ext} {a : KDEArgs d} {k : KDE d} (h : KDE.init E a = .ok k) (hn : a.neff = none) :
    1 ≤ k.neff ∧ k.neff ≤ a.dataset.length := by
  have hne := (C16_weights h).1
  have hl : 1 ≤ a.dataset.length := List.length_pos_iff.mpr hne
  cases hw : k.weights with
  | none =>
    rw [(neff_eq h hn).1 hw]
    exact ⟨by exact_mod_cast hl, le_refl _⟩
  | some w =>
    have hv := stored_valid h hw
    have hs := validW_sum hv
    have hq := sum_sq_pos hs
    rw [(neff_eq h hn).2 w hw]
    constructor
    · rw [le_div_iff₀ hq, one_mul]; exact sum_sq_le_sq_sum hv.2.1
    · rw [div_le_iff₀ hq, ← hv.1]
      exact sq_sum_le w (by rintro rfl; simp at hs)

/-- **C17.** It equals the number of points exactly if all weights are equal. -/
theorem C17_eq_number_iff {E : Ext} {a : KDEArgs d} {k : KDE d} (h : KDE.init E a = .ok k) (hn : a.neff = none)
    {w : List ℝ} (hw : k.weights = some w) : k.neff = a.dataset.length ↔ ∀ x ∈ w, ∀ y ∈ w, x = y := by
  have hv := stored_valid h hw
  have hs := validW_sum hv
  have hq := sum_sq_pos hs
  rw [(neff_eq h hn).2 w hw, div_eq_iff hq.ne', ← hv.1]
  exact sq_sum_eq_iff w (by rintro rfl; simp at hs)

/-- **C17.** It equals 1 exactly if one point carries all the weight. -/
theorem C17_eq_one_iff {E : Ext} {a : KDEArgs d} {k : KDE d} (h : KDE.init E a = .ok k) (hn : a.neff = none)
    {w : List ℝ} (hw : k.weights = some w) :
    k.neff = 1 ↔ ∃ pre x post, w = pre ++ x :: post ∧ 0 < x ∧ (∀ y ∈ pre, y = 0) ∧ ∀ y ∈ post, y = 0 := by
  have hv := stored_valid h hw
  have hs := validW_sum hv
  have hq := sum_sq_pos hs
  rw [(neff_eq h hn).2 w hw, div_eq_iff hq.ne', one_mul]
  exact sum_sq_eq_iff hv.2.1 hs

/-- **C17.** It does not depend on the order of the weights or on their scale. -/
theorem C17_invariant {E : Ext} {a a' : KDEArgs d} {k k' : KDE d} (h : KDE.init E a = .ok k)
    (h' : KDE.init E a' = .ok k') (hn : a.neff = none) (hn' : a'.neff = none) {w w' : List ℝ}
    (hw : k.weights = some w) (hw' : k'.weights = some w') (c : ℝ) (hc : c ≠ 0)
    (hp : w'.Perm (w.map (c * ·))) : k'.neff = k.neff := by
  rw [(neff_eq h hn).2 w hw, (neff_eq h' hn').2 w' hw', hp.sum_eq, (hp.map _).sum_eq, List.map_map,
    List.sum_map_mul_left, show ((fun x : ℝ => x ^ 2) ∘ fun x => c * x) = fun x => c ^ 2 * x ^ 2 by
      funext x; simp [mul_pow], List.sum_map_mul_left, mul_pow, List.map_id']
  exact mul_div_mul_left _ _ (pow_ne_zero 2 hc)

/-- Concrete case of the hypotheses of the C17 theorems: three points with weights 1, 0, 3. -/
example : ∃ (k : KDE 2), KDE.init ⟨fun A => A, id⟩
    { dataset := [![0, 1], ![2, 5], ![-1, 1]]
      weights := .arr [.fin 1, .fin 0, .fin 3]
      kernel := .cls .box
      bandwidth := .val (.num 2)
      covariance := some 1 } = .ok k ∧ k.weights = some [1, 0, 3] ∧ k.neff = 8 / 5 := by
  obtain ⟨k, hk, hw⟩ := C16_accepted ⟨fun A => A, id⟩ [![0, 1], ![2, 5], ![-1, 1]] (by simp) [1, 0, 3]
    ⟨rfl, by simp, 1, by simp, by norm_num⟩ .box rfl 2 (1 : Matrix (Fin 2) (Fin 2) ℝ) (by simp)
  refine ⟨k, hk, hw, ?_⟩
  rw [(neff_eq hk rfl).2 _ hw]
  norm_num

/-- Concrete case of the hypothesis of `C17_unweighted`. -/
example : ∃ (k : KDE 1), KDE.init ⟨fun A => A, id⟩
    { dataset := [![0], ![2]]
      kernel := .cls .box
      covariance := some 1 } = .ok k := by
  obtain ⟨dat, h1, _⟩ := dataExtrema_spec (data := [![(0:ℝ)], ![2]]) (by simp)
  unfold KDE.init
  simp only [checkReflect, checkWeights, covArg, bwMatrix, computeBw, Except.map, getDistribution, kernelOut,
    Dist.finite, if_true, effExtrema, h1]
  rw [if_neg (by simp), if_pos (by simp [effNum])]
  simp only
  rw [if_neg (by simp), if_pos]
  · exact ⟨_, rfl⟩
  · intro i
    simp only [Kernel.init, rescaleBw, Matrix.of_apply]
    exact mul_nonneg (by simp) (sq_nonneg _)

end Kalepy
