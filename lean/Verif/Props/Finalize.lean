import Verif.Model.Finalize
import Verif.Props.Minmax
import Verif.Props.Evaluate

/-!
# C115: warnings about badly scaled covariances
-/

namespace Kalepy

variable {d : ℕ}

/-! ## Specification -/

/-- Some diagonal element and some off-diagonal element, both larger than `1e-20` in size, differ by at least
`tol` orders of magnitude. -/
def Spec.BadRatio (M : Matrix (Fin d) (Fin d) ℝ) (tol : ℝ) : Prop :=
  ∃ i j k : Fin d, j ≠ k ∧ (10 : ℝ) ^ (-20 : ℝ) < |M i i| ∧ (10 : ℝ) ^ (-20 : ℝ) < |M j k| ∧
    tol ≤ |Real.logb 10 (|M i i| / |M j k|)|

/-- Some off-diagonal element does not count as zero (`np.isclose`). -/
def Spec.Correlated (M : Matrix (Fin d) (Fin d) ℝ) : Prop := ∃ i j : Fin d, i ≠ j ∧ 1 / 10 ^ 8 < |M i j|

/-- All elements are at most `1e-10` in size, and not all off-diagonal elements vanish. -/
def Spec.AllTiny (M : Matrix (Fin d) (Fin d) ℝ) : Prop :=
  (∀ i j, |M i j| ≤ (10 : ℝ) ^ (-10 : ℝ)) ∧ ∃ i j : Fin d, i ≠ j ∧ M i j ≠ 0

/-! ## Proofs -/

lemma mem_offDiagonal {M : Matrix (Fin d) (Fin d) ℝ} {x : ℝ} :
    x ∈ offDiagonal M ↔ ∃ i j : Fin d, i ≠ j ∧ M i j = x := by
  simp only [offDiagonal, List.mem_append, List.mem_flatMap, List.mem_finRange, List.mem_map, List.mem_filter,
    true_and, decide_eq_true_eq]
  constructor
  · rintro (⟨i, j, h, rfl⟩ | ⟨i, j, h, rfl⟩)
    · exact ⟨i, j, h.ne, rfl⟩
    · exact ⟨i, j, h.ne', rfl⟩
  · rintro ⟨i, j, h, rfl⟩
    rcases lt_or_gt_of_ne h with h | h
    · exact Or.inl ⟨i, j, h, rfl⟩
    · exact Or.inr ⟨i, j, h, rfl⟩

lemma mem_logAbs {l : List ℝ} {y : ℝ} :
    y ∈ (logAbs l).filter (-20 < ·) ↔ ∃ x ∈ l, (10 : ℝ) ^ (-20 : ℝ) < |x| ∧ Real.logb 10 |x| = y := by
  simp only [logAbs, List.mem_filter, List.mem_map, ne_eq, decide_not, Bool.not_eq_true', decide_eq_false_iff_not,
    decide_eq_true_eq]
  constructor
  · rintro ⟨⟨x, ⟨hx, h0⟩, rfl⟩, h⟩
    exact ⟨x, hx, (Real.lt_logb_iff_rpow_lt (by norm_num) (abs_pos.mpr h0)).mp h, rfl⟩
  · rintro ⟨x, hx, h, rfl⟩
    have h0 : 0 < |x| := lt_trans (by positivity) h
    exact ⟨⟨x, ⟨hx, abs_pos.mp h0⟩, rfl⟩, (Real.lt_logb_iff_rpow_lt (by norm_num) h0).mpr h⟩

/-- The largest distance between the elements of two sets is that of their extrema. -/
lemma extrema_dist {l m : List ℝ} {a b c e tol : ℝ} (h1 : IsExtrema l a b) (h2 : IsExtrema m c e) :
    (tol ≤ |a - c| ∨ tol ≤ |a - e| ∨ tol ≤ |b - c| ∨ tol ≤ |b - e|) ↔
      ∃ x ∈ l, ∃ y ∈ m, tol ≤ |x - y| := by
  constructor
  · rintro (h | h | h | h)
    · exact ⟨a, h1.1, c, h2.1, h⟩
    · exact ⟨a, h1.1, e, h2.2.1, h⟩
    · exact ⟨b, h1.2.1, c, h2.1, h⟩
    · exact ⟨b, h1.2.1, e, h2.2.1, h⟩
  · rintro ⟨x, hx, y, hy, h⟩
    obtain ⟨hx1, hx2⟩ := h1.2.2 x hx
    obtain ⟨hy1, hy2⟩ := h2.2.2 y hy
    rcases abs_cases (x - y) with ⟨h', _⟩ | ⟨h', _⟩
    · refine Or.inr (Or.inr (Or.inl (le_trans ?_ (le_abs_self _))))
      linarith
    · refine Or.inr (Or.inl (le_trans ?_ (neg_le_abs _)))
      linarith

lemma badRatio_iff (M : Matrix (Fin d) (Fin d) ℝ) (tol : ℝ) :
    Spec.BadRatio M tol ↔ ∃ x ∈ (logAbs (List.ofFn fun i => M i i)).filter (-20 < ·),
      ∃ y ∈ (logAbs (offDiagonal M)).filter (-20 < ·), tol ≤ |x - y| := by
  have hp : (0 : ℝ) < (10 : ℝ) ^ (-20 : ℝ) := by positivity
  constructor
  · rintro ⟨i, j, k, hjk, h1, h2, h3⟩
    rw [Real.logb_div (hp.trans h1).ne' (hp.trans h2).ne'] at h3
    exact ⟨_, mem_logAbs.mpr ⟨M i i, by simp [List.mem_ofFn], h1, rfl⟩, _,
      mem_logAbs.mpr ⟨M j k, mem_offDiagonal.mpr ⟨j, k, hjk, rfl⟩, h2, rfl⟩, h3⟩
  · rintro ⟨x, hx, y, hy, h⟩
    obtain ⟨u, hu, h1, rfl⟩ := mem_logAbs.mp hx
    obtain ⟨v, hv, h2, rfl⟩ := mem_logAbs.mp hy
    obtain ⟨j, k, hjk, rfl⟩ := mem_offDiagonal.mp hv
    rw [List.mem_ofFn] at hu
    obtain ⟨i, rfl⟩ := hu
    exact ⟨i, j, k, hjk, h1, h2, by rw [Real.logb_div (hp.trans h1).ne' (hp.trans h2).ne']; exact h⟩

open Classical in
/-- What `_finalize` logs. -/
lemma finalizeLog_eq (M : Matrix (Fin d) (Fin d) ℝ) (tol : ℝ) :
    finalizeLog M tol = .ok (if Spec.Correlated M ∧ Spec.BadRatio M tol then [.matrix, .ratio, .rescale] else []) := by
  simp only [finalizeLog]
  by_cases h : ∀ x ∈ offDiagonal M, |x| ≤ 1 / 10 ^ 8
  · rw [if_pos h, if_neg]
    rintro ⟨⟨i, j, hij, h'⟩, _⟩
    exact absurd (h _ (mem_offDiagonal.mpr ⟨i, j, hij, rfl⟩)) (not_le.mpr h')
  · rw [if_neg h]
    push Not at h
    obtain ⟨x, hx, hlt⟩ := h
    have hx0 : 0 < |x| := lt_trans (by positivity) hlt
    have hlog : -8 < Real.logb 10 |x| := by
      rw [Real.lt_logb_iff_rpow_lt (by norm_num) hx0]
      refine lt_of_le_of_lt (le_of_eq ?_) hlt
      rw [Real.rpow_neg (by norm_num), show (8 : ℝ) = ((8 : ℕ) : ℝ) by norm_num, Real.rpow_natCast]
      norm_num
    have hmem : Real.logb 10 |x| ∈ logAbs (offDiagonal M) := by
      simp only [logAbs, List.mem_map, List.mem_filter]
      exact ⟨x, ⟨hx, by simpa using abs_pos.mp hx0⟩, rfl⟩
    have hf : ¬ ((∀ x ∈ logAbs (List.ofFn fun i => M i i), x ≤ -10) ∧ ∀ x ∈ logAbs (offDiagonal M), x ≤ -10) := by
      rintro ⟨_, h2⟩
      have := h2 _ hmem
      linarith
    have hc : Spec.Correlated M := by
      obtain ⟨i, j, hij, rfl⟩ := mem_offDiagonal.mp hx
      exact ⟨i, j, hij, hlt⟩
    rw [if_neg hf]
    have hob : (logAbs (offDiagonal M)).filter (-20 < ·) ≠ [] := by
      apply List.ne_nil_of_mem (a := Real.logb 10 |x|)
      rw [List.mem_filter]
      exact ⟨hmem, by simp only [decide_eq_true_eq]; linarith⟩
    by_cases hd : (logAbs (List.ofFn fun i => M i i)).filter (-20 < ·) = []
    · have hb : ¬ Spec.BadRatio M tol := by
        rw [badRatio_iff, hd]
        simp
      rw [if_neg (by rw [hd]; simp), if_neg (fun h => hb h.2)]
      rfl
    · rw [if_pos ⟨List.length_pos_iff.mpr hd, List.length_pos_iff.mpr hob⟩]
      obtain ⟨a, b, h1, e1⟩ := (C34_extrema .float _).1 hd
      obtain ⟨c, e, h2, e2⟩ := (C34_extrema .float _).1 hob
      rw [h1, h2]
      simp only [List.nil_append]
      have key := (extrema_dist (tol := tol) e1 e2).trans (badRatio_iff M tol).symm
      by_cases hb : Spec.BadRatio M tol
      · rw [if_pos (key.mpr hb), if_pos ⟨hc, hb⟩]
        rfl
      · rw [if_neg (fun h => hb (key.mp h)), if_neg (fun h => hb h.2)]
        rfl

lemma kernel_matrix_init {E : Ext} {a : KDEArgs d} {k : KDE d} (h : KDE.init E a = .ok k) :
    k.kernel.matrix = Spec.kernelMatrix k.covariance k.bandwidth := by
  obtain ⟨_, _, _, _, _, _, _, _, _, _, _, _, _, _, _, _, _, _, rfl⟩ := init_inv h
  rfl

/-- **C115, full statement**: a construction warns that all elements of the kernel matrix are tiny exactly when
they are, and warns about their ratios exactly when some diagonal and off-diagonal elements differ by five orders
of magnitude. -/
def C115_Claim : Prop :=
  ∀ (d : ℕ) (E : Ext) (a : KDEArgs d) (k : KDE d) (ws : List KDEWarning), KDE.initLog E a = .ok (k, ws) →
    (KDEWarning.allTiny ∈ ws ↔ Spec.AllTiny (Spec.kernelMatrix k.covariance k.bandwidth)) ∧
    (KDEWarning.ratio ∈ ws ↔ Spec.BadRatio (Spec.kernelMatrix k.covariance k.bandwidth) 5)

open Classical in
/-- **C115, as far as it holds** (the full statement is `C115_Claim`): the diagnostics never make a construction
fail and never change its result, and the warning about the ratio is given exactly when some off-diagonal element
exceeds `1e-8` and some diagonal and off-diagonal elements differ by five orders of magnitude.  The warning about
tiny elements is never given: its condition contradicts the earlier one that some off-diagonal element exceeds
`1e-8`. -/
theorem C115_partial (E : Ext) (a : KDEArgs d) :
    (∀ k, KDE.init E a = .ok k → ∃ ws, KDE.initLog E a = .ok (k, ws)) ∧
    (∀ e, KDE.init E a = .error e → KDE.initLog E a = .error e) ∧
    (∀ k ws, KDE.initLog E a = .ok (k, ws) → KDE.init E a = .ok k ∧
      KDEWarning.allTiny ∉ ws ∧
      ∀ M, M = Spec.kernelMatrix k.covariance k.bandwidth →
      (KDEWarning.ratio ∈ ws ↔ Spec.Correlated M ∧ Spec.BadRatio M 5) ∧
      ((KDEWarning.rescale ∈ ws ∨ KDEWarning.matrix ∈ ws) → KDEWarning.ratio ∈ ws)) := by
  refine ⟨fun k h => ?_, fun e h => ?_, fun k ws h => ?_⟩
  · rw [KDE.initLog, h]
    simp only
    rw [finalizeLog_eq]
    exact ⟨_, rfl⟩
  · rw [KDE.initLog, h]
  · cases hk : KDE.init E a with
    | error e => rw [KDE.initLog, hk] at h; cases h
    | ok k' =>
      rw [KDE.initLog, hk] at h
      simp only at h
      rw [finalizeLog_eq] at h
      simp only [Except.ok.injEq, Prod.mk.injEq] at h
      obtain ⟨rfl, rfl⟩ := h
      refine ⟨rfl, ?_, ?_⟩
      · split_ifs <;> simp
      · rintro M rfl
        rw [kernel_matrix_init hk]
        split_ifs with hc <;> simp [hc]

/-- A small covariance matrix with correlation one half. -/
noncomputable def tinyCov (c : ℝ) : Matrix (Fin 2) (Fin 2) ℝ := Matrix.of fun i j => if i = j then c else c / 2

lemma cov_init (E : Ext) (C : Matrix (Fin 2) (Fin 2) ℝ) (hC : ∀ i, 0 ≤ C i i) :
    ∃ a k, KDE.init (d := 2) E a = .ok k ∧ Spec.kernelMatrix k.covariance k.bandwidth = C := by
  obtain ⟨k, hk, hkw⟩ := C16_accepted E [![0, 1], ![2, 5]] (by simp) [1, 3]
    ⟨rfl, by simp, 1, by simp, by norm_num⟩ .box rfl 1 C hC
  refine ⟨_, k, hk, ?_⟩
  obtain ⟨B, hB, hR⟩ := C18_bandwidth hk
  obtain ⟨_, _, cov, _, D', _, _, _, _, _, _, hc, _, hD', _, _, _, _, he⟩ := init_inv hk
  simp only [covArg, Except.ok.injEq] at hc
  obtain ⟨b, rfl, hb⟩ := hB
  simp only [Spec.Rescaled] at hR
  ext i j
  rw [Spec.kernelMatrix, Matrix.of_apply, hR, hb, show k.covariance = C by rw [he, ← hc]]
  simp

/-- **C115 is false of the code**: data with a covariance of `1e-12` give no warning at all. -/
theorem C115_refuted : ¬ C115_Claim := by
  intro h
  obtain ⟨a, k, hk, hM⟩ := cov_init ⟨fun A => A, id⟩ (tinyCov (1 / 10 ^ 12))
    (by intro i; simp only [tinyCov, Matrix.of_apply, if_true]; norm_num)
  obtain ⟨h1, _, h3⟩ := C115_partial ⟨fun A => A, id⟩ a
  obtain ⟨ws, hw⟩ := h1 k hk
  refine (h3 k ws hw).2.1 ((h 2 _ a k ws hw).1.mpr ?_)
  rw [hM]
  have hten : (10 : ℝ) ^ (-10 : ℝ) = 1 / 10 ^ 10 := by
    rw [Real.rpow_neg (by norm_num), show (10 : ℝ) ^ (10 : ℝ) = (10 : ℝ) ^ ((10 : ℕ) : ℝ) by norm_num,
      Real.rpow_natCast]
    norm_num
  refine ⟨fun i j => ?_, 0, 1, by simp, by simp [tinyCov]⟩
  rw [hten, tinyCov, Matrix.of_apply]
  split_ifs <;> rw [abs_of_pos (by norm_num)] <;> norm_num

/-- A construction that warns about the ratio: a parameter with variance `1e6`, another with variance 1, and
covariance 1. -/
example : ∃ (a : KDEArgs 2) (k : KDE 2) (ws : List KDEWarning), KDE.initLog ⟨fun A => A, id⟩ a = .ok (k, ws) ∧
    KDEWarning.ratio ∈ ws := by
  obtain ⟨a, k, hk, hM⟩ := cov_init ⟨fun A => A, id⟩ (!![10 ^ 6, 1; 1, 1])
    (by intro i; fin_cases i <;> simp)
  obtain ⟨h1, _, h3⟩ := C115_partial ⟨fun A => A, id⟩ a
  obtain ⟨ws, hw⟩ := h1 k hk
  have hlt : (10 : ℝ) ^ (-20 : ℝ) < 1 := Real.rpow_lt_one_of_one_lt_of_neg (by norm_num) (by norm_num)
  refine ⟨a, k, ws, hw, ((h3 k ws hw).2.2 _ rfl).1.mpr ⟨⟨0, 1, by simp, ?_⟩, 0, 0, 1, by simp, ?_, ?_, ?_⟩⟩
  · rw [hM]; norm_num
  · rw [hM]
    refine hlt.trans ?_
    norm_num
  · rw [hM]
    simpa using hlt
  · rw [hM]
    have : Real.logb 10 ((10 : ℝ) ^ 6) = 6 := by
      rw [← Real.rpow_natCast, Real.logb_rpow (by norm_num) (by norm_num)]
      norm_num
    simp only [Matrix.of_apply, Matrix.cons_val', Matrix.cons_val_zero, Matrix.cons_val_one, abs_one, div_one]
    rw [abs_of_pos (show (0 : ℝ) < 10 ^ 6 by norm_num), this]
    norm_num

end Kalepy
