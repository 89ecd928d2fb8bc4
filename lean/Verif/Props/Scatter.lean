import Mathlib.Analysis.SpecialFunctions.PolarCoord
import Mathlib.Analysis.SpecialFunctions.Gaussian.GaussianIntegral
import Mathlib.MeasureTheory.Integral.IntervalIntegral.FundThmCalculus
import Mathlib.MeasureTheory.Integral.Prod
import Mathlib.Tactic.Linarith
import Mathlib.Tactic.Ring
import Mathlib.Tactic.FieldSimp
import Mathlib.Tactic.NormNum
import Verif.Model.Plot

/-!
# C67, C71, C72: sigmas and quantiles, scatter points, width of smoothing
-/

namespace Kalepy

open MeasureTheory Set

/-! ### sigmas -/

/-- The mass of the standard normal distribution of the plane within the distance `s` of its centre. -/
noncomputable def Spec.normalDisk (s : ℝ) : ℝ :=
  ∫ p in {p : ℝ × ℝ | p.1 ^ 2 + p.2 ^ 2 ≤ s ^ 2}, 1 / (2 * Real.pi) * Real.exp (-(1 / 2) * (p.1 ^ 2 + p.2 ^ 2))

lemma radial_integral (s : ℝ) (hs : 0 ≤ s) :
    ∫ r in (0 : ℝ)..s, r * Real.exp (-(1 / 2) * r ^ 2) = 1 - Real.exp (-(1 / 2) * s ^ 2) := by
  have hd : ∀ x ∈ uIcc 0 s, HasDerivAt (fun r => -Real.exp (-(1 / 2) * r ^ 2)) (x * Real.exp (-(1 / 2) * x ^ 2)) x := by
    intro x _
    have h1 : HasDerivAt (fun r : ℝ => -(1 / 2) * r ^ 2) (-(1 / 2) * (2 * x)) x := by
      simpa using (hasDerivAt_pow 2 x).const_mul (-(1 / 2) : ℝ)
    exact h1.exp.neg.congr_deriv (by ring)
  rw [intervalIntegral.integral_eq_sub_of_hasDerivAt hd]
  · simp; ring
  · apply Continuous.intervalIntegrable
    fun_prop

lemma normalDisk_eq (s : ℝ) (hs : 0 ≤ s) : Spec.normalDisk s = 1 - Real.exp (-(1 / 2) * s ^ 2) := by
  have hm : MeasurableSet {p : ℝ × ℝ | p.1 ^ 2 + p.2 ^ 2 ≤ s ^ 2} :=
    measurableSet_le (by fun_prop) (by fun_prop)
  unfold Spec.normalDisk
  rw [← integral_indicator hm, ← integral_comp_polarCoord_symm]
  have hcong : ∀ p ∈ polarCoord.target, p.1 • ({p : ℝ × ℝ | p.1 ^ 2 + p.2 ^ 2 ≤ s ^ 2}.indicator
      (fun p => 1 / (2 * Real.pi) * Real.exp (-(1 / 2) * (p.1 ^ 2 + p.2 ^ 2))) (polarCoord.symm p)) =
      (Iic s).indicator (fun r => r * Real.exp (-(1 / 2) * r ^ 2)) p.1 * (1 / (2 * Real.pi)) := by
    rintro ⟨r, θ⟩ hp
    have hr : 0 < r := hp.1
    have e : (r * Real.cos θ) ^ 2 + (r * Real.sin θ) ^ 2 = r ^ 2 := by
      have := Real.sin_sq_add_cos_sq θ
      linear_combination r ^ 2 * this
    by_cases h : r ≤ s
    · rw [indicator_of_mem (by
        simp only [Set.mem_ofPred_eq, polarCoord_symm_apply, e]
        exact pow_le_pow_left₀ hr.le h 2), indicator_of_mem (by exact h)]
      simp only [polarCoord_symm_apply, e, smul_eq_mul]
      ring
    · rw [indicator_of_notMem (by
        simp only [Set.mem_ofPred_eq, polarCoord_symm_apply, e]
        intro hc
        exact h (abs_le_of_sq_le_sq' hc hs).2), indicator_of_notMem (by exact h)]
      simp
  rw [setIntegral_congr_fun (polarCoord.open_target.measurableSet) hcong, polarCoord_target]
  rw [Measure.volume_eq_prod, setIntegral_prod_mul
    (fun r => (Iic s).indicator (fun r => r * Real.exp (-(1 / 2) * r ^ 2)) r) (fun _ => 1 / (2 * Real.pi))]
  have h1 : ∫ x in Ioi (0 : ℝ), (Iic s).indicator (fun r => r * Real.exp (-(1 / 2) * r ^ 2)) x =
      1 - Real.exp (-(1 / 2) * s ^ 2) := by
    rw [← radial_integral s hs, intervalIntegral.integral_of_le hs, setIntegral_indicator measurableSet_Iic,
      Ioi_inter_Iic]
  have h2 : ∫ _ in Ioo (-Real.pi) Real.pi, 1 / (2 * Real.pi) = 1 := by
    rw [setIntegral_const, Real.volume_real_Ioo_of_le (by linarith [Real.pi_pos]), smul_eq_mul]
    have := Real.pi_pos
    field_simp
    ring
  rw [h1, h2, mul_one]

/-- **C67.** Given sigmas (nonnegative) are converted to the masses of the standard normal distribution of the plane within
that many standard deviations; they lie in [0, 1), and larger sigmas give larger quantiles. -/
theorem C67_quantiles (sigmas : List ℝ) (h : ∀ s ∈ sigmas, 0 ≤ s) :
    (defaultQuantiles none (some sigmas)).1 = sigmas.map Spec.normalDisk ∧
    (∀ q ∈ (defaultQuantiles none (some sigmas)).1, 0 ≤ q ∧ q < 1) ∧
    ∀ a ∈ sigmas, ∀ b ∈ sigmas, a < b → Spec.normalDisk a < Spec.normalDisk b := by
  have e : (defaultQuantiles none (some sigmas)).1 = sigmas.map Spec.normalDisk := by
    simp only [defaultQuantiles, Option.getD_some]
    exact List.map_congr_left fun s hs => (normalDisk_eq s (h s hs)).symm
  refine ⟨e, fun q hq => ?_, fun a ha b hb hab => ?_⟩
  · rw [e, List.mem_map] at hq
    obtain ⟨s, hs, rfl⟩ := hq
    rw [normalDisk_eq s (h s hs)]
    have h1 := Real.exp_pos (-(1 / 2) * s ^ 2)
    have h2 : Real.exp (-(1 / 2) * s ^ 2) ≤ 1 := Real.exp_le_one_iff.mpr (by nlinarith [sq_nonneg s])
    constructor <;> linarith
  · rw [normalDisk_eq a (h a ha), normalDisk_eq b (h b hb)]
    have : Real.exp (-(1 / 2) * b ^ 2) < Real.exp (-(1 / 2) * a ^ 2) :=
      Real.exp_lt_exp.mpr (by nlinarith [h a ha, h b hb])
    linarith

/-- **C67.** Without arguments the quantiles are those of 0.5, 1, 1.5 and 2 sigma. -/
theorem C67_default : (defaultQuantiles none none).1 = [1 / 2, 1, 3 / 2, 2].map Spec.normalDisk := by
  have := (C67_quantiles defSigmas (by simp [defSigmas]; norm_num)).1
  exact this

/-- **C67.** Given quantiles in [0, 1) are kept, and the sigmas returned with them are the nonnegative numbers of standard deviations
with these masses; so the conversions are inverse to each other. -/
theorem C67_inverse (quantiles : List ℝ) (h : ∀ q ∈ quantiles, 0 ≤ q ∧ q < 1) :
    ∃ s : List ℝ, defaultQuantiles (some quantiles) none = (quantiles, s.map some) ∧ (∀ x ∈ s, 0 ≤ x) ∧
      s.map Spec.normalDisk = quantiles ∧ (defaultQuantiles none (some s)).1 = quantiles := by
  have key : ∀ q : ℝ, 0 ≤ q → q < 1 → Spec.normalDisk (Real.sqrt (-2 * Real.log (1 - q))) = q := by
    intro q h0 h1
    rw [normalDisk_eq _ (Real.sqrt_nonneg _), Real.sq_sqrt]
    · have : -(1 / 2) * (-2 * Real.log (1 - q)) = Real.log (1 - q) := by ring
      rw [this, Real.exp_log (by linarith)]
      ring
    · have := Real.log_nonpos (by linarith : 0 ≤ 1 - q) (by linarith)
      linarith
  have e : (quantiles.map fun q => Real.sqrt (-2 * Real.log (1 - q))).map Spec.normalDisk = quantiles := by
    rw [List.map_map]
    conv_rhs => rw [← List.map_id quantiles]
    exact List.map_congr_left fun q hq => key q (h q hq).1 (h q hq).2
  have hpos : ∀ x ∈ quantiles.map fun q => Real.sqrt (-2 * Real.log (1 - q)), 0 ≤ x := by
    intro x hx
    obtain ⟨q, _, rfl⟩ := List.mem_map.mp hx
    exact Real.sqrt_nonneg _
  refine ⟨quantiles.map fun q => Real.sqrt (-2 * Real.log (1 - q)), ?_, hpos, e, ?_⟩
  · simp only [defaultQuantiles, List.map_map, Prod.mk.injEq, true_and]
    exact List.map_congr_left fun q hq => by simp [h q hq]
  · rw [(C67_quantiles _ hpos).1, e]

/-- One sigma. -/
example : (defaultQuantiles none (some [1])).1 = [1 - Real.exp (-(1 / 2))] := by
  simp [defaultQuantiles]

/-! ### scatter points -/

/-- The result of `np.random.choice(size, n, replace=False)`: `n` distinct indices. -/
def Spec.IsChoice (sel : ℕ → ℕ → List ℕ) : Prop :=
  ∀ size n, n ≤ size → (sel size n).length = n ∧ (sel size n).Nodup ∧ ∀ i ∈ sel size n, i < size

lemma filterMap_range {α : Type*} (pts : List α) : (List.range pts.length).filterMap (fun i => pts[i]?) = pts := by
  induction pts using List.reverseRecOn with
  | nil => rfl
  | append_singleton as a ih =>
    rw [List.length_append, List.length_singleton, List.range_succ, List.filterMap_append]
    have : (List.range as.length).filterMap (fun i => (as ++ [a])[i]?) =
        (List.range as.length).filterMap (fun i => as[i]?) := by
      apply List.filterMap_congr
      intro i hi
      rw [List.getElem?_append_left (List.mem_range.mp hi)]
    rw [this, ih]
    simp

lemma choice_subperm {α : Type*} (pts : List α) (l : List ℕ) (hd : l.Nodup) (hl : ∀ i ∈ l, i < pts.length) :
    (l.filterMap fun i => pts[i]?).Subperm pts ∧ (l.filterMap fun i => pts[i]?).length = l.length := by
  constructor
  · obtain ⟨l', h1, h2⟩ := List.subperm_of_subset hd (l₂ := List.range pts.length)
      fun i hi => List.mem_range.mpr (hl i hi)
    refine ⟨l'.filterMap fun i => pts[i]?, h1.filterMap _, ?_⟩
    have := h2.filterMap (fun i => pts[i]?)
    rwa [filterMap_range] at this
  · clear hd
    induction l with
    | nil => rfl
    | cons a l ih =>
      have ha : pts[a]? = some (pts[a]'(hl a (by simp))) := List.getElem?_eq_getElem _
      rw [List.filterMap_cons_some ha, List.length_cons, List.length_cons, ih fun i hi => hl i (by simp [hi])]

/-- **C71.** The points drawn for a `scatter` (in `dist2d`) or `carpet` (in `dist1d`) argument: none for `False` or `None`;
all for `True`; for a number at least one, as many as it says (rounded down) but at most all, each data point at most as often as
it occurs; smaller numbers are refused. -/
theorem C71_scatter {α : Type*} (pts : List α) (sel : ℕ → ℕ → List ℕ) (hs : Spec.IsChoice sel) :
    scatterPoints pts .no sel = .ok none ∧ scatterPoints pts .none sel = .ok none ∧
    scatterPoints pts .yes sel = .ok (some pts) ∧
    (∀ x : ℝ, x < 1 → scatterPoints pts (.num x) sel = .error .valueError) ∧
    (∀ x : ℝ, 1 ≤ x → ∃ l, scatterPoints pts (.num x) sel = .ok (some l) ∧ l.Subperm pts ∧
      l.length = min ⌊x⌋.toNat pts.length) := by
  refine ⟨rfl, rfl, rfl, fun x hx => ?_, fun x hx => ?_⟩
  · have : pyInt x < 1 := by
      unfold pyInt
      split_ifs with h
      · rw [Int.floor_lt]; simpa using hx
      · have : ⌈x⌉ ≤ 0 := Int.ceil_le.mpr (by push_cast; linarith)
        omega
    simp [scatterPoints, scatterLimit, this]
  · have e : pyInt x = ⌊x⌋ := by unfold pyInt; rw [if_pos (by linarith)]
    have h1 : 1 ≤ ⌊x⌋ := Int.le_floor.mpr (by simpa using hx)
    simp only [scatterPoints, scatterLimit, e]
    rw [if_neg (by omega)]
    simp only [drawScatter]
    by_cases hn : ⌊x⌋.toNat < pts.length
    · rw [if_pos hn]
      obtain ⟨c1, c2, c3⟩ := hs pts.length ⌊x⌋.toNat hn.le
      obtain ⟨s1, s2⟩ := choice_subperm pts _ c2 c3
      exact ⟨_, rfl, s1, by rw [s2, c1, min_eq_left hn.le]⟩
    · rw [if_neg hn]
      exact ⟨_, rfl, List.Subperm.refl _, (min_eq_right (not_lt.mp hn)).symm⟩

/-- **C71.** The transparency of scatter points lies between 0 (exclusive) and 1, and more points are never drawn more opaque. -/
theorem C71_alpha (n m : ℕ) (h : n ≤ m) : 0 < scatterAlpha n ∧ scatterAlpha n ≤ 1 ∧ scatterAlpha m ≤ scatterAlpha n := by
  have hle1 : ∀ k, scatterAlpha k ≤ 1 := by
    intro k; unfold scatterAlpha; split_ifs
    · exact le_rfl
    · exact min_le_right _ _
  have hpos : ∀ k, 0 < scatterAlpha k := by
    intro k; unfold scatterAlpha; split_ifs with h0
    · exact one_pos
    · refine lt_min (lt_max_of_lt_left ?_) one_pos
      have : 0 < Real.sqrt k := Real.sqrt_pos.mpr (by exact_mod_cast Nat.pos_of_ne_zero h0)
      positivity
  refine ⟨hpos n, hle1 n, ?_⟩
  by_cases h0 : n = 0
  · subst h0
    rw [show scatterAlpha 0 = 1 by simp [scatterAlpha]]
    exact hle1 m
  · unfold scatterAlpha
    rw [if_neg h0, if_neg (by omega)]
    have hn : 0 < Real.sqrt n := Real.sqrt_pos.mpr (by exact_mod_cast Nat.pos_of_ne_zero h0)
    have hs : Real.sqrt n ≤ Real.sqrt m := Real.sqrt_le_sqrt (by exact_mod_cast h)
    exact min_le_min_right _ (max_le_max_right _ (div_le_div_of_nonneg_left (by norm_num) hn hs))

/-- A way to choose: the first indices. -/
lemma isChoice_range : Spec.IsChoice fun _ n => List.range n := by
  intro size n h
  exact ⟨by simp, List.nodup_range, fun i hi => lt_of_lt_of_le (List.mem_range.mp hi) h⟩

/-- Two of three points. -/
example : ∃ l, scatterPoints [10, 20, 30] (.num (5 / 2)) (fun _ n => List.range n) = .ok (some l) ∧ l.length = 2 := by
  obtain ⟨l, h1, -, h2⟩ := (C71_scatter [10, 20, 30] _ isChoice_range).2.2.2.2 (5 / 2) (by norm_num)
  refine ⟨l, h1, ?_⟩
  rw [h2, show ⌊(5 / 2 : ℝ)⌋ = 2 by norm_num [Int.floor_eq_iff]]
  rfl

/-! ### smoothing -/

/-- **C72 (full statement, not true of the code).** The width of the smoothing, in cells of the histogram before upsampling, is
the number given, whatever the `upsample` argument: in cells of the upsampled histogram it is that number times the zoom
factor (one if there is no upsampling). -/
def C72_Claim : Prop :=
  ∀ (smooth : ℝ) (up : UpArg), filterWidth smooth up = smooth * ((zoomFactor up).getD 1 : ℕ)

/-- **C72 fails** for `upsample=False`: the histogram is not smoothed at all. -/
theorem C72_refuted : ¬ C72_Claim := by
  intro h
  have := h 1 .no
  simp [filterWidth, zoomFactor] at this

/-- **C72 (partial).** It holds for `None`, `True` and positive numbers; for `False` (and 0) the width is zero. -/
theorem C72_partial (smooth : ℝ) (up : UpArg) :
    (up ≠ .no → up ≠ .num 0 → filterWidth smooth up = smooth * ((zoomFactor up).getD 1 : ℕ)) ∧
    (up = .no ∨ up = .num 0 → filterWidth smooth up = 0) := by
  rcases up with _ | _ | _ | _ | k <;> simp [filterWidth, zoomFactor]

end Kalepy
