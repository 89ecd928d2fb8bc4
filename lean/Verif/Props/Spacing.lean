import Verif.Model.Spacing
import Verif.Props.Minmax
import Mathlib.Tactic.FieldSimp
import Mathlib.Analysis.SpecialFunctions.Pow.Real

/-!
# C78: spacing and bins
-/

namespace Kalepy

/-- `grid` has `n + 1` points, from `lo` to `hi`, with equal differences. -/
def Spec.EvenGrid (grid : List ℝ) (n : ℕ) (lo hi : ℝ) : Prop :=
  grid.length = n + 1 ∧ grid[0]? = some lo ∧ grid[n]? = some hi ∧
    ∀ k x y z, grid[k]? = some x → grid[k + 1]? = some y → grid[k + 2]? = some z → z - y = y - x

/-- `grid` has `n + 1` positive points, from `lo` to `hi`, with equal ratios `q`. -/
def Spec.LogGrid (grid : List ℝ) (n : ℕ) (lo hi q : ℝ) : Prop :=
  grid.length = n + 1 ∧ grid[0]? = some lo ∧ grid[n]? = some hi ∧
    ∀ k x y, grid[k]? = some x → grid[k + 1]? = some y → 0 < x ∧ y = x * q

lemma npLinspace_getElem? (a b : ℝ) {n k : ℕ} (hn : 0 < n) (hk : k ≤ n) :
    (npLinspace a b n)[k]? = some (a + k * ((b - a) / n)) := by
  rw [npLinspace, if_neg hn.ne', List.getElem?_map, List.getElem?_range (by omega)]
  rfl

lemma npLinspace_length (a b : ℝ) (n : ℕ) : (npLinspace a b n).length = n + 1 := by
  unfold npLinspace
  split
  · simp [*]
  · simp

lemma npLinspace_even (a b : ℝ) {n : ℕ} (hn : 0 < n) : Spec.EvenGrid (npLinspace a b n) n a b := by
  refine ⟨npLinspace_length a b n, ?_, ?_, ?_⟩
  · rw [npLinspace_getElem? a b hn (by omega)]; simp
  · rw [npLinspace_getElem? a b hn le_rfl]
    congr 1
    field_simp
    ring
  · intro k x y z hx hy hz
    have hk : k + 2 < n + 1 := by
      rw [← npLinspace_length a b n]
      exact (List.getElem?_eq_some_iff.mp hz).1
    rw [npLinspace_getElem? a b hn (by omega)] at hx hy hz
    injection hx with hx
    injection hy with hy
    injection hz with hz
    rw [← hx, ← hy, ← hz]
    push_cast
    ring

lemma npLinspace_pow {lo hi : ℝ} (hlo : 0 < lo) (hhi : 0 < hi) {n : ℕ} (hn : 0 < n) :
    Spec.LogGrid ((npLinspace (Real.logb 10 lo) (Real.logb 10 hi) n).map fun x => (10 : ℝ) ^ x) n lo hi
      ((hi / lo) ^ (1 / (n : ℝ))) := by
  have h10 : ∀ x : ℝ, 0 < x → (10 : ℝ) ^ Real.logb 10 x = x := fun x hx =>
    Real.rpow_logb (by norm_num) (by norm_num) hx
  obtain ⟨h1, h2, h3, -⟩ := npLinspace_even (Real.logb 10 lo) (Real.logb 10 hi) hn
  refine ⟨by simp [h1], by rw [List.getElem?_map, h2]; simp [h10 lo hlo], by
    rw [List.getElem?_map, h3]; simp [h10 hi hhi], ?_⟩
  intro k x y hx hy
  have hk : k + 1 < n + 1 := by
    have := (List.getElem?_eq_some_iff.mp hy).1
    simpa [h1] using this
  rw [List.getElem?_map, npLinspace_getElem? _ _ hn (by omega)] at hx hy
  simp only [Option.map_some, Option.some.injEq] at hx hy
  refine ⟨by rw [← hx]; positivity, ?_⟩
  rw [← hx, ← hy]
  have hq : (hi / lo) ^ (1 / (n : ℝ)) = (10 : ℝ) ^ ((Real.logb 10 hi - Real.logb 10 lo) / n) := by
    rw [← h10 (hi / lo) (by positivity), ← Real.rpow_mul (by norm_num), Real.logb_div hhi.ne' hlo.ne']
    congr 1
    ring
  rw [hq, ← Real.rpow_add (by norm_num)]
  congr 1
  push_cast
  ring

/-- The number of points of `spacing`: `m ≥ 1` requested. -/
lemma npLinspaceNum_nat (a b : ℝ) (m : ℕ) : npLinspaceNum a b ((m : ℤ) + 1) = .ok (npLinspace a b m) := by
  unfold npLinspaceNum
  rw [if_neg (by omega), if_neg (by omega)]
  congr 2

lemma extrema_minmax (dt : DType) {data : List ℝ} (positive : Bool) {lo hi : ℝ}
    (he : IsExtrema (if positive then data.filter (0 < ·) else data) lo hi) :
    minmax dt data positive = .ok (some (some lo, some hi)) :=
  (minmax_eq dt positive none none he).1

/-- **C78.** Logarithmic spacing with the default number of points: from the smallest to the largest (positive) element,
with equal ratios, at least `dex` points per decade (`q^dex ≤ 10`), and no more points than needed for that. -/
theorem C78_log (dt : DType) {data : List ℝ} (positive : Bool) {lo hi : ℝ}
    (he : IsExtrema (if positive then data.filter (0 < ·) else data) lo hi) (hlo : 0 < lo)
    (scale : String) (hscale : "log".toList <+: scale.toList) (dex : ℝ) (hdex : 0 < dex) :
    ∃ grid n q, spacing dt data scale none dex positive = .ok grid ∧ Spec.LogGrid grid n lo hi q ∧
      1 ≤ q ∧ (lo < hi → 1 < q) ∧ q ^ dex ≤ 10 ∧ (n : ℝ) < dex * Real.logb 10 (hi / lo) + 1 := by
  have hle : lo ≤ hi := (he.2.2 lo he.1).2
  have hhi : 0 < hi := hlo.trans_le hle
  have hflag : scaleFlag scale = .ok true := by
    rw [scaleFlag, startsWith, if_pos (List.isPrefixOf_iff_prefix.mpr hscale)]
  set L : ℝ := Real.logb 10 hi - Real.logb 10 lo with hL
  have hLdef : Real.logb 10 (hi / lo) = L := by rw [Real.logb_div hhi.ne' hlo.ne']
  have hL0 : 0 ≤ L := sub_nonneg.mpr (Real.logb_le_logb_of_le (by norm_num) hlo hle)
  have hcl : 0 ≤ ⌈L * dex⌉ := Int.ceil_nonneg (by positivity)
  obtain ⟨n, hn⟩ := Int.eq_ofNat_of_zero_le hcl
  have hsp : spacing dt data scale none dex positive
      = .ok ((npLinspace (Real.logb 10 lo) (Real.logb 10 hi) n).map fun x => (10 : ℝ) ^ x) := by
    unfold spacing
    rw [hflag, extrema_minmax dt positive he]
    simp only [if_true, if_pos (And.intro hlo hhi)]
    rw [← hL, abs_of_nonneg hL0, hn, npLinspaceNum_nat]
    rfl
  have hnL : L * dex ≤ n := by
    have := Int.le_ceil (L * dex)
    rw [hn] at this
    exact_mod_cast this
  have hnL' : (n : ℝ) < L * dex + 1 := by
    have := Int.ceil_lt_add_one (L * dex)
    rw [hn] at this
    exact_mod_cast this
  rcases Nat.eq_zero_or_pos n with h0 | hpos
  · have hL00 : L = 0 := by
      rw [h0] at hnL
      have : L * dex ≤ 0 := by simpa using hnL
      by_contra hne
      have : 0 < L * dex := mul_pos (lt_of_le_of_ne hL0 (Ne.symm hne)) hdex
      linarith
    have heq : hi = lo := by
      have h1 : Real.logb 10 hi = Real.logb 10 lo := by linarith
      exact Real.logb_injOn_pos (by norm_num : (1 : ℝ) < 10) hhi hlo h1
    subst h0
    refine ⟨_, 0, 1, hsp, ?_, le_rfl, fun h => absurd h (by rw [heq]; exact lt_irrefl _), by simp, ?_⟩
    · have : (10 : ℝ) ^ Real.logb 10 lo = lo := Real.rpow_logb (by norm_num) (by norm_num) hlo
      refine ⟨by simp [npLinspace], by simp [npLinspace, this], by simp [npLinspace, this, heq], ?_⟩
      intro k x y _ hy
      have := (List.getElem?_eq_some_iff.mp hy).1
      simp [npLinspace] at this
    · rw [hLdef]; linarith
  · have hn0 : (0 : ℝ) < n := by exact_mod_cast hpos
    refine ⟨_, n, _, hsp, npLinspace_pow hlo hhi hpos, ?_, ?_, ?_, by rw [hLdef]; linarith⟩
    · exact Real.one_le_rpow (by rwa [le_div_iff₀ hlo, one_mul]) (by positivity)
    · intro hlt
      exact Real.one_lt_rpow (by rwa [lt_div_iff₀ hlo, one_mul]) (by positivity)
    · have h10 : hi / lo = (10 : ℝ) ^ L := by
        rw [← hLdef, Real.rpow_logb (by norm_num) (by norm_num) (by positivity)]
      rw [← Real.rpow_mul (by positivity), h10, ← Real.rpow_mul (by norm_num)]
      calc (10 : ℝ) ^ (L * (1 / n * dex)) ≤ 10 ^ (1 : ℝ) := by
            refine Real.rpow_le_rpow_of_exponent_le (by norm_num) ?_
            rw [one_div_mul_eq_div, ← mul_div_assoc, div_le_one hn0]
            exact hnL
        _ = 10 := Real.rpow_one _

/-- **C78.** With a requested number of at least two points, both spacings return exactly that many points, from the
smallest to the largest (positive) element, evenly spaced in the value or its logarithm; linear spacing without a number
returns 20 points. -/
theorem C78_num (dt : DType) {data : List ℝ} (positive : Bool) {lo hi : ℝ}
    (he : IsExtrema (if positive then data.filter (0 < ·) else data) lo hi) (scale : String) (dex : ℝ) :
    ("lin".toList <+: scale.toList →
      (∃ grid, spacing dt data scale none dex positive = .ok grid ∧ Spec.EvenGrid grid 19 lo hi) ∧
      ∀ (x : ℝ) (n : ℕ), 2 ≤ x → ⌊x⌋ = n + 1 →
        ∃ grid, spacing dt data scale (some x) dex positive = .ok grid ∧ Spec.EvenGrid grid n lo hi) ∧
    ("log".toList <+: scale.toList → 0 < lo → ∀ (x : ℝ) (n : ℕ), 2 ≤ x → ⌊x⌋ = n + 1 →
      ∃ grid, spacing dt data scale (some x) dex positive = .ok grid ∧
        Spec.LogGrid grid n lo hi ((hi / lo) ^ (1 / (n : ℝ)))) := by
  have hle : lo ≤ hi := (he.2.2 lo he.1).2
  have hpy : ∀ (x : ℝ) (n : ℕ), 2 ≤ x → ⌊x⌋ = n + 1 → pyInt x = (n : ℤ) + 1 ∧ 0 < n := by
    intro x n hx hn
    refine ⟨by rw [pyInt, if_pos (by linarith)]; exact hn, ?_⟩
    have : (2 : ℤ) ≤ ⌊x⌋ := Int.le_floor.mpr (by exact_mod_cast hx)
    omega
  refine ⟨fun hs => ?_, fun hs hlo x n hx hn => ?_⟩
  · have hflag : scaleFlag scale = .ok false := by
      have h1 : startsWith "log" scale = false := by
        rw [startsWith, Bool.eq_false_iff]
        intro h
        rw [List.isPrefixOf_iff_prefix] at h
        obtain ⟨t, ht⟩ := h
        obtain ⟨t', ht'⟩ := hs
        rw [← ht'] at ht
        simp at ht
      rw [scaleFlag, h1, startsWith, if_neg (by simp), if_pos (List.isPrefixOf_iff_prefix.mpr hs)]
    refine ⟨⟨npLinspace lo hi 19, ?_, npLinspace_even lo hi (by norm_num)⟩, fun x n hx hn => ?_⟩
    · unfold spacing
      rw [hflag, extrema_minmax dt positive he]
      exact npLinspaceNum_nat lo hi 19
    · obtain ⟨h1, h2⟩ := hpy x n hx hn
      refine ⟨npLinspace lo hi n, ?_, npLinspace_even lo hi h2⟩
      unfold spacing
      rw [hflag, extrema_minmax dt positive he]
      simp only [Bool.false_eq_true, if_false, h1]
      exact npLinspaceNum_nat lo hi n
  · have hhi : 0 < hi := hlo.trans_le hle
    have hflag : scaleFlag scale = .ok true := by
      rw [scaleFlag, startsWith, if_pos (List.isPrefixOf_iff_prefix.mpr hs)]
    obtain ⟨h1, h2⟩ := hpy x n hx hn
    refine ⟨_, ?_, npLinspace_pow hlo hhi h2⟩
    unfold spacing
    rw [hflag, extrema_minmax dt positive he]
    simp only [if_true, if_pos (And.intro hlo hhi), h1]
    rw [npLinspaceNum_nat]
    rfl

/-- **C78.** Errors: an unknown scale, no data, or no positive data when only those are wanted. -/
theorem C78_errors (dt : DType) (data : List ℝ) (scale : String) (num : Option ℝ) (dex : ℝ) (positive : Bool) :
    (¬ "log".toList <+: scale.toList → ¬ "lin".toList <+: scale.toList →
      spacing dt data scale num dex positive = .error .runtimeError) ∧
    (("log".toList <+: scale.toList ∨ "lin".toList <+: scale.toList) →
      spacing dt [] scale num dex positive = .error .typeError ∧
      (data ≠ [] → (∀ x ∈ data, x ≤ 0) → spacing dt data scale num dex true = .error .valueError)) := by
  refine ⟨fun h1 h2 => ?_, fun h => ?_⟩
  · unfold spacing
    have : scaleFlag scale = .error .runtimeError := by
      rw [scaleFlag, startsWith, startsWith, if_neg (by rwa [List.isPrefixOf_iff_prefix]),
        if_neg (by rwa [List.isPrefixOf_iff_prefix])]
    rw [this]
  · obtain ⟨b, hb⟩ : ∃ b, scaleFlag scale = .ok b := by
      unfold scaleFlag startsWith
      split
      · exact ⟨_, rfl⟩
      · rename_i h1
        rw [if_pos]
        · exact ⟨_, rfl⟩
        · rw [List.isPrefixOf_iff_prefix] at h1 ⊢
          exact h.resolve_left h1
    refine ⟨?_, fun h0 hx => ?_⟩
    · unfold spacing
      rw [hb, (C34_extrema dt []).2.2.2]
    · unfold spacing
      rw [hb, (C34_extrema dt data).2.2.1 h0 hx]

/-- **C78.** `bins(a, b, n)` with `n + 1 ≥ 2` edges returns the even grid, the centre of each bin and its width; all
widths equal `(b - a) / n`, and each centre is half way between its edges. -/
theorem C78_bins (a b : ℝ) (n : ℕ) (hn : 0 < n) :
    ∃ xe xc dx, binsOf a b (n + 1) = .ok (xe, xc, dx) ∧ Spec.EvenGrid xe n a b ∧ xc.length = n ∧ dx.length = n ∧
      ∀ k < n, ∃ lo hi, xe[k]? = some lo ∧ xe[k + 1]? = some hi ∧ xc[k]? = some ((lo + hi) / 2) ∧
        dx[k]? = some ((b - a) / n) ∧ hi - lo = (b - a) / n := by
  have hlen := npLinspace_length a b n
  have hmid : midpoints1 (npLinspace a b n) = .ok (List.zipWith (fun x y => 1 / 2 * (x + y)) (npLinspace a b n)
      (npLinspace a b n).tail) := by
    rw [midpoints1, if_neg (by omega)]
  refine ⟨npLinspace a b n, List.zipWith (fun x y => 1 / 2 * (x + y)) (npLinspace a b n)
    (npLinspace a b n).tail, npDiff (npLinspace a b n), ?_, npLinspace_even a b hn, ?_, ?_, ?_⟩
  · unfold binsOf
    rw [npLinspaceNum_nat]
    simp only [hmid]
  · simp [hlen]
  · simp [npDiff, hlen]
  · intro k hk
    have h1 := npLinspace_getElem? a b hn hk.le
    have h2 := npLinspace_getElem? a b hn (k := k + 1) hk
    have hd : a + ((k + 1 : ℕ) : ℝ) * ((b - a) / n) - (a + k * ((b - a) / n)) = (b - a) / n := by push_cast; ring
    refine ⟨_, _, h1, h2, ?_, ?_, hd⟩
    · rw [List.getElem?_zipWith, h1, List.getElem?_tail, h2]
      simp only [Option.some.injEq]
      ring
    · rw [npDiff, List.getElem?_zipWith, h1, List.getElem?_tail, h2]
      simp only [Option.some.injEq]
      exact hd

/-- The hypotheses can be met: data with negative values, of which only the positive ones are wanted. -/
example : IsExtrema (if true then [(-3 : ℝ), 1000, 10].filter (0 < ·) else [-3, 1000, 10]) 10 1000 ∧
    "log".toList <+: "log10".toList := by
  have : [(-3 : ℝ), 1000, 10].filter (0 < ·) = [1000, 10] := by
    simp
  refine ⟨?_, ⟨"10".toList, rfl⟩⟩
  rw [if_pos rfl, this]
  refine ⟨by simp, by simp, ?_⟩
  intro x hx
  simp only [List.mem_cons, List.not_mem_nil, or_false] at hx
  rcases hx with rfl | rfl <;> norm_num

end Kalepy
