import Mathlib.Tactic.IntervalCases
import Verif.Model.Colors

/-!
# C122: colour maps made from a colour
-/

namespace Kalepy

/-! ## Specification -/

/-- A colour: components between 0 and 1. -/
def Spec.IsColor (c : RGB) : Prop := (0 ≤ c.r ∧ c.r ≤ 1) ∧ (0 ≤ c.g ∧ c.g ≤ 1) ∧ (0 ≤ c.b ∧ c.b ≤ 1)

/-- `c` is at least as light as `e` in every component. -/
def Spec.Lighter (c e : RGB) : Prop := e.r ≤ c.r ∧ e.g ≤ c.g ∧ e.b ≤ c.b

/-- A shade of grey. -/
def Spec.IsGrey (c : RGB) : Prop := c.r = c.g ∧ c.g = c.b

/-! ## Proofs -/

lemma interp01_eq {x a b : ℝ} (h0 : 0 ≤ x) (h1 : x ≤ 1) : interp01 x a b = a + (b - a) * x := by
  rcases h1.lt_or_eq with h | rfl
  · have hs : searchRight [0, 1] x = 1 := by
      simp [searchRight, h0, not_le.mpr h]
    unfold interp01 npInterp
    rw [hs]
    show (if (0 : ℕ) + 1 = 2 then a else if (0 : ℝ) = x then a else (b - a) / (1 - 0) * (x - 0) + a) = _
    rw [if_neg (by norm_num)]
    split_ifs with hx
    · rw [← hx]; ring
    · ring
  · have hs : searchRight [0, (1 : ℝ)] 1 = 2 := by simp [searchRight]
    unfold interp01 npInterp
    rw [hs]
    simp

lemma rgbToHsv_mem {c : RGB} (h : Spec.IsColor c) :
    (0 ≤ (rgbToHsv c).1 ∧ (rgbToHsv c).1 < 1) ∧ (0 ≤ (rgbToHsv c).2.1 ∧ (rgbToHsv c).2.1 ≤ 1) ∧
      (0 ≤ (rgbToHsv c).2.2 ∧ (rgbToHsv c).2.2 ≤ 1) := by
  obtain ⟨⟨r0, r1⟩, ⟨g0, g1⟩, ⟨b0, b1⟩⟩ := h
  simp only [rgbToHsv]
  refine ⟨⟨Int.fract_nonneg _, Int.fract_lt_one _⟩, ?_, ?_, ?_⟩
  · split_ifs with h
    · refine ⟨div_nonneg h.2.le h.1.le, ?_⟩
      rw [div_le_one h.1]
      have : 0 ≤ min (min c.r c.g) c.b := le_min (le_min r0 g0) b0
      linarith
    · simp
  · exact le_max_of_le_right b0
  · exact max_le (max_le r1 g1) b1

lemma hsvToRgb_mem {h s v : ℝ} (s0 : 0 ≤ s) (s1 : s ≤ 1) (v0 : 0 ≤ v) (v1 : v ≤ 1) :
    Spec.IsColor (hsvToRgb (h, s, v)) := by
  have f0 : 0 ≤ h * 6 - ⌊h * 6⌋ := Int.fract_nonneg _
  have f1 : h * 6 - ⌊h * 6⌋ < 1 := Int.fract_lt_one _
  set f := h * 6 - ⌊h * 6⌋ with hf
  have key : ∀ x, 0 ≤ x → x ≤ 1 → 0 ≤ v * (1 - x) ∧ v * (1 - x) ≤ 1 := fun x x0 x1 =>
    ⟨mul_nonneg v0 (by linarith), by nlinarith⟩
  have hp := key s s0 s1
  have hq := key (s * f) (mul_nonneg s0 f0) (by nlinarith)
  have ht := key (s * (1 - f)) (mul_nonneg s0 (by linarith)) (by nlinarith)
  simp only [hsvToRgb, ← hf]
  split_ifs
  · exact ⟨⟨v0, v1⟩, ⟨v0, v1⟩, v0, v1⟩
  · exact ⟨⟨v0, v1⟩, ht, hp⟩
  · exact ⟨hq, ⟨v0, v1⟩, hp⟩
  · exact ⟨hp, ⟨v0, v1⟩, ht⟩
  · exact ⟨hp, hq, v0, v1⟩
  · exact ⟨ht, hp, v0, v1⟩
  · exact ⟨⟨v0, v1⟩, hp, hq⟩

lemma colorDist_mem {c e : RGB} (hr : |e.r - c.r| ≤ 1) (hg : |e.g - c.g| ≤ 1) (hb : |e.b - c.b| ≤ 1) :
    0 ≤ colorDist c e ∧ colorDist c e ≤ 1 := by
  have h3 : (0 : ℝ) < Real.sqrt 3 := Real.sqrt_pos.mpr (by norm_num)
  refine ⟨by unfold colorDist; positivity, ?_⟩
  unfold colorDist
  rw [div_le_one h3]
  apply Real.sqrt_le_sqrt
  have := (sq_le_one_iff_abs_le_one _).mpr hr
  have := (sq_le_one_iff_abs_le_one _).mpr hg
  have := (sq_le_one_iff_abs_le_one _).mpr hb
  linarith

lemma cmap_color {col : RGB} (hc : Spec.IsColor col) {pow sat val : ℝ} (hs : 0 ≤ sat ∧ sat ≤ 1)
    (hv : 0 ≤ val ∧ val ≤ 1) : Spec.IsColor (colorToCmap col pow sat val).2.1 := by
  obtain ⟨-, ⟨b0, b1⟩, c0, c1⟩ := rgbToHsv_mem hc
  simp only [colorToCmap]
  rw [interp01_eq hs.1 hs.2, interp01_eq hv.1 hv.2]
  apply hsvToRgb_mem <;> nlinarith

/-- **C122, full statement**: the colour map made from a colour runs from a lighter to a darker colour, through
colours, and is grey for a grey colour. -/
def C122_Claim : Prop :=
  ∀ (col : RGB) (pow sat val : ℝ), Spec.IsColor col → 0 ≤ pow → 0 ≤ sat ∧ sat ≤ 1 → 0 ≤ val ∧ val ≤ 1 →
    ∀ lo mid hi, colorToCmap col pow sat val = (lo, mid, hi) →
      (Spec.IsColor lo ∧ Spec.IsColor mid ∧ Spec.IsColor hi) ∧ Spec.Lighter lo mid ∧ Spec.Lighter mid hi ∧
      (Spec.IsGrey col → Spec.IsGrey lo ∧ Spec.IsGrey mid ∧ Spec.IsGrey hi)

/-- **C122, as far as it holds** (the full statement is `C122_Claim`): all three colours are colours, and they get
darker.  The middle colour made from a grey one is never grey (if the saturation is increased): it is reddish. -/
theorem C122_partial (col : RGB) (pow sat val : ℝ) (hc : Spec.IsColor col) (hp : 0 ≤ pow) (hs : 0 ≤ sat ∧ sat ≤ 1)
    (hv : 0 ≤ val ∧ val ≤ 1) (lo mid hi : RGB) (h : colorToCmap col pow sat val = (lo, mid, hi)) :
    (Spec.IsColor lo ∧ Spec.IsColor mid ∧ Spec.IsColor hi) ∧ Spec.Lighter lo mid ∧ Spec.Lighter mid hi ∧
    (Spec.IsGrey col → 0 < sat → 0 < val ∨ 0 < col.r → mid.b = mid.g ∧ mid.g < mid.r) := by
  have hm := cmap_color (pow := pow) hc hs hv
  rw [h] at hm
  simp only at hm
  obtain ⟨⟨r0, r1⟩, ⟨g0, g1⟩, b0, b1⟩ := id hm
  have hmid : mid = (colorToCmap col pow sat val).2.1 := by rw [h]
  have hlo : lo = ⟨interp01 (colorDist mid ⟨1, 1, 1⟩ ^ pow) mid.r 1, interp01 (colorDist mid ⟨1, 1, 1⟩ ^ pow) mid.g 1,
      interp01 (colorDist mid ⟨1, 1, 1⟩ ^ pow) mid.b 1⟩ := by
    rw [hmid]
    have := congrArg Prod.fst h
    simp only at this
    rw [← this]
    rfl
  have hhi : hi = ⟨interp01 (colorDist mid ⟨0, 0, 0⟩ ^ pow) mid.r 0, interp01 (colorDist mid ⟨0, 0, 0⟩ ^ pow) mid.g 0,
      interp01 (colorDist mid ⟨0, 0, 0⟩ ^ pow) mid.b 0⟩ := by
    rw [hmid]
    have := congrArg (fun x => x.2.2) h
    simp only at this
    rw [← this]
    rfl
  have hw := colorDist_mem (c := mid) (e := ⟨1, 1, 1⟩) (by rw [abs_le]; constructor <;> simp only <;> linarith)
    (by rw [abs_le]; constructor <;> simp only <;> linarith) (by rw [abs_le]; constructor <;> simp only <;> linarith)
  have hb := colorDist_mem (c := mid) (e := ⟨0, 0, 0⟩) (by rw [abs_le]; constructor <;> simp only <;> linarith)
    (by rw [abs_le]; constructor <;> simp only <;> linarith) (by rw [abs_le]; constructor <;> simp only <;> linarith)
  have hw0 := Real.rpow_nonneg hw.1 pow
  have hw1 := Real.rpow_le_one hw.1 hw.2 hp
  have hb0 := Real.rpow_nonneg hb.1 pow
  have hb1 := Real.rpow_le_one hb.1 hb.2 hp
  set x := colorDist mid ⟨1, 1, 1⟩ ^ pow
  set y := colorDist mid ⟨0, 0, 0⟩ ^ pow
  have up : ∀ m : ℝ, 0 ≤ m → m ≤ 1 → m ≤ interp01 x m 1 ∧ interp01 x m 1 ≤ 1 := by
    intro m m0 m1
    rw [interp01_eq hw0 hw1]
    constructor <;> nlinarith
  have down : ∀ m : ℝ, 0 ≤ m → m ≤ 1 → 0 ≤ interp01 y m 0 ∧ interp01 y m 0 ≤ m := by
    intro m m0 m1
    rw [interp01_eq hb0 hb1]
    constructor <;> nlinarith
  refine ⟨⟨?_, hm, ?_⟩, ?_, ?_, ?_⟩
  · rw [hlo]
    exact ⟨⟨r0.trans (up _ r0 r1).1, (up _ r0 r1).2⟩, ⟨g0.trans (up _ g0 g1).1, (up _ g0 g1).2⟩,
      b0.trans (up _ b0 b1).1, (up _ b0 b1).2⟩
  · rw [hhi]
    exact ⟨⟨(down _ r0 r1).1, (down _ r0 r1).2.trans r1⟩, ⟨(down _ g0 g1).1, (down _ g0 g1).2.trans g1⟩,
      (down _ b0 b1).1, (down _ b0 b1).2.trans b1⟩
  · rw [hlo]
    exact ⟨(up _ r0 r1).1, (up _ g0 g1).1, (up _ b0 b1).1⟩
  · rw [hhi]
    exact ⟨(down _ r0 r1).2, (down _ g0 g1).2, (down _ b0 b1).2⟩
  · rintro ⟨e1, e2⟩ hs0 hpos
    obtain ⟨r, g, b⟩ := col
    simp only at e1 e2 hpos
    subst e1 e2
    have hr0 : 0 ≤ r := hc.1.1
    have hr1 : r ≤ 1 := hc.1.2
    rw [hmid]
    have hh : rgbToHsv ⟨r, r, r⟩ = (0, 0, r) := by simp [rgbToHsv]
    have hvpos : 0 < r + (1 - r) * val := by
      rcases hpos with h | h <;> nlinarith
    simp only [colorToCmap, hh]
    rw [interp01_eq hs.1 hs.2, interp01_eq hv.1 hv.2]
    simp only [hsvToRgb, sub_zero, one_mul, zero_add, zero_mul, Int.floor_zero, Int.cast_zero, mul_one, Int.zero_emod,
      if_true]
    rw [if_neg hs0.ne']
    refine ⟨rfl, ?_⟩
    nlinarith

/-- **C122 is false of the code**: the default colour map of the grey `0.5` is not grey. -/
theorem C122_refuted : ¬ C122_Claim := by
  intro h
  have hc : Spec.IsColor ⟨1 / 2, 1 / 2, 1 / 2⟩ := by simp only [Spec.IsColor]; norm_num
  obtain ⟨_, _, _, h4⟩ := h ⟨1 / 2, 1 / 2, 1 / 2⟩ (333 / 1000) (1 / 4) (1 / 4) hc (by norm_num) (by norm_num) (by norm_num)
    _ _ _ rfl
  have h5 := (C122_partial ⟨1 / 2, 1 / 2, 1 / 2⟩ (333 / 1000) (1 / 4) (1 / 4) hc (by norm_num) (by norm_num) (by norm_num)
    _ _ _ rfl).2.2.2 ⟨rfl, rfl⟩ (by norm_num) (Or.inl (by norm_num))
  have h6 := (h4 ⟨rfl, rfl⟩).2.1.1
  exact absurd h6 h5.2.ne'

open Classical in
/-- The two conversions of colours fit together. -/
lemma hsv_roundtrip {h s v : ℝ} (h0 : 0 ≤ h) (h1 : h < 1) (s0 : 0 < s) (s1 : s ≤ 1) (v0 : 0 < v) :
    rgbToHsv (hsvToRgb (h, s, v)) = (h, s, v) := by
  have f0 : 0 ≤ h * 6 - ⌊h * 6⌋ := Int.fract_nonneg _
  have f1 : h * 6 - ⌊h * 6⌋ < 1 := Int.fract_lt_one _
  have i0 : 0 ≤ ⌊h * 6⌋ := Int.floor_nonneg.mpr (by positivity)
  have i6 : ⌊h * 6⌋ < 6 := Int.floor_lt.mpr (by norm_num; linarith)
  obtain ⟨f, hf⟩ : ∃ f, f = h * 6 - ⌊h * 6⌋ := ⟨_, rfl⟩
  have hh : h = (⌊h * 6⌋ + f) / 6 := by rw [hf]; ring
  obtain ⟨i, hi⟩ : ∃ i, i = ⌊h * 6⌋ := ⟨_, rfl⟩
  have hsf : 0 ≤ s * f := mul_nonneg s0.le (hf ▸ f0)
  have hsf' : s * f < s := by rw [← hf] at f1; nlinarith
  -- the components
  have hvs : 0 < v * s := mul_pos v0 s0
  simp only [hsvToRgb]
  rw [if_neg s0.ne', ← hf, ← hi]
  rw [← hf] at f0 f1
  rw [← hi] at i0 i6 hh
  have main : ∀ (c : RGB) (u : ℝ), max (max c.r c.g) c.b = v → min (min c.r c.g) c.b = v * (1 - s) →
      (if c.b = v then 4 + (c.r - c.g) / (v * s) else if c.g = v then 2 + (c.b - c.r) / (v * s)
        else (c.g - c.b) / (v * s)) = u → Int.fract (u / 6) = h → rgbToHsv c = (h, s, v) := by
    intro c u e1 e2 e3 e4
    have hd : v - v * (1 - s) = v * s := by ring
    simp only [rgbToHsv, e1, e2, hd]
    rw [if_pos hvs, e3, e4, if_pos (And.intro v0 hvs)]
    congr 2
    field_simp
  have hfr : Int.fract (((i : ℝ) + f) / 6) = h := by
    rw [← hh]
    exact Int.fract_eq_self.mpr ⟨h0, h1⟩
  have q1 : v * (1 - s) < v * (1 - s * f) := by nlinarith
  have q2 : v * (1 - s * f) ≤ v := by nlinarith
  have t1 : v * (1 - s) ≤ v * (1 - s * (1 - f)) := by nlinarith
  have t2 : v * (1 - s * (1 - f)) < v := by nlinarith
  have p1 : v * (1 - s) < v := by nlinarith
  generalize hp : v * (1 - s) = p at *
  generalize hq : v * (1 - s * f) = q at *
  generalize ht : v * (1 - s * (1 - f)) = t at *
  have hvs' := hvs.ne'
  interval_cases i
  · rw [if_pos (by decide)]
    refine main _ (0 + f) ?_ ?_ ?_ (by simpa using hfr)
    · simp only; rw [max_eq_left t2.le, max_eq_left p1.le]
    · simp only; rw [min_eq_right t2.le, min_eq_right t1]
    · simp only
      rw [if_neg p1.ne, if_neg t2.ne, ← hp, ← ht]
      field_simp
      ring
  · rw [if_neg (by decide), if_pos rfl]
    refine main _ (1 + f) ?_ ?_ ?_ (by simpa using hfr)
    · simp only; rw [max_eq_right q2, max_eq_left p1.le]
    · simp only; rw [min_eq_left q2, min_eq_right q1.le]
    · simp only
      rw [if_neg p1.ne, if_pos trivial, ← hp, ← hq]
      field_simp
      ring
  · rw [if_neg (by decide), if_neg (by decide), if_pos rfl]
    refine main _ (2 + f) ?_ ?_ ?_ (by simpa using hfr)
    · simp only; rw [max_eq_right p1.le, max_eq_left t2.le]
    · simp only; rw [min_eq_left p1.le, min_eq_left t1]
    · simp only
      rw [if_neg t2.ne, if_pos trivial, ← hp, ← ht]
      field_simp
      ring
  · rw [if_neg (by decide), if_neg (by decide), if_neg (by decide), if_pos rfl]
    refine main _ (3 + f) ?_ ?_ ?_ (by simpa using hfr)
    · simp only; rw [max_eq_right q1.le, max_eq_right q2]
    · simp only; rw [min_eq_left q1.le, min_eq_left p1.le]
    · simp only
      rw [if_pos trivial, ← hp, ← hq]
      field_simp
      ring
  · rw [if_neg (by decide), if_neg (by decide), if_neg (by decide), if_neg (by decide), if_pos rfl]
    refine main _ (4 + f) ?_ ?_ ?_ (by simpa using hfr)
    · simp only; rw [max_eq_left t1, max_eq_right t2.le]
    · simp only; rw [min_eq_right t1, min_eq_left p1.le]
    · simp only
      rw [if_pos trivial, ← hp, ← ht]
      field_simp
      ring
  · rw [if_neg (by decide), if_neg (by decide), if_neg (by decide), if_neg (by decide), if_neg (by decide)]
    by_cases hfz : f = 0
    · refine main _ (5 + f) ?_ ?_ ?_ (by simpa using hfr)
      · simp only; rw [max_eq_left p1.le, max_eq_left q2]
      · simp only; rw [min_eq_right p1.le, min_eq_left q1.le]
      · simp only
        rw [if_pos (by rw [← hq, hfz]; ring), ← hp, hfz]
        field_simp
        ring
    · refine main _ (5 + f - 6) ?_ ?_ ?_ ?_
      · simp only; rw [max_eq_left p1.le, max_eq_left q2]
      · simp only; rw [min_eq_right p1.le, min_eq_left q1.le]
      · have hfp : 0 < f := lt_of_le_of_ne f0 (Ne.symm hfz)
        have : q < v := by rw [← hq]; nlinarith [mul_pos s0 hfp]
        simp only
        rw [if_neg this.ne, if_neg p1.ne, ← hp, ← hq]
        field_simp
        ring
      · rw [sub_div, div_self (by norm_num : (6 : ℝ) ≠ 0), Int.fract_sub_one]
        simpa using hfr

/-- The middle colour of the map has the hue of the given colour, if this is not grey; saturation and value are moved
towards 1 by the given fractions. -/
theorem C122_hue (col : RGB) (pow sat val : ℝ) (hc : Spec.IsColor col) (hs : 0 ≤ sat ∧ sat ≤ 1) (hv : 0 ≤ val ∧ val ≤ 1)
    (hg : ¬ Spec.IsGrey col) (h s v : ℝ) (hcol : rgbToHsv col = (h, s, v)) :
    rgbToHsv (colorToCmap col pow sat val).2.1 = (h, s + sat * (1 - s), v + val * (1 - v)) ∧ 0 < s ∧ 0 < v := by
  obtain ⟨⟨a0, a1⟩, ⟨b0, b1⟩, c0, c1⟩ := rgbToHsv_mem hc
  have hpos : 0 < s ∧ 0 < v := by
    obtain ⟨⟨r0, r1⟩, ⟨g0, g1⟩, bb0, bb1⟩ := hc
    have hd : min (min col.r col.g) col.b < max (max col.r col.g) col.b := by
      by_contra hd
      apply hg
      have l1 : max (max col.r col.g) col.b ≤ min (min col.r col.g) col.b := not_lt.mp hd
      have m1 : col.r ≤ max (max col.r col.g) col.b := le_max_of_le_left (le_max_left _ _)
      have m2 : col.g ≤ max (max col.r col.g) col.b := le_max_of_le_left (le_max_right _ _)
      have m3 : col.b ≤ max (max col.r col.g) col.b := le_max_right _ _
      have n1 : min (min col.r col.g) col.b ≤ col.r := min_le_of_left_le (min_le_left _ _)
      have n2 : min (min col.r col.g) col.b ≤ col.g := min_le_of_left_le (min_le_right _ _)
      have n3 : min (min col.r col.g) col.b ≤ col.b := min_le_right _ _
      exact ⟨by linarith, by linarith⟩
    have hmin : 0 ≤ min (min col.r col.g) col.b := le_min (le_min r0 g0) bb0
    have hmx : 0 < max (max col.r col.g) col.b := lt_of_le_of_lt hmin hd
    simp only [rgbToHsv, Prod.mk.injEq] at hcol
    obtain ⟨_, e2, e3⟩ := hcol
    rw [if_pos ⟨hmx, sub_pos.mpr hd⟩] at e2
    rw [← e2, ← e3]
    exact ⟨div_pos (sub_pos.mpr hd) hmx, hmx⟩
  rw [hcol] at a0 a1 b0 b1 c0 c1
  simp only at a0 a1 b0 b1 c0 c1
  refine ⟨?_, hpos⟩
  simp only [colorToCmap, hcol]
  rw [interp01_eq hs.1 hs.2, interp01_eq hv.1 hv.2, hsv_roundtrip a0 a1 (by nlinarith [hpos.1]) (by nlinarith)
    (by nlinarith [hpos.2])]
  simp only [Prod.mk.injEq, true_and]
  constructor <;> ring

/-- Orange meets the hypotheses of `C122_hue`. -/
example : Spec.IsColor ⟨1, 1 / 2, 0⟩ ∧ ¬ Spec.IsGrey ⟨1, 1 / 2, 0⟩ ∧ rgbToHsv ⟨1, 1 / 2, 0⟩ = (1 / 12, 1, 1) := by
  refine ⟨?_, ?_, ?_⟩
  · simp only [Spec.IsColor]; norm_num
  · simp only [Spec.IsGrey]; norm_num
  · simp only [rgbToHsv]
    norm_num [Int.fract_eq_self]

/-- Inverting a colour twice gives it back, alpha is kept, and colours stay colours. -/
theorem C122_invert (r g b a : ℝ) (h : Spec.IsColor ⟨r, g, b⟩) :
    invertColor (invertColor (r, g, b, a)) = (r, g, b, a) ∧ (invertColor (r, g, b, a)).2.2.2 = a ∧
    Spec.IsColor ⟨(invertColor (r, g, b, a)).1, (invertColor (r, g, b, a)).2.1, (invertColor (r, g, b, a)).2.2.1⟩ := by
  obtain ⟨⟨r0, r1⟩, ⟨g0, g1⟩, b0, b1⟩ := h
  simp only at r0 r1 g0 g1 b0 b1
  refine ⟨by simp [invertColor], rfl, ?_⟩
  simp only [invertColor, Spec.IsColor]
  refine ⟨⟨?_, ?_⟩, ⟨?_, ?_⟩, ?_, ?_⟩ <;> linarith

end Kalepy
