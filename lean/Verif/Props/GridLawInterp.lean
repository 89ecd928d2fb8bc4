import Mathlib.MeasureTheory.Integral.IntervalIntegral.FundThmCalculus
import Mathlib.MeasureTheory.Constructions.BorelSpace.Order
import Mathlib.MeasureTheory.Integral.Bochner.Set
import Verif.Props.GridLaw

/-!
# C113: the law of samples drawn from a grid with interpolation
-/

namespace Kalepy

open MeasureTheory ProbabilityTheory

variable {d : ℕ}

/-! ## Specification -/

/-- Specification: the slope, relative to the mean density of the grid, which is used in bin `b` along axis `i`: the difference
of the means of the density over the two faces of the bin, divided by the mean of the density over the whole grid.  Slopes of
at most 1e-16 count as zero. -/
noncomputable def Spec.usedSlope (dens : NDArr d ℝ) (b : Fin d → ℕ) (i : Fin d) : ℝ :=
  if 1 / 10 ^ 16 < |(Spec.faceMean dens i b 1 - Spec.faceMean dens i b 0) / (dens.sum / ∏ i, (dens.shape i : ℝ))| then
    (Spec.faceMean dens i b 1 - Spec.faceMean dens i b 0) / (dens.sum / ∏ i, (dens.shape i : ℝ))
  else 0

/-- Specification: the distribution on `[a, b]` whose density is linear with mean 1 and slope `s` per length `b - a` (both
divided by `b - a`).  If the slope is so steep that this would be negative somewhere, the density is cut to the end of the
interval in which it has the integral one. -/
noncomputable def Spec.slantedLaw (a b s : ℝ) : Measure ℝ :=
  (volume.restrict {x | a ≤ x ∧ x ≤ b ∧ (2 < s → b - 2 / s * (b - a) ≤ x) ∧ (s < -2 → x ≤ a - 2 / s * (b - a))}).withDensity
    fun x => ENNReal.ofReal ((1 + s * ((x - a) / (b - a) - 1 / 2)) / (b - a))

/-! ## Positions in a bin -/

/-- Ends of the range of positions. -/
noncomputable def slantLo (s : ℝ) : ℝ := if 2 < s then 1 - 2 / s else 0

/-- See `slantLo`. -/
noncomputable def slantHi (s : ℝ) : ℝ := if s < -2 then -2 / s else 1

/-- The integral of the linear density. -/
noncomputable def slantCdf (s t : ℝ) : ℝ := (1 - s / 2) * t + s * t ^ 2 / 2

lemma slantLo_nonneg (s : ℝ) : 0 ≤ slantLo s := by
  unfold slantLo
  split_ifs with h
  · rw [sub_nonneg, div_le_one (by linarith)]; exact h.le
  · exact le_rfl

lemma slantHi_le (s : ℝ) : slantHi s ≤ 1 := by
  unfold slantHi
  split_ifs with h
  · rw [div_le_one_of_neg (by linarith)]; linarith
  · exact le_rfl

lemma slantLo_lt_hi (s : ℝ) : slantLo s < slantHi s := by
  unfold slantLo slantHi
  split_ifs with h1 h2 h2
  · linarith
  · have : 0 < 2 / s := by positivity
    linarith
  · rw [lt_div_iff_of_neg (by linarith)]; linarith
  · norm_num

lemma slantCdf_lo (s : ℝ) : slantCdf s (slantLo s) = 0 := by
  unfold slantCdf slantLo
  split_ifs with h
  · have : s ≠ 0 := by linarith
    field_simp
    ring
  · ring

lemma slantCdf_hi (s : ℝ) : slantCdf s (slantHi s) = 1 := by
  unfold slantCdf slantHi
  split_ifs with h
  · have : s ≠ 0 := by linarith
    field_simp
    ring
  · ring

lemma slantCdf_strict {s t1 t2 : ℝ} (h1 : slantLo s ≤ t1) (h12 : t1 < t2) (h2 : t2 ≤ slantHi s) :
    slantCdf s t1 < slantCdf s t2 := by
  have e : slantCdf s t2 - slantCdf s t1 = (t2 - t1) * (1 + s * (t1 + t2 - 1) / 2) := by
    unfold slantCdf; ring
  have h0 := slantLo_nonneg s
  have h3 := slantHi_le s
  have : 0 < 1 + s * (t1 + t2 - 1) / 2 := by
    unfold slantLo at h1
    unfold slantHi at h2
    rcases lt_trichotomy s 0 with hs | rfl | hs
    · split_ifs at h2 with hc
      · have : s * t2 ≥ -2 := by
          rw [le_div_iff_of_neg hs] at h2; linarith
        nlinarith
      · nlinarith
    · norm_num
    · split_ifs at h1 with hc
      · have : s * t1 ≥ s - 2 := by
          have := mul_le_mul_of_nonneg_left h1 hs.le
          rw [mul_sub, mul_div_cancel₀ _ hs.ne'] at this
          linarith
        nlinarith
      · nlinarith
  nlinarith [mul_pos (sub_pos.mpr h12) this]

lemma slantCdf_le_iff {s t1 t2 : ℝ} (h1 : slantLo s ≤ t1) (h1' : t1 ≤ slantHi s) (h2 : slantLo s ≤ t2)
    (h2' : t2 ≤ slantHi s) : slantCdf s t1 ≤ slantCdf s t2 ↔ t1 ≤ t2 := by
  constructor
  · intro h
    by_contra hc
    exact absurd (slantCdf_strict h2 (not_le.mp hc) h1') (not_lt.mpr h)
  · intro h
    rcases h.eq_or_lt with rfl | h
    · exact le_rfl
    · exact (slantCdf_strict h1 h h2').le

/-- The slope that matters. -/
noncomputable def effSlope (g : ℝ) : ℝ := if 1 / 10 ^ 16 < |g| then g else 0

lemma intrabin_slant {u g : ℝ} (h0 : 0 ≤ u) (h1 : u ≤ 1) :
    slantCdf (effSlope g) (intrabin u g) = u ∧ slantLo (effSlope g) ≤ intrabin u g ∧
      intrabin u g ≤ slantHi (effSlope g) := by
  by_cases hg : 1 / 10 ^ 16 < |g|
  · have hc := intrabin_cdf h0 h1 hg
    obtain ⟨m0, m1⟩ := intrabin_mem (g := g) h0 h1
    simp only [effSlope, if_pos hg]
    refine ⟨hc, ?_, ?_⟩
    · unfold slantLo
      split_ifs with h
      · have hr := intrabin_radicand_nonneg (g := g) h0 h1
        have hs0 := Real.sqrt_nonneg (2 * u * g + (1 - g / 2) ^ 2)
        have hs := Real.sq_sqrt hr
        have hpos : 0 < g := by linarith
        simp only [intrabin, if_pos hg]
        set s := Real.sqrt (2 * u * g + (1 - g / 2) ^ 2)
        have hge : g / 2 - 1 ≤ s := by
          by_contra hcon
          have hcon := not_le.mp hcon
          nlinarith [mul_nonneg h0 hpos.le]
        rw [le_div_iff₀ hpos, sub_mul, div_mul_cancel₀ _ hpos.ne']
        linarith
      · exact m0
    · unfold slantHi
      split_ifs with h
      · have hr := intrabin_radicand_nonneg (g := g) h0 h1
        have hs0 := Real.sqrt_nonneg (2 * u * g + (1 - g / 2) ^ 2)
        have hs := Real.sq_sqrt hr
        have hneg : g < 0 := by linarith
        simp only [intrabin, if_pos hg]
        set s := Real.sqrt (2 * u * g + (1 - g / 2) ^ 2)
        have hge : -g / 2 - 1 ≤ s := by
          by_contra hcon
          have hcon := not_le.mp hcon
          nlinarith [mul_nonneg (sub_nonneg.mpr h1) (neg_pos.mpr hneg).le]
        rw [div_le_div_right_of_neg hneg]
        linarith
      · exact m1
  · simp only [effSlope, if_neg hg, intrabin, slantCdf, slantLo, slantHi]
    norm_num
    exact ⟨h0, h1⟩

lemma measurable_intrabin (g : ℝ) : Measurable fun u => intrabin u g := by
  unfold intrabin
  by_cases h : 1 / 10 ^ 16 < |g|
  · simp only [if_pos h]
    fun_prop
  · simp only [if_neg h]
    exact measurable_id

lemma unitLaw_Iic {c : ℝ} (h0 : 0 ≤ c) (h1 : c ≤ 1) : Spec.unitLaw (Set.Iic c) = ENNReal.ofReal c := by
  rw [Spec.unitLaw, Measure.restrict_apply measurableSet_Iic]
  rcases h1.eq_or_lt with rfl | h1
  · rw [Set.inter_eq_self_of_subset_right (fun x hx => hx.2.le), Real.volume_Ico, sub_zero]
  · have : Set.Iic c ∩ Set.Ico 0 1 = Set.Icc 0 c := by
      ext x
      simp only [Set.mem_inter_iff, Set.mem_Iic, Set.mem_Ico, Set.mem_Icc]
      exact ⟨fun h => ⟨h.2.1, h.1⟩, fun h => ⟨h.2, h.1, h.2.trans_lt h1⟩⟩
    rw [this, Real.volume_Icc, sub_zero]

lemma slanted_set {a b s : ℝ} (h : a < b) :
    {x | a ≤ x ∧ x ≤ b ∧ (2 < s → b - 2 / s * (b - a) ≤ x) ∧ (s < -2 → x ≤ a - 2 / s * (b - a))}
      = Set.Icc (a + (b - a) * slantLo s) (a + (b - a) * slantHi s) := by
  have hw : 0 < b - a := sub_pos.mpr h
  ext x
  simp only [Set.mem_ofPred_eq, Set.mem_Icc]
  unfold slantLo slantHi
  by_cases h1 : 2 < s
  · have h2 : ¬ s < -2 := by linarith
    have hd : 0 < 1 - 2 / s := by rw [sub_pos, div_lt_one (by linarith)]; exact h1
    simp only [h1, h2, if_true, if_false, true_imp_iff, false_imp_iff, and_true]
    constructor
    · rintro ⟨_, q, r⟩; constructor <;> linarith
    · rintro ⟨q, r⟩; refine ⟨by nlinarith, by linarith, by linarith⟩
  · by_cases h2 : s < -2
    · have hd : -2 / s < 1 := by rw [div_lt_one_of_neg (by linarith)]; linarith
      have e : -2 / s = -(2 / s) := neg_div _ _
      simp only [h1, h2, if_true, if_false, true_imp_iff, false_imp_iff, true_and]
      rw [e] at hd ⊢
      constructor
      · rintro ⟨p, q, r⟩; constructor <;> linarith
      · rintro ⟨q, r⟩; refine ⟨by linarith, by nlinarith, by linarith⟩
    · simp only [h1, h2, if_false, false_imp_iff, and_true]
      constructor
      · rintro ⟨p, q⟩; constructor <;> linarith
      · rintro ⟨q, r⟩; constructor <;> linarith

lemma slanted_deriv {a b s : ℝ} (h : a < b) (x : ℝ) :
    HasDerivAt (fun x => slantCdf s ((x - a) / (b - a))) ((1 + s * ((x - a) / (b - a) - 1 / 2)) / (b - a)) x := by
  have hw : b - a ≠ 0 := (sub_pos.mpr h).ne'
  have h1 : HasDerivAt (fun x : ℝ => (x - a) / (b - a)) (1 / (b - a)) x := ((hasDerivAt_id x).sub_const a).div_const _
  have h2 := ((h1.const_mul (1 - s / 2)).add (((h1.pow 2).const_mul s).div_const 2))
  refine h2.congr_deriv ?_
  simp only [Nat.add_one_sub_one, pow_one, Nat.cast_ofNat]
  generalize (x - a) / (b - a) = y
  field_simp
  ring

/-- The density is not negative where it is used. -/
lemma slanted_nonneg {s t : ℝ} (h1 : slantLo s ≤ t) (h2 : t ≤ slantHi s) : 0 ≤ 1 + s * (t - 1 / 2) := by
  have h0 := slantLo_nonneg s
  have h3 := slantHi_le s
  unfold slantLo at h1
  unfold slantHi at h2
  rcases lt_trichotomy s 0 with hs | rfl | hs
  · split_ifs at h2 with hc
    · have : s * t ≥ -2 := by rw [le_div_iff_of_neg hs] at h2; linarith
      nlinarith
    · nlinarith
  · norm_num
  · split_ifs at h1 with hc
    · have : s * t ≥ s - 2 := by
        have := mul_le_mul_of_nonneg_left h1 hs.le
        rw [mul_sub, mul_div_cancel₀ _ hs.ne'] at this
        linarith
      nlinarith
    · nlinarith

lemma slanted_Iic {a b s x : ℝ} (h : a < b) (hx : slantLo s ≤ (x - a) / (b - a)) :
    Spec.slantedLaw a b s (Set.Iic x) = ENNReal.ofReal (slantCdf s (min ((x - a) / (b - a)) (slantHi s))) := by
  have hw : 0 < b - a := sub_pos.mpr h
  have hlh := slantLo_lt_hi s
  set A := a + (b - a) * slantLo s with hA
  set m := a + (b - a) * min ((x - a) / (b - a)) (slantHi s) with hm
  have hxe : a + (b - a) * ((x - a) / (b - a)) = x := by field_simp; ring
  have hAm : A ≤ m := by
    have := mul_le_mul_of_nonneg_left (le_min hx hlh.le) hw.le
    linarith
  rw [Spec.slantedLaw, slanted_set h, withDensity_apply _ measurableSet_Iic, Measure.restrict_restrict measurableSet_Iic]
  have hset : Set.Iic x ∩ Set.Icc A (a + (b - a) * slantHi s) = Set.Icc A m := by
    ext t
    simp only [Set.mem_inter_iff, Set.mem_Iic, Set.mem_Icc, hm]
    rw [mul_min_of_nonneg _ _ hw.le, ← min_add_add_left, hxe, le_min_iff]
    tauto
  rw [hset]
  have hpos : ∀ t ∈ Set.Icc A m, 0 ≤ (1 + s * ((t - a) / (b - a) - 1 / 2)) / (b - a) := by
    intro t ht
    refine div_nonneg (slanted_nonneg ?_ ?_) hw.le
    · rw [le_div_iff₀ hw]; nlinarith [ht.1]
    · rw [div_le_iff₀ hw]
      have := ht.2
      have h3 := mul_le_mul_of_nonneg_left (min_le_right ((x - a) / (b - a)) (slantHi s)) hw.le
      nlinarith
  have hcont : Continuous fun t : ℝ => (1 + s * ((t - a) / (b - a) - 1 / 2)) / (b - a) := by fun_prop
  rw [← ofReal_integral_eq_lintegral_ofReal (hcont.integrableOn_Icc) ((ae_restrict_iff' measurableSet_Icc).mpr (.of_forall hpos)),
    integral_Icc_eq_integral_Ioc, ← intervalIntegral.integral_of_le hAm,
    intervalIntegral.integral_eq_sub_of_hasDerivAt (fun t _ => slanted_deriv h t) (hcont.intervalIntegrable _ _)]
  have e1 : (m - a) / (b - a) = min ((x - a) / (b - a)) (slantHi s) := by rw [hm]; field_simp; ring
  have e2 : (A - a) / (b - a) = slantLo s := by rw [hA]; field_simp; ring
  rw [e1, e2, slantCdf_lo, sub_zero]

/-- The law of a position in a bin. -/
lemma slanted_preserving {a b : ℝ} (h : a < b) (g : ℝ) :
    MeasurePreserving (fun u => a + (b - a) * intrabin u g) Spec.unitLaw (Spec.slantedLaw a b (effSlope g)) := by
  have hw : 0 < b - a := sub_pos.mpr h
  have hf : Measurable fun u => a + (b - a) * intrabin u g := ((measurable_intrabin g).const_mul _).const_add _
  refine ⟨hf, ?_⟩
  have hfin : IsFiniteMeasure (Spec.unitLaw.map fun u => a + (b - a) * intrabin u g) := inferInstance
  refine Measure.ext_of_Iic _ _ fun x => ?_
  rw [Measure.map_apply hf measurableSet_Iic]
  set s := effSlope g with hs
  have hiff : ∀ u, a + (b - a) * intrabin u g ≤ x ↔ intrabin u g ≤ (x - a) / (b - a) := by
    intro u
    rw [le_div_iff₀ hw]
    constructor <;> intro h <;> linarith
  have hae : ∀ᵐ u ∂Spec.unitLaw, 0 ≤ u ∧ u < 1 := ae_restrict_mem measurableSet_Ico
  rcases lt_or_ge ((x - a) / (b - a)) (slantLo s) with hx | hx
  · have h0 : Spec.unitLaw ((fun u => a + (b - a) * intrabin u g) ⁻¹' Set.Iic x) = 0 := by
      rw [measure_eq_zero_iff_ae_notMem]
      filter_upwards [hae] with u hu hmem
      have := (hiff u).mp hmem
      exact absurd ((intrabin_slant hu.1 hu.2.le).2.1) (not_le.mpr (this.trans_lt hx))
    rw [h0, Spec.slantedLaw, slanted_set h, withDensity_apply _ measurableSet_Iic, Measure.restrict_restrict measurableSet_Iic]
    have hset : Set.Iic x ∩ Set.Icc (a + (b - a) * slantLo s) (a + (b - a) * slantHi s) = ∅ := by
      refine Set.eq_empty_of_forall_notMem fun t ht => ?_
      have h1 : t ≤ x := ht.1
      have h2 := ht.2.1
      rw [div_lt_iff₀ hw] at hx
      linarith
    rw [hset, Measure.restrict_empty, lintegral_zero_measure]
  · rw [slanted_Iic h hx]
    have hlh := slantLo_lt_hi s
    set τ := min ((x - a) / (b - a)) (slantHi s) with hτ
    have t1 : slantLo s ≤ τ := le_min hx hlh.le
    have t2 : τ ≤ slantHi s := min_le_right _ _
    have c0 : 0 ≤ slantCdf s τ := by
      rw [← slantCdf_lo s]; exact (slantCdf_le_iff le_rfl hlh.le t1 t2).mpr t1
    have c1 : slantCdf s τ ≤ 1 := by
      rw [← slantCdf_hi s]; exact (slantCdf_le_iff t1 t2 hlh.le le_rfl).mpr t2
    rw [← unitLaw_Iic c0 c1]
    refine measure_congr ?_
    filter_upwards [hae] with u hu
    obtain ⟨k1, k2, k3⟩ := intrabin_slant (g := g) hu.1 hu.2.le
    refine propext ?_
    show a + (b - a) * intrabin u g ≤ x ↔ u ≤ slantCdf s τ
    have key := slantCdf_le_iff k2 k3 t1 t2
    rw [k1] at key
    rw [hiff, key, hτ, le_min_iff]
    exact ⟨fun h => ⟨h, k3⟩, fun h => h.1⟩

/-! ## Samples -/

section

variable {srt : List ℝ → List ℕ} {edges : List (List ℝ)} {dens : NDArr d ℝ} {mass : Option (NDArr d ℝ)} {g : SampleGrid d}

/-- Specification: the distribution of the points of bin `b`: the coordinates are independent, each with a linear density. -/
noncomputable def Spec.slantedBinLaw (edges : List (List ℝ)) (dens : NDArr d ℝ) (b : Fin d → ℕ) : Measure (Fin d → ℝ) :=
  Measure.pi fun i : Fin d => Spec.slantedLaw ((edges.getD i []).getD (b i) 0) ((edges.getD i []).getD (b i + 1) 0)
    (Spec.usedSlope dens b i)

lemma slanted_prob {a b : ℝ} (h : a < b) (g : ℝ) : IsProbabilityMeasure (Spec.slantedLaw a b (effSlope g)) :=
  (slanted_preserving h g).hasLaw.isProbabilityMeasure_iff.mp inferInstance

lemma usedSlope_eff (dens : NDArr d ℝ) (b : Fin d → ℕ) (i : Fin d) : Spec.usedSlope dens b i
    = effSlope ((Spec.faceMean dens i b 1 - Spec.faceMean dens i b 0) / (dens.sum / ∏ i, (dens.shape i : ℝ))) := rfl

/-- The law of the points in one bin. -/
lemma binPoint_slanted (hinit : SampleGrid.init srt edges dens mass = .ok g)
    (hedges : ∀ e ∈ edges, e.Pairwise (· < ·)) {b : Fin d → ℕ} (hb : ∀ i, b i + 1 < dens.shape i) :
    (Measure.pi fun _ => Spec.unitLaw).map (binPoint edges (normDens g true) b) = Spec.slantedBinLaw edges dens b := by
  obtain ⟨e1, e2, e3, e4, e5⟩ := SampleGrid.init_ok hinit
  obtain ⟨f1, f2, -⟩ := initMasses_ok e4
  have hlt := fun i => edge_lt f1 hedges i (b i) (hb i)
  set gr : Fin d → ℝ := fun i => (Spec.faceMean dens i b 1 - Spec.faceMean dens i b 0) / (dens.sum / ∏ i, (dens.shape i : ℝ))
    with hgr
  have hpr : ∀ i : Fin d, IsProbabilityMeasure (Spec.slantedLaw (edgeAt edges i (b i)) (edgeAt edges i (b i + 1))
      (effSlope (gr i))) := fun i => slanted_prob (hlt i) _
  have h2 := measurePreserving_pi (fun _ : Fin d => Spec.unitLaw) (fun i : Fin d => Spec.slantedLaw
    (edgeAt edges i (b i)) (edgeAt edges i (b i + 1)) (effSlope (gr i))) (f := fun i x => edgeAt edges i (b i)
      + (edgeAt edges i (b i + 1) - edgeAt edges i (b i)) * intrabin x (gr i)) fun i => slanted_preserving (hlt i) _
  have hfun : binPoint edges (normDens g true) b = fun (loc : Fin d → ℝ) (i : Fin d) => edgeAt edges i (b i)
      + (edgeAt edges i (b i + 1) - edgeAt edges i (b i)) * intrabin (loc i) (gr i) := by
    funext loc i
    have hsz : g.dens.sum / (g.dens.size : ℝ) = dens.sum / ∏ i, (dens.shape i : ℝ) := by
      rw [e2, NDArr.size]; push_cast; rfl
    have hrel : relPos (normDens g true) b i (loc i) = intrabin (loc i) (gr i) := by
      simp only [relPos, normDens, if_true]
      rw [meanDiff_map, hsz, e2, meanDiff_eq]
    simp only [binPoint, hrel]
  rw [hfun]
  exact h2.map_eq

/-- **C113**, with interpolation: there is a distribution of bins and points, in which bin `b` has the probability
mass / total mass and the coordinates of the points in the bin are independent, with linear densities the slopes of which are
the differences of the density over the faces of the bin divided by the mean density over the whole grid, such that the samples
are a reordering of independent draws from it. -/
theorem C113_interpolated (hs : ∀ l, IsArgsort (srt l) l) (hinit : SampleGrid.init srt edges dens mass = .ok g)
    (hedges : ∀ e ∈ edges, e.Pairwise (· < ·))
    (hm : ∀ b, ValidIdx g.mass.shape b → 0 ≤ g.mass.get b) (ht : 0 < g.mass.sum) (hi : dens.sum ≠ 0) :
    ∃ P : Measure ((Fin d → ℕ) × (Fin d → ℝ)), IsProbabilityMeasure P ∧
      (∀ b, (∀ i, b i + 1 < dens.shape i) → IsProbabilityMeasure (Spec.slantedBinLaw edges dens b) ∧
        ∀ A, MeasurableSet A → P {p | p.1 = b ∧ p.2 ∈ A}
          = ENNReal.ofReal (g.mass.get b / g.mass.sum) * Spec.slantedBinLaw edges dens b A) ∧
      (∀ A, MeasurableSet A → P {p | p.2 ∈ A} = ∑ b ∈ Spec.bins dens.shape,
        ENNReal.ofReal (g.mass.get b / g.mass.sum) * Spec.slantedBinLaw edges dens b A) ∧
      ∀ {Ω : Type} [MeasurableSpace Ω] (μ : Measure Ω) (r : Ω → Rand d), Spec.GridNumbers μ r → ∀ n : ℕ,
        ∃ X : Fin n → Ω → (Fin d → ℕ) × (Fin d → ℝ), (∀ j, HasLaw (X j) P μ) ∧ iIndepFun X μ ∧
          ∀ᵐ ω ∂μ, ∃ out, g.sample (r ω) (some n) true = .ok out ∧
            (out.map Prod.fst).Perm (List.ofFn fun j => (X j ω).2) := by
  have hgp := measurable_gridPoint g edges true
  refine ⟨gridLaw g edges true, Measure.isProbabilityMeasure_map hgp.aemeasurable, fun b hb => ⟨?_, fun A hA => ?_⟩,
    fun A hA => ?_, ?_⟩
  · rw [← binPoint_slanted hinit hedges hb]
    exact Measure.isProbabilityMeasure_map (measurable_binPoint _ _ _).aemeasurable
  · have hset : MeasurableSet {p : (Fin d → ℕ) × (Fin d → ℝ) | p.1 = b ∧ p.2 ∈ A} :=
      (measurable_fst (measurableSet_singleton b)).inter (measurable_snd hA)
    rw [gridLaw, Measure.map_apply hgp hset, ← unit_chosen hs hinit hm ht b hb, ← binPoint_slanted hinit hedges hb,
      Measure.map_apply (measurable_binPoint _ _ _) hA, ← Measure.prod_prod]
    congr 1
    ext p
    constructor
    · rintro ⟨h1, h2⟩
      have h1 : chosenBin g.mass.shape g.idx g.csum p.1 = b := h1
      refine ⟨h1, ?_⟩
      have h2 : binPoint edges (normDens g true) (chosenBin g.mass.shape g.idx g.csum p.1) p.2 ∈ A := h2
      rwa [h1] at h2
    · rintro ⟨h1, h2⟩
      have h1 : chosenBin g.mass.shape g.idx g.csum p.1 = b := h1
      refine ⟨h1, ?_⟩
      change binPoint edges (normDens g true) (chosenBin g.mass.shape g.idx g.csum p.1) p.2 ∈ A
      rw [h1]
      exact h2
  · have h1 := gridLaw_point hs hinit hm ht true hA
    rw [Measure.map_apply measurable_snd hA] at h1
    refine h1.trans (Finset.sum_congr rfl fun b hb => ?_)
    rw [binPoint_slanted hinit hedges (mem_bins.mp hb)]
  · intro Ω _ μ r hr n
    have hprob : IsProbabilityMeasure μ := (hr.law 0).isProbabilityMeasure_iff.mpr inferInstance
    obtain ⟨Z, h1, h2, h3⟩ := sorted_iid (n := n) (u := fun j ω => (r ω).u j) (l := fun j ω => (r ω).loc j)
      (fun j => hr.law j) (hr.indep.precomp (g := fun j : Fin n => (j : ℕ)) fun i j h => Fin.ext h) hgp
    refine ⟨Z, h1, h2, ?_⟩
    filter_upwards [gridNumbers_inRange hr] with ω hω
    obtain ⟨out, ho, he⟩ := sample_ofFn hs hinit hm ht (r ω)
      ⟨fun k => ⟨(hω.1 k).1.le, (hω.1 k).2⟩, fun k i => ⟨(hω.2 k i).1.le, (hω.2 k i).2⟩⟩ n true fun _ => hi
    refine ⟨out, ho, ?_⟩
    rw [he]
    have := (h3 ω).map Prod.snd
    rwa [List.map_ofFn, List.map_ofFn] at this

/-- **C113**, for frequencies with interpolation: see `C113_frequencies`. -/
theorem C113_interpolated_frequencies (hs : ∀ l, IsArgsort (srt l) l) (hinit : SampleGrid.init srt edges dens mass = .ok g)
    (hedges : ∀ e ∈ edges, e.Pairwise (· < ·))
    (hm : ∀ b, ValidIdx g.mass.shape b → 0 ≤ g.mass.get b) (ht : 0 < g.mass.sum) (hi : dens.sum ≠ 0)
    {Ω : Type} [MeasurableSpace Ω] (μ : Measure Ω) (r : Ω → Rand d) (hr : Spec.GridNumbers μ r) (n : ℕ)
    (A : Set (Fin d → ℝ)) (hA : MeasurableSet A) (ε : ℝ) (hε : 0 < ε) :
    μ.real {ω | ¬ ∃ out, g.sample (r ω) (some n) true = .ok out ∧
      |Spec.fraction (out.map Prod.fst) A - (∑ b ∈ Spec.bins dens.shape, ENNReal.ofReal (g.mass.get b / g.mass.sum)
          * Spec.slantedBinLaw edges dens b A).toReal| < ε} ≤ 2 * Real.exp (-2 * n * ε ^ 2) := by
  obtain ⟨P, hP, -, hlaw, hX⟩ := C113_interpolated hs hinit hedges hm ht hi
  obtain ⟨X, h1, h2, h3⟩ := hX μ r hr n
  have hprob : IsProbabilityMeasure μ := (hr.law 0).isProbabilityMeasure_iff.mpr inferInstance
  have hsnd : MeasurePreserving (Prod.snd : (Fin d → ℕ) × (Fin d → ℝ) → _) P (P.map Prod.snd) := ⟨measurable_snd, rfl⟩
  have h4 := fraction_bound_list (X := fun j ω => (X j ω).2) (fun j => hsnd.hasLaw.comp (h1 j))
    (h2.comp (fun _ => Prod.snd) fun _ => measurable_snd) hA
    (good := fun ω l => ∃ out, g.sample (r ω) (some n) true = .ok out ∧ out.map Prod.fst = l)
    (h3.mono fun ω ⟨out, a, b⟩ => ⟨_, ⟨out, a, rfl⟩, b⟩) hε
  rw [← hlaw A hA, ← measureReal_def]
  rw [measureReal_def (P.map Prod.snd), Measure.map_apply measurable_snd hA, ← measureReal_def] at h4
  refine le_trans (measureReal_mono fun ω hω => ?_) h4
  rintro ⟨l, ⟨out, a, rfl⟩, b⟩
  exact hω ⟨out, a, b⟩

end

/-! ## When the samples follow the interpolated density -/

/-- Different slopes give different laws. -/
lemma slanted_inj {a b s s' : ℝ} (h : a < b) (h1 : -2 ≤ s') (h2 : s' ≤ 2) :
    Spec.slantedLaw a b s = Spec.slantedLaw a b s' ↔ s = s' := by
  refine ⟨fun he => ?_, fun he => by rw [he]⟩
  have hw : 0 < b - a := sub_pos.mpr h
  have hmid : ((a + b) / 2 - a) / (b - a) = 1 / 2 := by field_simp; ring
  have e' : Spec.slantedLaw a b s' (Set.Iic ((a + b) / 2)) = ENNReal.ofReal (1 / 2 - s' / 8) := by
    have l1 : slantLo s' = 0 := by rw [slantLo, if_neg (by linarith)]
    have l2 : slantHi s' = 1 := by rw [slantHi, if_neg (by linarith)]
    rw [slanted_Iic h (by rw [hmid, l1]; norm_num), hmid, l2, min_eq_left (by norm_num)]
    congr 1
    unfold slantCdf
    ring
  rcases lt_or_ge (1 / 2) (slantLo s) with hl | hl
  · have h0 : Spec.slantedLaw a b s (Set.Iic ((a + b) / 2)) = 0 := by
      rw [Spec.slantedLaw, slanted_set h, withDensity_apply _ measurableSet_Iic, Measure.restrict_restrict measurableSet_Iic]
      have hset : Set.Iic ((a + b) / 2) ∩ Set.Icc (a + (b - a) * slantLo s) (a + (b - a) * slantHi s) = ∅ := by
        refine Set.eq_empty_of_forall_notMem fun t ht => ?_
        have p1 : t ≤ (a + b) / 2 := ht.1
        have p2 := ht.2.1
        nlinarith
      rw [hset, Measure.restrict_empty, lintegral_zero_measure]
    rw [he, e', ENNReal.ofReal_eq_zero] at h0
    linarith
  · have e := slanted_Iic (s := s) h (x := (a + b) / 2) (by rw [hmid]; exact hl)
    rw [he, e', hmid] at e
    rcases le_total (1 / 2) (slantHi s) with hh | hh
    · rw [min_eq_left hh] at e
      have c0 : 0 ≤ slantCdf s (1 / 2) := by
        rw [← slantCdf_lo s]
        exact (slantCdf_le_iff le_rfl (slantLo_lt_hi s).le hl hh).mpr hl
      rw [ENNReal.ofReal_eq_ofReal_iff (by linarith) c0] at e
      unfold slantCdf at e
      linarith
    · rw [min_eq_right hh, slantCdf_hi, ENNReal.ofReal_eq_ofReal_iff (by linarith) (by norm_num)] at e
      linarith

/-- Specification: the distribution on `[a, b)` with a density proportional to the line from `y0` at `a` to `y1` at `b`. -/
noncomputable def Spec.lineLaw (a b y0 y1 : ℝ) : Measure ℝ :=
  (volume.restrict (Set.Ico a b)).withDensity
    fun x => ENNReal.ofReal ((y0 + (y1 - y0) * ((x - a) / (b - a))) / ((y0 + y1) / 2 * (b - a)))

lemma lineLaw_slanted {a b y0 y1 : ℝ} (h : a < b) (h0 : 0 ≤ y0) (h1 : 0 ≤ y1) (hp : 0 < y0 + y1) :
    Spec.lineLaw a b y0 y1 = Spec.slantedLaw a b ((y1 - y0) / ((y0 + y1) / 2)) ∧ -2 ≤ (y1 - y0) / ((y0 + y1) / 2) ∧
      (y1 - y0) / ((y0 + y1) / 2) ≤ 2 := by
  have hw : 0 < b - a := sub_pos.mpr h
  have l1 : -2 ≤ (y1 - y0) / ((y0 + y1) / 2) := by rw [le_div_iff₀ (by linarith)]; linarith
  have l2 : (y1 - y0) / ((y0 + y1) / 2) ≤ 2 := by rw [div_le_iff₀ (by linarith)]; linarith
  refine ⟨?_, l1, l2⟩
  rw [Spec.lineLaw, Spec.slantedLaw, slanted_set h, slantLo, slantHi, if_neg (by linarith), if_neg (by linarith),
    mul_zero, mul_one, add_zero, add_sub_cancel, Measure.restrict_congr_set Ico_ae_eq_Icc]
  congr 1
  funext x
  congr 1
  have hw' := hw.ne'
  have hp' := hp.ne'
  generalize (x - a) / (b - a) = y
  field_simp
  ring

/-- **C49**, in terms of distributions: let the density be non-negative and not zero on the faces of bin `b`, and not flat
across the bin along axis `i`.  Given that a point lies in the bin, the distribution of its coordinate is the linear
interpolant of the density between the two faces if, and only if, the mean density of the bin (over its corners) equals the mean
density of the whole grid. -/
theorem C49_law {srt : List ℝ → List ℕ} {edges : List (List ℝ)} {dens : NDArr d ℝ} {mass : Option (NDArr d ℝ)}
    {g : SampleGrid d} (hs : ∀ l, IsArgsort (srt l) l) (hinit : SampleGrid.init srt edges dens mass = .ok g)
    (hedges : ∀ e ∈ edges, e.Pairwise (· < ·))
    (hm : ∀ b, ValidIdx g.mass.shape b → 0 ≤ g.mass.get b) (ht : 0 < g.mass.sum)
    (ρ : ℝ) (hρ : ρ = dens.sum / ∏ i, (dens.shape i : ℝ)) (hρ0 : ρ ≠ 0) :
    ∃ P : Measure ((Fin d → ℕ) × (Fin d → ℝ)), IsProbabilityMeasure P ∧
      (∀ {Ω : Type} [MeasurableSpace Ω] (μ : Measure Ω) (r : Ω → Rand d), Spec.GridNumbers μ r → ∀ n : ℕ,
        ∃ X : Fin n → Ω → (Fin d → ℕ) × (Fin d → ℝ), (∀ j, HasLaw (X j) P μ) ∧ iIndepFun X μ ∧
          ∀ᵐ ω ∂μ, ∃ out, g.sample (r ω) (some n) true = .ok out ∧
            (out.map Prod.fst).Perm (List.ofFn fun j => (X j ω).2)) ∧
      ∀ b, (∀ i, b i + 1 < dens.shape i) → 0 < g.mass.get b → ∀ i : Fin d, 0 ≤ Spec.faceMean dens i b 0 →
        0 ≤ Spec.faceMean dens i b 1 → 1 / 10 ^ 16 < |(Spec.faceMean dens i b 1 - Spec.faceMean dens i b 0) / ρ| →
        ((∀ A, MeasurableSet A → P {p | p.1 = b ∧ p.2 i ∈ A} = P {p | p.1 = b} *
            Spec.lineLaw ((edges.getD i []).getD (b i) 0) ((edges.getD i []).getD (b i + 1) 0)
              (Spec.faceMean dens i b 0) (Spec.faceMean dens i b 1) A) ↔
          (Spec.faceMean dens i b 0 + Spec.faceMean dens i b 1) / 2 = ρ) := by
  have hi : dens.sum ≠ 0 := fun h0 => hρ0 (by rw [hρ, h0, zero_div])
  obtain ⟨e1, e2, e3, e4, e5⟩ := SampleGrid.init_ok hinit
  obtain ⟨f1, f2, -⟩ := initMasses_ok e4
  obtain ⟨P, hP, hbin, -, hX⟩ := C113_interpolated hs hinit hedges hm ht hi
  refine ⟨P, hP, hX, fun b hb hmb i h0 h1 hD => ?_⟩
  obtain ⟨hpb, hA⟩ := hbin b hb
  have hlt := fun j => edge_lt f1 hedges j (b j) (hb j)
  have hne : Spec.faceMean dens i b 1 - Spec.faceMean dens i b 0 ≠ 0 := by
    intro hz
    rw [hz, zero_div, abs_zero] at hD
    exact absurd hD (by norm_num)
  have hp : 0 < Spec.faceMean dens i b 0 + Spec.faceMean dens i b 1 := by
    rcases h0.eq_or_lt with e | e
    · rcases h1.eq_or_lt with e' | e'
      · exact absurd (by rw [← e, ← e', sub_zero]) hne
      · linarith
    · linarith
  obtain ⟨hl, s1, s2⟩ := lineLaw_slanted (hlt i) h0 h1 hp
  have hpr : ∀ j : Fin d, IsProbabilityMeasure (Spec.slantedLaw ((edges.getD j []).getD (b j) 0)
      ((edges.getD j []).getD (b j + 1) 0) (Spec.usedSlope dens b j)) := fun j => by
    rw [usedSlope_eff]; exact slanted_prob (hlt j) _
  have hc : ENNReal.ofReal (g.mass.get b / g.mass.sum) ≠ 0 := by
    rw [Ne, ENNReal.ofReal_eq_zero, not_le]; positivity
  have hm1 : ∀ A, MeasurableSet A → P {p | p.1 = b ∧ p.2 i ∈ A} = ENNReal.ofReal (g.mass.get b / g.mass.sum)
      * Spec.slantedLaw ((edges.getD i []).getD (b i) 0) ((edges.getD i []).getD (b i + 1) 0) (Spec.usedSlope dens b i) A := by
    intro A hAm
    have h2 := hA ((fun x : Fin d → ℝ => x i) ⁻¹' A) ((measurable_pi_apply i) hAm)
    have h3 := (measurePreserving_eval (fun j : Fin d => Spec.slantedLaw ((edges.getD j []).getD (b j) 0)
      ((edges.getD j []).getD (b j + 1) 0) (Spec.usedSlope dens b j)) i).measure_preimage hAm.nullMeasurableSet
    rw [← h3]
    exact h2
  have hm2 : P {p | p.1 = b} = ENNReal.ofReal (g.mass.get b / g.mass.sum) := by
    have := hm1 Set.univ .univ
    have h5 := (hpr i).measure_univ
    rw [h5, mul_one] at this
    rw [← this]
    congr 1
    ext p
    simp
  have hsl : Spec.usedSlope dens b i = (Spec.faceMean dens i b 1 - Spec.faceMean dens i b 0) / ρ := by
    rw [Spec.usedSlope, ← hρ, if_pos hD]
  have key : (∀ A, MeasurableSet A → P {p | p.1 = b ∧ p.2 i ∈ A} = P {p | p.1 = b} *
      Spec.lineLaw ((edges.getD i []).getD (b i) 0) ((edges.getD i []).getD (b i + 1) 0)
        (Spec.faceMean dens i b 0) (Spec.faceMean dens i b 1) A) ↔
      Spec.slantedLaw ((edges.getD i []).getD (b i) 0) ((edges.getD i []).getD (b i + 1) 0) (Spec.usedSlope dens b i)
        = Spec.lineLaw ((edges.getD i []).getD (b i) 0) ((edges.getD i []).getD (b i + 1) 0)
        (Spec.faceMean dens i b 0) (Spec.faceMean dens i b 1) := by
    constructor
    · intro h
      refine Measure.ext fun A hAm => ?_
      have := h A hAm
      rw [hm1 A hAm, hm2] at this
      exact (ENNReal.mul_right_inj hc ENNReal.ofReal_ne_top).mp this
    · intro h A hAm
      rw [hm1 A hAm, hm2, h]
  rw [key]
  have hl' : Spec.lineLaw ((edges.getD i []).getD (b i) 0) ((edges.getD i []).getD (b i + 1) 0)
      (Spec.faceMean dens i b 0) (Spec.faceMean dens i b 1) = _ := hl
  have hinj := slanted_inj (s := Spec.usedSlope dens b i) (hlt i) s1 s2
  rw [hl']
  refine hinj.trans ?_
  rw [hsl, div_eq_div_iff hρ0 (by linarith)]
  constructor
  · intro h; exact mul_left_cancel₀ hne h
  · intro h; rw [h]

/-! ## An example -/

/-- A density which increases: 1, 2, 3 at the edges 0, 1, 2. -/
def exDensLin : NDArr 1 ℝ := ⟨fun _ => 3, fun b => b 0 + 1⟩

lemma exDensLin_sum : exDensLin.sum = 6 := by
  rw [sum_one]
  simp [exDensLin, Finset.sum_range_succ]
  norm_num

lemma exLin_faces (b : Fin 1 → ℕ) : Spec.faceMean exDensLin 0 b 0 = b 0 + 1 ∧ Spec.faceMean exDensLin 0 b 1 = b 0 + 2 := by
  constructor
  · simp [Spec.faceMean, exDensLin, Fintype.sum_equiv (Equiv.funUnique (Fin 1) (Fin 2)) _
      (fun c : Fin 2 => if c = 0 then ((b 0 : ℝ) + (c : ℕ) + 1) else 0)]
  · simp [Spec.faceMean, exDensLin, Fintype.sum_equiv (Equiv.funUnique (Fin 1) (Fin 2)) _
      (fun c : Fin 2 => if c = 1 then ((b 0 : ℝ) + (c : ℕ) + 1) else 0)]
    ring

lemma exLin_init {srt : List ℝ → List ℕ} (hs : ∀ l, IsArgsort (srt l) l) :
    ∃ g, SampleGrid.init srt [[(0 : ℝ), 1, 2]] exDensLin (some exMassC) = .ok g ∧ g.mass = exMassC := by
  have hpos : 0 < exMassC.flat.sum := by rw [NDArr.flat_sum, exMassC_sum]; norm_num
  obtain ⟨idx, csum, h1, -⟩ := dataToCumulative_ok hs hpos
  have h2 : initMasses [[(0 : ℝ), 1, 2]] exDensLin (some exMassC) none none = .ok (exMassC, none) := by
    unfold initMasses
    rw [if_pos]
    · rfl
    · refine ⟨⟨rfl, fun i => by fin_cases i; rfl⟩, fun m hm i => ?_⟩
      cases hm
      rfl
  refine ⟨⟨[[(0 : ℝ), 1, 2]], exDensLin, exMassC, none, none, idx, csum⟩, ?_, rfl⟩
  unfold SampleGrid.init
  rw [h2]
  simp only [bind, Except.bind, h1, pure, Except.pure]

/-- The example meets the hypotheses of `C113_interpolated` and of `C49_law`, for the first bin, in which the slope is one
half (per bin, in units of the mean density) and the mean density 3/2 is not that of the grid, which is 2: the samples do not
follow the interpolated density. -/
example : ∃ (srt : List ℝ → List ℕ) (g : SampleGrid 1), (∀ l, IsArgsort (srt l) l) ∧
    SampleGrid.init srt [[(0 : ℝ), 1, 2]] exDensLin (some exMassC) = .ok g ∧
    (∀ e ∈ [[(0 : ℝ), 1, 2]], e.Pairwise (· < ·)) ∧
    (∀ b, ValidIdx g.mass.shape b → 0 ≤ g.mass.get b) ∧ 0 < g.mass.sum ∧ exDensLin.sum ≠ 0 ∧
    exDensLin.sum / ∏ i, (exDensLin.shape i : ℝ) = 2 ∧ (∀ i : Fin 1, (fun _ => 0 : Fin 1 → ℕ) i + 1 < exDensLin.shape i) ∧
    0 < g.mass.get (fun _ => 0) ∧ Spec.usedSlope exDensLin (fun _ => 0) 0 = 1 / 2 ∧
    (Spec.faceMean exDensLin 0 (fun _ => 0) 0 + Spec.faceMean exDensLin 0 (fun _ => 0) 1) / 2 = 3 / 2 := by
  obtain ⟨srt, hs⟩ := exists_argsort
  obtain ⟨g, hg, hgm⟩ := exLin_init hs
  obtain ⟨k1, k2⟩ := exLin_faces fun _ => 0
  have hρ : exDensLin.sum / ∏ i, (exDensLin.shape i : ℝ) = 2 := by
    rw [exDensLin_sum]; simp [exDensLin]; norm_num
  refine ⟨srt, g, hs, hg, by norm_num, ?_, ?_, ?_, hρ, fun i => by simp [exDensLin], ?_, ?_, ?_⟩
  · intro b _; rw [hgm]; simp only [exMassC]; split <;> norm_num
  · rw [hgm, exMassC_sum]; norm_num
  · rw [exDensLin_sum]; norm_num
  · rw [hgm]; simp [exMassC]
  · rw [Spec.usedSlope, hρ, k1, k2]; norm_num
  · rw [k1, k2]; norm_num

end Kalepy
