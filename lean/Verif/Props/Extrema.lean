import Verif.Props.Covariance
import Verif.Props.Support
import Verif.Proofs.NormalQuantile

/-!
# C109, C110: default construction, and the default extrema
-/

namespace Kalepy

open Spec

variable {d : ℕ}

/-! ### specification -/

/-- At least two data points count: there are two, or two have a positive weight. -/
def Spec.TwoPoints (data : List (Fin d → ℝ)) : Option (List ℝ) → Prop
  | none => 2 ≤ data.length
  | some w => w.length = data.length ∧ (∀ x ∈ w, 0 ≤ x) ∧ ∃ (i j : ℕ) (x y : ℝ), i < j ∧ w[i]? = some x ∧ w[j]? = some y ∧ 0 < x ∧ 0 < y

/-- The arguments of `KDE(data, weights=weights)`. -/
def Spec.defaultArgs (data : List (Fin d → ℝ)) (weights : Option (List ℝ)) : KDEArgs d :=
  { dataset := data, weights := weights.elim .none fun l => .arr (l.map Flt.fin) }

/-- The extrema of the KDE enclose the data in parameter `i`. -/
def Spec.Encloses1 (k : KDE d) (i : Fin d) : Prop := ∀ x ∈ k.dataset, (k.extrema i).1 ≤ x i ∧ x i ≤ (k.extrema i).2

/-! ### C110 -/

lemma covFact_pos {data : List (Fin d → ℝ)} {w : Option (List ℝ)} (h : TwoPoints data w) :
    data ≠ [] ∧ (∀ l, w = some l → ValidW data.length l) ∧ 0 < covFact data w ∧ 1 < effNum data.length w none := by
  cases w with
  | none =>
    have h2 : 2 ≤ data.length := h
    have h3 : (2 : ℝ) ≤ data.length := by exact_mod_cast h2
    refine ⟨?_, by simp, by simp only [covFact]; linarith, by simp only [effNum]; linarith⟩
    rintro rfl
    simp at h2
  | some w =>
    obtain ⟨h1, h2, i, j, x, y, hij, hi, hj, hx, hy⟩ := h
    have hv : ValidW data.length w := ⟨h1, h2, x, List.mem_of_getElem? hi, hx⟩
    have hs := validW_sum hv
    have hq := sum_sq_pos hs
    have hle : (w.map (· ^ 2)).sum ≤ w.sum ^ 2 := sum_sq_le_sq_sum h2
    have hne : w.sum ^ 2 ≠ (w.map (· ^ 2)).sum := by
      intro e
      obtain ⟨pre, z, post, rfl, hz, hpre, hpost⟩ := (sum_sq_eq_iff h2 hs).mp e
      have key : ∀ n v, (pre ++ z :: post)[n]? = some v → 0 < v → n = pre.length := by
        intro n v hn hv
        by_contra hc
        rcases lt_or_gt_of_ne hc with hc | hc
        · rw [List.getElem?_append_left hc] at hn
          exact hv.ne' (hpre v (List.mem_of_getElem? hn))
        · rw [List.getElem?_append_right (by omega)] at hn
          obtain ⟨m, hm⟩ : ∃ m, n - pre.length = m + 1 := ⟨n - pre.length - 1, by omega⟩
          rw [hm, List.getElem?_cons_succ] at hn
          exact hv.ne' (hpost v (List.mem_of_getElem? hn))
      have a := key i x hi hx
      have b := key j y hj hy
      omega
    have hlt := lt_of_le_of_ne hle (Ne.symm hne)
    refine ⟨?_, by rintro l ⟨⟩; exact hv, ?_, ?_⟩
    · rintro rfl
      obtain ⟨hn, _⟩ := List.getElem?_eq_some_iff.mp hi
      simp only [List.length_nil] at h1
      omega
    · simp only [covFact]
      rw [sub_pos, div_lt_iff₀ hs]
      nlinarith
    · simp only [effNum]
      rw [lt_div_iff₀ hq]
      linarith

/-- **C110.** `KDE(data, weights=weights)` is constructed whenever two data points count, with a Gaussian kernel, the given data and weights. -/
theorem C110_default (E : Ext) (data : List (Fin d → ℝ)) (weights : Option (List ℝ)) (h : TwoPoints data weights) :
    ∃ k, KDE.init E (defaultArgs data weights) = .ok k ∧ k.dataset = data ∧ k.weights = weights ∧ k.kernel.dist = .gaussian ∧ 1 < k.neff := by
  obtain ⟨hne, hw, hf, hn⟩ := covFact_pos h
  obtain ⟨dat, h1, h2⟩ := dataExtrema_spec hne
  have hcw : checkWeights data.length (weights.elim .none fun l => .arr (l.map Flt.fin)) = .ok weights := by
    cases weights with
    | none => rfl
    | some l => exact checkWeights_valid (hw l rfl)
  have hbw : bwMatrix d (effNum data.length weights none) false .none
      = .ok (Matrix.of fun i j => if false = true ∧ i ≠ j then 0 else scottFactor d (effNum data.length weights none)) := by
    have : computeBw d (effNum data.length weights none) (.str "scott") = .ok (scottFactor d (effNum data.length weights none)) := by
      rw [computeBw, if_pos rfl, if_pos (one_pos.trans hn)]
    simp only [bwMatrix, this, Except.map]
  have hout : kernelOut E .gaussian (effNum data.length weights none) = .ok (E.ppf (1 - 1 / effNum data.length weights none) * (6 / 5)) := by
    rw [kernelOut, if_neg (by decide), if_pos hn]
  unfold KDE.init
  simp only [defaultArgs, checkReflect, if_neg hne, hcw, covArg, npCov_eq data hne weights fun l hl => (hw l hl).1,
    if_neg (not_le.mpr hf), hbw, getDistribution, hout, effExtrema, h1]
  rw [if_neg (by simp), if_pos]
  · exact ⟨_, rfl, rfl, rfl, rfl, hn⟩
  · intro i
    simp only [Kernel.init, rescaleBw, Matrix.of_apply]
    exact mul_nonneg (sampleCov_posSemidef data hne weights hw hf).diag_nonneg (sq_nonneg _)

/-- Hypothesis of `C110_default`: three weighted points, one of weight zero. -/
example : TwoPoints (d := 2) [![0, 1], ![2, 5], ![-1, 1]] (some [1, 0, 3]) :=
  ⟨rfl, by simp, 0, 2, 1, 3, by norm_num, rfl, rfl, by norm_num, by norm_num⟩

/-! ### C109 -/

/-- The width of the margin around the data, in units of the standard deviation of the kernel. -/
noncomputable def Spec.extremaMargin (E : Ext) (k : KDE d) : ℝ :=
  if k.kernel.dist.finite then 1 + 1 / 10 ^ 8 else 6 / 5 * E.ppf (1 - 1 / k.neff)

/-- The default extrema. -/
lemma extrema_eq {E : Ext} {a : KDEArgs d} {k : KDE d} (h : KDE.init E a = .ok k) (he : a.extrema = none)
    (hr : a.reflect = .none) (i : Fin d) (mn mx : ℝ) (hmm : IsExtrema (k.dataset.map (· i)) mn mx) :
    k.extrema i = (min (mn - Real.sqrt (kernelMatrix k.covariance k.bandwidth i i) * extremaMargin E k)
        (mx + Real.sqrt (kernelMatrix k.covariance k.bandwidth i i) * extremaMargin E k),
      max (mn - Real.sqrt (kernelMatrix k.covariance k.bandwidth i i) * extremaMargin E k)
        (mx + Real.sqrt (kernelMatrix k.covariance k.bandwidth i i) * extremaMargin E k)) ∧ (k.kernel.dist.finite = false → 1 < k.neff) := by
  have hMk := (C18_matrix h).1
  obtain ⟨rows, w, cov, bw0, D, out, eff, ext, hrr, hne, _, _, _, hDD, _, hout, heff, hext, hk⟩ := init_inv h
  rw [hr] at hrr
  cases hrr
  have hdist : k.kernel.dist = D := by rw [hk]; rfl
  have hneff : k.neff = effNum a.dataset.length w a.neff := by rw [hk]
  have hdat : k.dataset = a.dataset := by rw [hk]
  have hmat : (Kernel.init D (rescaleBw bw0 a.rescale) cov a.helper a.chunk).matrix
      = Spec.kernelMatrix k.covariance k.bandwidth := by rw [← hMk, hk]
  have hke : k.extrema = ext := by rw [hk]
  rw [he] at hext
  simp only [extremaArg, parseExtrema, Option.map_none] at hext
  cases hext
  have hmargin : out = extremaMargin E k ∧ (k.kernel.dist.finite = false → 1 < k.neff) := by
    unfold extremaMargin
    rw [hdist, hneff]
    unfold kernelOut at hout
    cases hf : D.finite with
    | true =>
      rw [hf, if_pos rfl] at hout
      cases hout
      exact ⟨by rw [if_pos rfl, numPad], by simp⟩
    | false =>
      rw [hf, if_neg (by simp)] at hout
      split at hout
      · rename_i hn
        cases hout
        exact ⟨by rw [if_neg (by simp)]; ring, fun _ => hn⟩
      · cases hout
  refine ⟨?_, hmargin.2⟩
  rw [hmat] at heff
  unfold effExtrema at heff
  split at heff
  · obtain ⟨dat, hd1, hd2⟩ := dataExtrema_spec hne
    rw [hd1] at heff
    cases heff
    obtain ⟨g1, g2, g3⟩ := hd2 i
    rw [hdat] at hmm
    obtain ⟨e1, e2, e3⟩ := hmm
    have q1 : (dat i).1 = mn := le_antisymm (g3 _ e1).1 (e3 _ g1).1
    have q2 : (dat i).2 = mx := le_antisymm (e3 _ g2).2 (g3 _ e2).2
    rw [hke, ← hmargin.1, ← q1, ← q2]
  · cases heff

lemma encloses_iff {k : KDE d} {i : Fin d} {mn mx : ℝ} (hmm : IsExtrema (k.dataset.map (· i)) mn mx) :
    Encloses1 k i ↔ (k.extrema i).1 ≤ mn ∧ mx ≤ (k.extrema i).2 := by
  obtain ⟨h1, h2, h3⟩ := hmm
  constructor
  · intro h
    obtain ⟨x, hx, e1⟩ := List.mem_map.mp h1
    obtain ⟨y, hy, e2⟩ := List.mem_map.mp h2
    exact ⟨by rw [← e1]; exact (h x hx).1, by rw [← e2]; exact (h y hy).2⟩
  · rintro ⟨a, b⟩ x hx
    have := h3 (x i) (List.mem_map_of_mem hx)
    exact ⟨a.trans this.1, this.2.trans b⟩

/-- **C109** as claimed: the default extrema of a KDE enclose its data. -/
def C109_Claim : Prop :=
  ∀ (d : ℕ) (E : Ext) (a : KDEArgs d) (k : KDE d), IsNormalQuantile E.ppf → KDE.init E a = .ok k → a.extrema = none → a.reflect = .none →
    ∀ i, Encloses1 k i

/-- **C109**, proved part: it holds for finite kernels, and if the effective number of points is at least two. -/
theorem C109_partial {E : Ext} (hE : IsNormalQuantile E.ppf) {a : KDEArgs d} {k : KDE d} (h : KDE.init E a = .ok k) (he : a.extrema = none)
    (hr : a.reflect = .none) (hn : k.kernel.dist.finite = true ∨ 2 ≤ k.neff) (i : Fin d) : Encloses1 k i := by
  have hne : k.dataset ≠ [] := by
    obtain ⟨_, _, _, _, _, _, _, _, _, hne, _, _, _, _, _, _, _, _, hk⟩ := init_inv h
    rw [hk]
    exact hne
  obtain ⟨dat, _, hd⟩ := dataExtrema_spec hne
  rw [encloses_iff (hd i), (extrema_eq h he hr i _ _ (hd i)).1]
  have hm : 0 ≤ extremaMargin E k := by
    unfold extremaMargin
    split
    · norm_num
    · rename_i hf
      have h2 := hn.resolve_left hf
      have : 1 / k.neff ≤ 1 / 2 := one_div_le_one_div_of_le (by norm_num) h2
      have hpos : 0 < 1 / k.neff := by positivity
      exact mul_nonneg (by norm_num) (quantile_nonneg hE (by linarith) (by linarith))
  have hs := mul_nonneg (Real.sqrt_nonneg (kernelMatrix k.covariance k.bandwidth i i)) hm
  exact ⟨(min_le_left _ _).trans (by linarith), le_trans (by linarith) (le_max_right _ _)⟩

/-- **C109**, exactly what happens for the Gaussian kernel with an effective number of points below two: the margin is negative, and the extrema enclose the data
in a parameter if and only if its range is at most as large as the margin (then they are interchanged), or the kernel has no width. -/
theorem C109_exact {E : Ext} (hE : IsNormalQuantile E.ppf) {a : KDEArgs d} {k : KDE d} (h : KDE.init E a = .ok k) (he : a.extrema = none)
    (hr : a.reflect = .none) (hD : k.kernel.dist = .gaussian) (hn : k.neff < 2) (i : Fin d) (mn mx : ℝ)
    (hmm : IsExtrema (k.dataset.map (· i)) mn mx) :
    E.ppf (1 - 1 / k.neff) < 0 ∧
    (Encloses1 k i ↔ Real.sqrt (kernelMatrix k.covariance k.bandwidth i i) = 0 ∨
      mx - mn ≤ Real.sqrt (kernelMatrix k.covariance k.bandwidth i i) * (6 / 5 * |E.ppf (1 - 1 / k.neff)|)) := by
  obtain ⟨e, hn1⟩ := extrema_eq h he hr i _ _ hmm
  have hf : k.kernel.dist.finite = false := by rw [hD]; rfl
  have hn1 := hn1 hf
  have h1 : 1 / 2 < 1 / k.neff := one_div_lt_one_div_of_lt (by linarith) hn
  have h2 : 1 / k.neff < 1 := by rw [div_lt_one (by linarith)]; exact hn1
  have hq := quantile_neg hE (p := 1 - 1 / k.neff) (by linarith) (by linarith)
  refine ⟨hq, ?_⟩
  have hm : extremaMargin E k = 6 / 5 * E.ppf (1 - 1 / k.neff) := by
    rw [extremaMargin, hf, if_neg (by simp)]
  rw [encloses_iff hmm, e, hm, abs_of_neg hq]
  set s := Real.sqrt (kernelMatrix k.covariance k.bandwidth i i) with hs
  set t := 6 / 5 * E.ppf (1 - 1 / k.neff) with ht
  have htneg : t < 0 := by rw [ht]; linarith
  have hs0 : 0 ≤ s := Real.sqrt_nonneg _
  have e2 : s * (6 / 5 * -E.ppf (1 - 1 / k.neff)) = - (s * t) := by rw [ht]; ring
  rw [e2]
  have hst : s * t ≤ 0 := mul_nonpos_of_nonneg_of_nonpos hs0 htneg.le
  simp only [min_le_iff, le_max_iff]
  constructor
  · rintro ⟨h1 | h1, h2⟩
    · left
      have h0 : s * t = 0 := by linarith
      rcases mul_eq_zero.mp h0 with h0 | h0
      · exact h0
      · exact absurd h0 htneg.ne
    · right
      linarith
  · rintro (h0 | h0)
    · rw [h0]; simp
    · exact ⟨Or.inr (by linarith), Or.inl (by linarith)⟩

/-- **C109.** Without weights the default extrema enclose the data. -/
theorem C109_unweighted {E : Ext} (hE : IsNormalQuantile E.ppf) {a : KDEArgs d} {k : KDE d} (h : KDE.init E a = .ok k) (he : a.extrema = none)
    (hr : a.reflect = .none) (hw : a.weights = .none) (hn : a.neff = none) (i : Fin d) : Encloses1 k i := by
  refine C109_partial hE h he hr ?_ i
  cases hf : k.kernel.dist.finite with
  | true => exact Or.inl rfl
  | false =>
    right
    have hne : k.dataset ≠ [] := by
      obtain ⟨_, _, _, _, _, _, _, _, _, hne, _, _, _, _, _, _, _, _, hk⟩ := init_inv h
      rw [hk]
      exact hne
    obtain ⟨dat, _, hd⟩ := dataExtrema_spec hne
    have h1 := (extrema_eq h he hr i _ _ (hd i)).2 hf
    rw [C17_unweighted h hn hw] at h1 ⊢
    have : 1 < a.dataset.length := by exact_mod_cast h1
    exact_mod_cast this

/-- **C109** is false, with nothing but data and weights given: `KDE([0, 1], weights=[1, 2])` has extrema strictly inside the data. -/
theorem C109_strictly (E : Ext) (hE : IsNormalQuantile E.ppf) :
    ∃ k : KDE 1, KDE.init E (defaultArgs [![0], ![1]] (some [1, 2])) = .ok k ∧ k.neff = 9 / 5 ∧ ¬ Encloses1 k 0 := by
  have ht : TwoPoints (d := 1) [![0], ![1]] (some [1, 2]) := ⟨rfl, by simp, 0, 1, 1, 2, by norm_num, rfl, rfl, by norm_num, by norm_num⟩
  obtain ⟨k, hk, hdat, hw, hD, hn⟩ := C110_default E _ _ ht
  have hneff : k.neff = 9 / 5 := by
    rw [(neff_eq hk rfl).2 _ hw]
    norm_num
  refine ⟨k, hk, hneff, ?_⟩
  have hmm : IsExtrema (k.dataset.map (· 0)) 0 1 := by
    rw [hdat]
    refine ⟨by simp, by simp, ?_⟩
    intro x hx
    simp at hx
    rcases hx with rfl | rfl <;> norm_num
  obtain ⟨hq, hiff⟩ := C109_exact hE hk rfl rfl hD (by rw [hneff]; norm_num) 0 0 1 hmm
  have hcov : k.covariance 0 0 = 1 / 2 := by
    rw [(C19_covariance hk rfl).1, hw]
    simp [defaultArgs, weighted, sampleCov, Spec.mean]
    norm_num
  obtain ⟨B, ⟨b, ⟨_, hb | hb⟩, hB⟩, hR⟩ := C18_bandwidth hk
  swap
  · exact absurd hb.1 (by decide)
  have hkb : k.bandwidth = B := hR
  have hbb : k.bandwidth 0 0 = b := by rw [hkb, hB]; simp
  have hb1 : 0 < b ∧ b ≤ 1 := by
    rw [hb.2, hneff]
    refine ⟨by positivity, Real.rpow_le_one_of_one_le_of_nonpos (by norm_num) (by norm_num)⟩
  have hM : kernelMatrix k.covariance k.bandwidth 0 0 = 1 / 2 * b ^ 2 := by
    rw [← (C18_matrix hk).1, (C19_kernel_matrix hk (Or.inr (Or.inl rfl)) (by rintro C ⟨⟩)).1, hcov, hbb]
  have hs : 0 < Real.sqrt (kernelMatrix k.covariance k.bandwidth 0 0) ∧ Real.sqrt (kernelMatrix k.covariance k.bandwidth 0 0) ≤ 4 / 5 := by
    rw [hM]
    refine ⟨Real.sqrt_pos.mpr (by have := hb1.1; positivity), ?_⟩
    rw [Real.sqrt_le_left (by norm_num)]
    nlinarith [hb1.1, hb1.2]
  rw [hiff, abs_of_neg hq]
  have hq2 : -1 < E.ppf (1 - 1 / k.neff) := by
    have := quantile_gt hE
    rw [hneff]
    norm_num
    exact this
  push Not
  refine ⟨hs.1.ne', ?_⟩
  nlinarith [hs.1, hs.2, hq, hq2]

theorem C109_refuted : ¬ C109_Claim := by
  obtain ⟨f, hf⟩ := exists_quantile
  obtain ⟨k, hk, _, h⟩ := C109_strictly ⟨fun A => A, f⟩ hf
  exact fun hc => h (hc 1 _ _ k hf hk rfl rfl 0)

end Kalepy
