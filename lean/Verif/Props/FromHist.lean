import Mathlib.Data.List.GetD
import Verif.Proofs.NDArr
import Verif.Props.Invariance

/-!
# C23: `KDE.from_hist`
-/

namespace Kalepy

variable {d : ℕ}

/-- Specification: the bins all have the same width. -/
def Spec.Uniform (bins : List ℝ) : Prop :=
  ∃ x0 dx : ℝ, ∀ (j : ℕ) (x : ℝ), bins[j]? = some x → x = x0 + j * dx

/-- Specification: centre of bin `j`. -/
noncomputable def Spec.centre (bins : List ℝ) (j : ℕ) : ℝ := (bins.getD j 0 + bins.getD (j + 1) 0) / 2

/-- Specification: the bin edges increase. -/
def Spec.Increasing (bins : List ℝ) : Prop := bins.Pairwise (· < ·)

/-- **C23** as claimed, for one-dimensional bins: the data are the bin centres, weighted by multiples of the
counts. -/
def C23_Claim : Prop :=
  ∀ (E : Ext) (bins : List ℝ) (counts : List ℝ) (bw : Option BwArg) (a : KDEArgs 1) (k : KDE 1),
    Spec.Increasing bins → counts.length + 1 = bins.length → (∀ x ∈ counts, 0 ≤ x) →
    KDE.fromHist1 E bins ⟨[counts.length], counts⟩ bw a = .ok k →
    k.dataset = (List.range counts.length).map (fun j _ => Spec.centre bins j) ∧
      ∃ c > 0, k.weights = some (counts.map (c * ·))

/-! ## Positive results -/

lemma fltDiv_scale {x y c : ℝ} (hc : 0 < c) : fltDiv (c * x) (c * y) = fltDiv x y := by
  have h1 : c * y = 0 ↔ y = 0 := by simp [hc.ne']
  have h2 : c * x = 0 ↔ x = 0 := by simp [hc.ne']
  have h3 : 0 < c * x ↔ 0 < x := by
    constructor
    · intro h; exact pos_of_mul_pos_right h hc.le |> fun h => h
    · exact mul_pos hc
  unfold fltDiv
  simp only [h1, h2, h3, mul_div_mul_left _ _ hc.ne']

/-- **C23**, scaling: multiplying all counts by a positive number does not change the KDE at all, and so none of
its densities. -/
theorem C23_scale (E : Ext) (hist : Arr) (bw : Option BwArg) {c : ℝ} (hc : 0 < c) :
    (∀ (bins : List ℝ) (a : KDEArgs 1),
      KDE.fromHist1 E bins ⟨hist.shape, hist.vals.map (c * ·)⟩ bw a = KDE.fromHist1 E bins hist bw a) ∧
    (∀ (d : ℕ) (bins : Fin d → List ℝ) (a : KDEArgs d),
      KDE.fromHistN E bins ⟨hist.shape, hist.vals.map (c * ·)⟩ bw a = KDE.fromHistN E bins hist bw a) := by
  have hsum : (hist.vals.map fun x => c * x).sum = c * hist.vals.sum := by
    simpa using List.sum_map_mul_left hist.vals (fun x : ℝ => x) c
  constructor
  · intro bins a
    unfold KDE.fromHist1
    cases histCenters bins with
    | error e => rfl
    | ok p =>
      obtain ⟨dx, points⟩ := p
      simp only [List.map_map, Function.comp_def, hsum, mul_assoc, fltDiv_scale hc]
  · intro d bins a
    unfold KDE.fromHistN
    cases finSeq fun i => histCenters (bins i) with
    | error e => rfl
    | ok p =>
      simp only [List.map_map, Function.comp_def, hsum, mul_assoc, fltDiv_scale hc]

/-- The stored weights are a positive multiple of the counts. -/
lemma weights_of_counts {counts w : List ℝ} {s p : ℝ} (hs : s = counts.sum) (hcnt : ∀ x ∈ counts, 0 ≤ x)
    (h : counts.map (fun h => fltDiv h (s * p)) = w.map Flt.fin) (hw : ∀ x ∈ w, 0 ≤ x) (hp : ∃ x ∈ w, 0 < x) :
    ∃ c > 0, w = counts.map (c * ·) := by
  have hne : counts ≠ [] := by
    rintro rfl
    obtain ⟨x, hx, _⟩ := hp
    simp at h
    rw [h] at hx; cases hx
  have hsp : s * p ≠ 0 := by
    intro h0
    cases counts with
    | nil => exact hne rfl
    | cons y l =>
      cases w with
      | nil => simp at h
      | cons v w =>
        simp only [List.map_cons, List.cons.injEq] at h
        have := h.1
        unfold fltDiv at this
        rw [if_pos h0] at this
        split_ifs at this
  have hw2 : w = counts.map (fun y => y / (s * p)) := by
    have : counts.map (fun h => fltDiv h (s * p)) = (counts.map fun y => y / (s * p)).map Flt.fin := by
      rw [List.map_map]
      refine List.map_congr_left fun y _ => ?_
      simp [fltDiv, hsp]
    rw [this] at h
    exact (List.map_injective_iff.mpr (fun a b hab => by cases hab; rfl) h).symm
  obtain ⟨x, hx, hpos⟩ := hp
  rw [hw2] at hx
  obtain ⟨y, hy, rfl⟩ := List.mem_map.mp hx
  have hy0 := hcnt y hy
  refine ⟨(s * p)⁻¹, ?_, ?_⟩
  · rw [div_eq_mul_inv] at hpos
    exact pos_of_mul_pos_right hpos hy0
  · rw [hw2]
    exact List.map_congr_left fun y _ => by rw [div_eq_inv_mul]

lemma histCenters_inv {bins : List ℝ} {dx : ℝ} {pts : List ℝ} (h : histCenters bins = .ok (dx, pts)) :
    pts.length = bins.length - 1 ∧ dx = bins.getD 2 0 - bins.getD 1 0 ∧ 3 ≤ bins.length ∧
      ∀ j, j < bins.length - 1 → pts.getD j 0 = bins.getD j 0 + 1 / 2 * dx := by
  unfold histCenters at h
  split at h
  · cases h
  · rename_i h3
    push Not at h3
    cases h
    refine ⟨by simp, rfl, h3, fun j hj => ?_⟩
    generalize 1 / 2 * (bins.getD 2 0 - bins.getD 1 0) = e
    rw [List.getD_eq_getElem _ _ (by simpa using hj), List.getD_eq_getElem _ _ (by omega)]
    simp

lemma centre_uniform {bins : List ℝ} (hu : Spec.Uniform bins) (h3 : 3 ≤ bins.length) {j : ℕ}
    (hj : j < bins.length - 1) :
    bins.getD j 0 + 1 / 2 * (bins.getD 2 0 - bins.getD 1 0) = Spec.centre bins j := by
  obtain ⟨x0, dx, hu⟩ := hu
  have g : ∀ n, n < bins.length → bins.getD n 0 = x0 + n * dx := by
    intro n hn
    rw [List.getD_eq_getElem _ _ hn]
    exact hu n _ (List.getElem?_eq_getElem hn)
  unfold Spec.centre
  rw [g j (by omega), g (j + 1) (by omega), g 2 (by omega), g 1 (by omega)]
  push_cast
  ring

/-- **C23** for bins of equal widths, one-dimensional.  What is missing for the full claim are bins of different
widths, for which it is false (`C23_refuted`). -/
theorem C23_uniform_partial (E : Ext) (bins : List ℝ) (hist : Arr) (bw : Option BwArg) (a : KDEArgs 1) (k : KDE 1)
    (hu : Spec.Uniform bins) (hcnt : ∀ x ∈ hist.vals, 0 ≤ x) (h : KDE.fromHist1 E bins hist bw a = .ok k) :
    hist.vals.length + 1 = bins.length ∧
    k.dataset = (List.range hist.vals.length).map (fun j _ => Spec.centre bins j) ∧
      ∃ c > 0, k.weights = some (hist.vals.map (c * ·)) := by
  unfold KDE.fromHist1 at h
  cases hc : histCenters bins with
  | error e => rw [hc] at h; cases h
  | ok p =>
    obtain ⟨dx, points⟩ := p
    rw [hc] at h
    simp only at h
    obtain ⟨g1, g2, g3, g4⟩ := histCenters_inv hc
    have hds : k.dataset = points.map fun x _ => x := by
      obtain ⟨_, _, _, _, _, _, _, _, _, _, _, _, _, _, _, _, _, _, hk⟩ := init_inv h
      rw [hk]
    obtain ⟨_, ⟨hn, _⟩ | ⟨l, hl, hkw, hv⟩⟩ := C16_weights h
    · simp only at hn
      split at hn <;> cases hn
    · simp only at hl hv
      split at hl
      · injection hl with hl
        obtain ⟨c, hc0, hcw⟩ := weights_of_counts rfl hcnt hl hv.2.1 hv.2.2
        have hlen : hist.vals.length = points.length := by
          have := hv.1
          rw [hcw] at this
          simpa using this
        refine ⟨by omega, ?_, c, hc0, by rw [hkw, hcw]⟩
        rw [hds]
        refine List.ext_getElem (by simp [hlen]) ?_
        intro n h1 h2
        simp only [List.getElem_map, List.getElem_range]
        funext _
        have hn : n < bins.length - 1 := by simp at h1; omega
        rw [← centre_uniform hu g3 hn, ← g2, ← g4 n hn, List.getD_eq_getElem _ _ (by omega)]
      · cases hl

/-- **C23** for bins of equal widths in each of several dimensions: there is one data point for each cell, the
point of cell `idx` is its centre, and its weight is a multiple (the same for all cells) of the count of that cell in
the (C-ordered) histogram. -/
theorem C23_uniform_nd_partial (E : Ext) (bins : Fin d → List ℝ) (hist : Arr) (bw : Option BwArg) (a : KDEArgs d)
    (k : KDE d) (hu : ∀ i, Spec.Uniform (bins i)) (hcnt : ∀ x ∈ hist.vals, 0 ≤ x)
    (h : KDE.fromHistN E bins hist bw a = .ok k) :
    hist.vals.length = ∏ i, ((bins i).length - 1) ∧ k.dataset.length = ∏ i, ((bins i).length - 1) ∧
    (∀ idx : Fin d → ℕ, (∀ i, idx i < (bins i).length - 1) →
      k.dataset[ravelIdx (fun i => (bins i).length - 1) idx]? = some fun i => Spec.centre (bins i) (idx i)) ∧
    ∃ c > 0, k.weights = some (hist.vals.map (c * ·)) := by
  unfold KDE.fromHistN at h
  cases hc : finSeq fun i => histCenters (bins i) with
  | error e => rw [hc] at h; cases h
  | ok p =>
    rw [hc] at h
    simp only at h
    rw [finSeq_ok] at hc
    have hds : k.dataset = gridPoints fun i => (p i).2 := by
      obtain ⟨_, _, _, _, _, _, _, _, _, _, _, _, _, _, _, _, _, _, hk⟩ := init_inv h
      rw [hk]
    have hsh : (fun i => (p i).2.length) = fun i => (bins i).length - 1 := by
      funext i
      exact (histCenters_inv (hc i)).1
    have hdl : k.dataset.length = ∏ i, ((bins i).length - 1) := by
      rw [hds, gridPoints, List.length_map, List.length_range]
      exact Finset.prod_congr rfl fun i _ => congrFun hsh i
    obtain ⟨_, ⟨hn, _⟩ | ⟨l, hl, hkw, hv⟩⟩ := C16_weights h
    · cases hn
    · simp only at hl hv
      injection hl with hl
      obtain ⟨c, hc0, hcw⟩ := weights_of_counts rfl hcnt hl hv.2.1 hv.2.2
      refine ⟨?_, hdl, ?_, c, hc0, by rw [hkw, hcw]⟩
      · have := hv.1
        rw [hcw, List.length_map, ← hds] at this
        rw [this, hdl]
      · intro idx hidx
        have hvld : ValidIdx (fun i => (p i).2.length) idx := by rw [hsh]; exact hidx
        rw [← hsh, hds, gridPoints, List.getElem?_map, List.getElem?_range (ravelIdx_lt hvld)]
        simp only [Option.map_some, Option.some.injEq]
        funext i
        rw [unravel_ravelIdx hvld]
        obtain ⟨g1, g2, g3, g4⟩ := histCenters_inv (hc i)
        rw [g4 _ (hidx i), g2, centre_uniform (hu i) g3 (hidx i)]

/-- A histogram with valid counts is accepted: with a finite kernel, the default bandwidth and a given covariance
of non-negative diagonal. -/
theorem C23_accepted (E : Ext) (bins counts : List ℝ) (hlen : counts.length + 1 = bins.length)
    (h3 : 3 ≤ bins.length) (hb : bins.getD 1 0 < bins.getD 2 0) (hcnt : ∀ x ∈ counts, 0 ≤ x)
    (hpos : ∃ x ∈ counts, 0 < x) (D : Dist) (hD : D.finite = true) (cov : Matrix (Fin 1) (Fin 1) ℝ)
    (hcov : 0 ≤ cov 0 0) :
    ∃ k, KDE.fromHist1 E bins ⟨[counts.length], counts⟩ none
      { dataset := []
        kernel := .cls D
        covariance := some cov } = .ok k ∧
      k.dataset = bins.dropLast.map (fun x _ => x + 1 / 2 * (bins.getD 2 0 - bins.getD 1 0)) := by
  have hdx : 0 < bins.getD 2 0 - bins.getD 1 0 := sub_pos.mpr hb
  have hsum : 0 < counts.sum := by
    obtain ⟨x, hx, hp⟩ := hpos
    exact hp.trans_le (List.single_le_sum hcnt x hx)
  have hsp : 0 < counts.sum * (bins.getD 2 0 - bins.getD 1 0) := mul_pos hsum hdx
  unfold KDE.fromHist1 histCenters
  rw [if_neg (by omega)]
  simp only [List.length_map, List.length_dropLast]
  rw [if_pos (by simp; omega)]
  have hmap : counts.map (fun h => fltDiv h (counts.sum * (bins.getD 2 0 - bins.getD 1 0)))
      = (counts.map fun y => y / (counts.sum * (bins.getD 2 0 - bins.getD 1 0))).map Flt.fin := by
    rw [List.map_map]
    refine List.map_congr_left fun y _ => ?_
    simp only [fltDiv, if_neg hsp.ne', Function.comp]
  rw [hmap]
  set data : List (Fin 1 → ℝ) := (List.map (fun x => x + 1 / 2 * (bins.getD 2 0 - bins.getD 1 0)) bins.dropLast).map
    fun x _ => x with hdata
  have hne : data ≠ [] := by
    intro hc
    have := congrArg List.length hc
    simp [hdata] at this
    omega
  have hw : Spec.ValidW data.length (counts.map fun y => y / (counts.sum * (bins.getD 2 0 - bins.getD 1 0))) := by
    refine ⟨by simp [hdata]; omega, ?_, ?_⟩
    · intro x hx
      obtain ⟨y, hy, rfl⟩ := List.mem_map.mp hx
      exact div_nonneg (hcnt y hy) hsp.le
    · obtain ⟨x, hx, hp⟩ := hpos
      exact ⟨_, List.mem_map_of_mem hx, div_pos hp hsp⟩
  obtain ⟨dat, e1, _⟩ := dataExtrema_spec hne
  have heff : ∃ eff, effExtrema data (Kernel.init D (rescaleBw (Matrix.of fun i j : Fin 1 =>
      if false = true ∧ i ≠ j then 0 else bins.getD 2 0 - bins.getD 1 0) .none) cov true 100000).matrix (1 + numPad)
        = .ok eff := by
    unfold effExtrema
    rw [if_pos, e1]
    · exact ⟨_, rfl⟩
    · intro i
      have : i = 0 := by omega
      subst this
      simp only [Kernel.init, rescaleBw, Matrix.of_apply]
      exact mul_nonneg hcov (sq_nonneg _)
  obtain ⟨eff, heff⟩ := heff
  have := init_of_stages (E := E) (d := 1)
    (a :=
      { dataset := data
        squeeze := true
        weights := .arr ((counts.map fun y => y / (counts.sum * (bins.getD 2 0 - bins.getD 1 0))).map Flt.fin)
        bandwidth := .val (.num (bins.getD 2 0 - bins.getD 1 0))
        kernel := .cls D
        covariance := some cov }) (reflect := none) rfl hne (checkWeights_valid hw) rfl rfl rfl rfl
    (out := 1 + numPad) (by simp [kernelOut, hD]) heff rfl
  refine ⟨_, this, ?_⟩
  simp only [hdata, List.map_map, Function.comp_def]

/-- **C23 is false of the code**: the bins of edges 0, 1, 3, 4 are taken to have the width of the second one. -/
theorem C23_refuted : ¬ C23_Claim := by
  intro hC
  obtain ⟨k, hk, hd⟩ := C23_accepted ⟨fun A => A, id⟩ [0, 1, 3, 4] [1, 1, 1] rfl (by simp) (by simp)
    (by simp) ⟨1, by simp, by norm_num⟩ .box rfl 1 (by simp)
  obtain ⟨h1, _⟩ := hC ⟨fun A => A, id⟩ [0, 1, 3, 4] [1, 1, 1] none _ k
    (by simp [Spec.Increasing]; norm_num) rfl (by simp) hk
  rw [h1] at hd
  have := congrArg (fun l => l.map fun x => x 0) hd
  simp [List.range_succ, Spec.centre] at this
  norm_num at this

/-- Concrete case of the hypotheses of `C23_uniform_partial`: three bins of width 2. -/
example : ∃ (E : Ext) (bins : List ℝ) (hist : Arr) (a : KDEArgs 1) (k : KDE 1), Spec.Uniform bins ∧
    (∀ x ∈ hist.vals, 0 ≤ x) ∧ KDE.fromHist1 E bins hist none a = .ok k := by
  obtain ⟨k, hk, _⟩ := C23_accepted ⟨fun A => A, id⟩ [1, 3, 5, 7] [4, 0, 1] rfl (by simp) (by simp; norm_num)
    (by simp) ⟨1, by simp, by norm_num⟩ .box rfl 1 (by simp)
  refine ⟨_, _, _, _, k, ⟨1, 2, ?_⟩, by simp, hk⟩
  intro j x hx
  match j with
  | 0 => simp at hx; rw [← hx]; norm_num
  | 1 => simp at hx; rw [← hx]; norm_num
  | 2 => simp at hx; rw [← hx]; norm_num
  | 3 => simp at hx; rw [← hx]; norm_num
  | j + 4 => simp at hx

end Kalepy
