import Verif.Props.CdfIntegral
import Verif.Props.Extrema

/-!
# C175: whether `KDE.cdf` returns numbers with the default evaluation points
-/

namespace Kalepy

open Spec (EquallySpaced)

variable {d : ℕ}

/-! ## The default evaluation points -/

/-- Without a specification of the points, the points are equally spaced from the lower to the upper extremum in each
parameter, with at least 3 and at most 200 intervals. -/
lemma default_points_spaced {E : Ext} {a : KDEArgs d} {k : KDE d} (h : KDE.init E a = .ok k) (hd : 0 < d)
    {srt : List ℝ → List ℕ} (hs : ∀ l, IsArgsort (srt l) l) (hp : a.points = .none) (hsq : a.squeeze = true → d = 1)
    (hlt : ∀ i, (k.extrema i).1 < (k.extrema i).2) :
    ∃ pts, (k.points srt).1 = .ok pts ∧ pts.toRows.length = d ∧ ∀ i : Fin d, ∃ n : ℕ, 3 ≤ n ∧ n ≤ 200 ∧
      EquallySpaced (pts.toRows.getD i []) n (k.extrema i).1 (k.extrema i).2 := by
  have hne := (C16_weights h).1
  obtain ⟨_, _, _, _, _, _, _, _, _, _, _, _, _, _, _, _, _, _, hk⟩ := init_inv h
  have hk1 : k.pointsVal = none := by rw [hk]
  have hk2 : k.pointsSpec = .none := by rw [hk, hp]
  have hk3 : k.dataset = a.dataset := by rw [hk]
  have hk4 : k.squeeze = a.squeeze := by rw [hk]
  obtain ⟨ext, e1, e2⟩ := parseExtremaOf_extremaList hd hne k.extrema
  have hw : ValidWeights k.dataset.length k.weights := by
    cases hkw : k.weights with
    | none => trivial
    | some w =>
      have := stored_valid h hkw
      exact ⟨by rw [hk3]; exact this.1, this.2.1, validW_sum this⟩
  obtain ⟨rows, hrows⟩ := C45_succeeds_extrema srt hs k.dataset (by rw [hk3]; exact hne) .none (Or.inl rfl)
    (some (extremaList k.extrema)) k.weights hw 3 200 (by norm_num) (by norm_num) (some 0) (Real.sqrt 10)
    (some k.bandwidth) ext (by rw [hk3]; exact e1) (fun i => by rw [e2]; exact hlt i)
  obtain ⟨hlen, ext', hext, hall⟩ := C45_edges srt _ _ _ _ _ _ _ _ _ (by positivity) _ hrows
  have heq : (k.shapePoints rows).toRows = rows := by
    unfold KDE.shapePoints
    rw [hk4]
    split
    · rename_i hs
      have := hsq hs
      subst this
      match rows, hlen with
      | [r], _ => rfl
    · rfl
  refine ⟨k.shapePoints rows, ?_, by rw [heq]; exact hlen, fun i => ?_⟩
  · simp only [KDE.points, hk1, KDE.computePoints, hk2, hrows]
  · obtain ⟨l, hl, n, w, hn1, hn2, hw, hsp⟩ := hall i .auto rfl
    have hn3 := hn2 (by norm_num)
    have hsp := hsp (by omega)
    simp only [Option.getD_some, zero_mul, sub_zero, add_zero] at hsp
    have hexteq : ext' i = k.extrema i := by
      rw [parseExtremaOf] at hext
      split at hext
      · cases hext
      · exact parseExtremaList_extremaList hext i
    rw [hexteq] at hsp
    refine ⟨n.toNat, by omega, by omega, ?_⟩
    rw [heq, List.getD_eq_getElem?_getD, hl]
    exact hsp

/-! ## Where the pdf is positive -/

lemma pdf_pos_iff {E : Ext} {a : KDEArgs d} {k : KDE d} (h : KDE.init E a = .ok k) (srt : List ℝ → List ℕ) (hd : 0 < d)
    (hr : a.reflect = .none) (hM : (Spec.kernelMatrix k.covariance k.bandwidth).PosDef) {F : (Fin d → ℝ) → ℝ}
    (hF : Spec.Reports E srt k F) (x : Fin d → ℝ) :
    0 < F x ↔ ∃ p ∈ Spec.weighted a.dataset k.weights, 0 < p.2 ∧
      0 < Spec.shape k.kernel.dist (Spec.dist2 (Spec.kernelMatrix k.covariance k.bandwidth) (x - p.1)) := by
  obtain ⟨hnn, hsum⟩ := weighted_pos h
  rw [reports_unique hF (reports_average h srt hd hr hM)]
  show 0 < _ / _ ↔ _
  rw [div_pos_iff_of_pos_right hsum, kernelAt_eq hd _ hM]
  have hc : 0 < Real.sqrt (Spec.kernelMatrix k.covariance k.bandwidth).det * k.kernel.dist.norm d :=
    mul_pos (Real.sqrt_pos.mpr hM.det_pos) (k.kernel.dist.norm_pos d hd)
  have hterm : ∀ p ∈ Spec.weighted a.dataset k.weights,
      0 ≤ p.2 * unitKernel k.kernel.dist (Spec.kernelMatrix k.covariance k.bandwidth) (x - p.1) :=
    fun p hp => mul_nonneg (hnn p hp) (unitKernel_nonneg hd _ hM _)
  constructor
  · intro hpos
    by_contra hcon
    push Not at hcon
    refine hpos.ne' (List.sum_eq_zero fun v hv => ?_)
    obtain ⟨p, hp, rfl⟩ := List.mem_map.mp hv
    rcases (hnn p hp).eq_or_lt with h0 | h0
    · rw [← h0, zero_mul]
    · rw [unitKernel, le_antisymm (hcon p hp h0) (shape_nonneg' _ _), zero_div, mul_zero]
  · rintro ⟨p, hp, h1, h2⟩
    have := List.single_le_sum (l := (Spec.weighted a.dataset k.weights).map fun p =>
      p.2 * unitKernel k.kernel.dist (Spec.kernelMatrix k.covariance k.bandwidth) (x - p.1))
      (by intro v hv; obtain ⟨q, hq, rfl⟩ := List.mem_map.mp hv; exact hterm q hq) _ (List.mem_map.mpr ⟨p, hp, rfl⟩)
    exact lt_of_lt_of_le (mul_pos h1 (div_pos h2 hc)) this

lemma exists_weight {E : Ext} {a : KDEArgs d} {k : KDE d} (h : KDE.init E a = .ok k) :
    ∃ p ∈ Spec.weighted a.dataset k.weights, 0 < p.2 := by
  obtain ⟨hnn, hsum⟩ := weighted_pos h
  by_contra hcon
  push Not at hcon
  refine hsum.ne' (List.sum_eq_zero fun v hv => ?_)
  obtain ⟨p, hp, rfl⟩ := List.mem_map.mp hv
  exact le_antisymm (hcon p hp) (hnn p hp)

/-! ## C175 -/

/-- **C175**, the claim: with the default evaluation points and extrema, without reflection, `cdf` returns numbers. -/
def C175_Claim : Prop :=
  ∀ (d : ℕ) (E : Ext) (srt : List ℝ → List ℕ) (a : KDEArgs d) (k : KDE d), 0 < d → (∀ l, IsArgsort (srt l) l) →
    KDE.init E a = .ok k → a.points = .none → a.extrema = none → a.reflect = .none →
    (a.squeeze = true → d = 1) → (Spec.kernelMatrix k.covariance k.bandwidth).PosDef →
    (∀ i, (k.extrema i).1 < (k.extrema i).2) → ∃ G, Spec.ReportsCdf E srt k G

/-- **C175**, exactly when: `cdf` returns numbers if and only if the pdf `F` is positive at one of the default evaluation
points.  (With or without reflecting boundaries, with default or given extrema.) -/
theorem C175_iff {E : Ext} {a : KDEArgs d} {k : KDE d} (h : KDE.init E a = .ok k) (hd : 0 < d)
    {srt : List ℝ → List ℕ} (hs : ∀ l, IsArgsort (srt l) l) (hp : a.points = .none) (hsq : a.squeeze = true → d = 1)
    (hlt : ∀ i, (k.extrema i).1 < (k.extrema i).2) {F : (Fin d → ℝ) → ℝ} (hF : Spec.Reports E srt k F) :
    ∃ pts, (k.points srt).1 = .ok pts ∧ pts.toRows.length = d ∧ ((∃ G, Spec.ReportsCdf E srt k G) ↔
        ∃ idx : Fin d → ℕ, (∀ i : Fin d, idx i < (pts.toRows.getD i []).length) ∧ 0 < F (Spec.node pts.toRows idx)) ∧
      ((¬ ∃ G, Spec.ReportsCdf E srt k G) → ∀ (history : List (Spec.Call d)) (q : Pts) (out : List ℝ),
        ((history.foldl (fun k c => (Spec.call E srt k c).2) k).cdf E srt q).1 ≠ .ok out) := by
  obtain ⟨pts, hpts, hlen, hsp⟩ := default_points_spaced h hd hs hp hsq hlt
  refine ⟨pts, hpts, hlen, ⟨fun ⟨G, hG⟩ => ?_, fun ⟨idx, hv, hpos⟩ => ?_⟩, fun hno history q out hq => ?_⟩
  · obtain ⟨pts', G', hp', _, _, hrows, hm, _⟩ := C174_exact h hd srt hF [] _ _ (hG [] [])
    obtain rfl : pts = pts' := by rw [hpts] at hp'; exact Except.ok.inj hp'
    by_contra hcon
    push Not at hcon
    have hFn : ∀ x, 0 ≤ F x := fun x => by
      have := C05_kde_all h srt hd [] _ _ _ _ _ _ _ (hF [x])
      exact this (F x) (by simp)
    have hlast : ∀ i : Fin d, Spec.lastIdx (d := d) pts.toRows i < (pts.toRows.getD i []).length := by
      intro i
      obtain ⟨n, _, _, hl, _⟩ := hsp i
      show (pts.toRows.getD i []).length - 1 < _
      omega
    rw [massBelow_congr (f' := fun _ => 0) hlast fun j hj => le_antisymm (hcon j hj) (hFn _)] at hm
    simp [Spec.massBelow, Spec.cellMass] at hm
  · refine C174_succeeds h hd srt hF hpts hlen (fun row hrow => ?_) hv hpos
    obtain ⟨j, hj, rfl⟩ := List.mem_iff_getElem.mp hrow
    obtain ⟨n, hn, _, hq⟩ := hsp ⟨j, hlen ▸ hj⟩
    rw [List.getD_eq_getElem _ _ hj] at hq
    exact ⟨by have := hq.1; omega, (equallySpaced_increasing hq (by omega) (hlt _)).1⟩
  · obtain ⟨_, G, _, hG, _⟩ := C174_exact h hd srt hF history q out hq
    exact hno ⟨G, hG⟩

/-- **C175**, in terms of the data: without reflection, `cdf` returns numbers if and only if one of the default evaluation
points lies where the kernel of a data point of positive weight is positive. -/
theorem C175_data {E : Ext} {a : KDEArgs d} {k : KDE d} (h : KDE.init E a = .ok k) (hd : 0 < d)
    {srt : List ℝ → List ℕ} (hs : ∀ l, IsArgsort (srt l) l) (hp : a.points = .none) (hr : a.reflect = .none)
    (hsq : a.squeeze = true → d = 1) (hM : (Spec.kernelMatrix k.covariance k.bandwidth).PosDef)
    (hlt : ∀ i, (k.extrema i).1 < (k.extrema i).2) :
    ∃ pts, (k.points srt).1 = .ok pts ∧ pts.toRows.length = d ∧ ((∃ G, Spec.ReportsCdf E srt k G) ↔
      ∃ idx : Fin d → ℕ, (∀ i : Fin d, idx i < (pts.toRows.getD i []).length) ∧
        ∃ p ∈ Spec.weighted a.dataset k.weights, 0 < p.2 ∧ 0 < Spec.shape k.kernel.dist
          (Spec.dist2 (Spec.kernelMatrix k.covariance k.bandwidth) (Spec.node pts.toRows idx - p.1))) := by
  have hF := reports_average h srt hd hr hM
  obtain ⟨pts, h1, h2, h3, _⟩ := C175_iff h hd hs hp hsq hlt hF
  refine ⟨pts, h1, h2, h3.trans ?_⟩
  simp only [pdf_pos_iff h srt hd hr hM hF]

/-- **C175**, Gaussian kernel: the claim holds. -/
theorem C175_partial {E : Ext} {a : KDEArgs d} {k : KDE d} (h : KDE.init E a = .ok k) (hd : 0 < d)
    {srt : List ℝ → List ℕ} (hs : ∀ l, IsArgsort (srt l) l) (hp : a.points = .none) (hr : a.reflect = .none)
    (hsq : a.squeeze = true → d = 1) (hM : (Spec.kernelMatrix k.covariance k.bandwidth).PosDef)
    (hlt : ∀ i, (k.extrema i).1 < (k.extrema i).2) (hD : k.kernel.dist = .gaussian) :
    ∃ G, Spec.ReportsCdf E srt k G := by
  obtain ⟨pts, hpts, hlen, hsp⟩ := default_points_spaced h hd hs hp hsq hlt
  obtain ⟨pts', hp', _, hiff⟩ := C175_data h hd hs hp hr hsq hM hlt
  obtain rfl : pts = pts' := by rw [hpts] at hp'; exact Except.ok.inj hp'
  obtain ⟨p, hpm, hp0⟩ := exists_weight h
  refine hiff.mpr ⟨fun _ => 0, fun i => ?_, p, hpm, hp0, ?_⟩
  · obtain ⟨n, _, _, hl, _⟩ := hsp i
    show 0 < _
    omega
  · rw [hD]
    exact Real.exp_pos _

lemma shape_pos_inside (D : Dist) {s : ℝ} (hs : s < 1) : 0 < Spec.shape D s := by
  cases D with
  | gaussian => exact Real.exp_pos _
  | box => simp only [Spec.shape]; rw [if_pos hs.le]; exact one_pos
  | parabola => simp only [Spec.shape]; rw [if_pos hs.le]; linarith
  | triweight => simp only [Spec.shape]; rw [if_pos hs.le]; exact pow_pos (by linarith) 3

lemma dist2_dim_one (M : Matrix (Fin 1) (Fin 1) ℝ) (u : Fin 1 → ℝ) : Spec.dist2 M u = u 0 ^ 2 / M 0 0 := by
  simp [Spec.dist2, dotProduct, Matrix.mulVec_diagonal]
  ring

/-- **C175**, finite kernels in one dimension: `cdf` returns numbers if neighbouring default evaluation points are less than
one kernel width (twice the radius of the kernel) apart. -/
theorem C175_spacing {E : Ext} {a : KDEArgs 1} {k : KDE 1} (h : KDE.init E a = .ok k)
    {srt : List ℝ → List ℕ} (hs : ∀ l, IsArgsort (srt l) l) (hp : a.points = .none) (he : a.extrema = none)
    (hr : a.reflect = .none) (hM : (Spec.kernelMatrix k.covariance k.bandwidth).PosDef)
    (hD : k.kernel.dist.finite = true) {pts : Pts} (hpts : (k.points srt).1 = .ok pts)
    (hstep : ∀ j, j + 1 < (pts.toRows.getD 0 []).length → (pts.toRows.getD 0 []).getD (j + 1) 0
      - (pts.toRows.getD 0 []).getD j 0 < 2 * Real.sqrt (Spec.kernelMatrix k.covariance k.bandwidth 0 0)) :
    ∃ G, Spec.ReportsCdf E srt k G := by
  have hlt := extrema_lt h he hr hD hM
  obtain ⟨pts', hpts', hlen, hsp⟩ := default_points_spaced h one_pos hs hp (fun _ => rfl) hlt
  obtain rfl : pts = pts' := by rw [hpts] at hpts'; exact Except.ok.inj hpts'
  obtain ⟨pts', hp', _, hiff⟩ := C175_data h one_pos hs hp hr (fun _ => rfl) hM hlt
  obtain rfl : pts = pts' := by rw [hpts] at hp'; exact Except.ok.inj hp'
  obtain ⟨p, hpm, hp0⟩ := exists_weight h
  obtain ⟨n, hn, _, hl⟩ := hsp 0
  have hl : EquallySpaced (pts.toRows.getD 0 []) n (k.extrema 0).1 (k.extrema 0).2 := hl
  obtain ⟨_, hfirst, hlast⟩ := equallySpaced_increasing hl (by omega) (hlt 0)
  generalize hrow : pts.toRows.getD 0 [] = row at hl hstep hfirst hlast
  have hMi : 0 < Spec.kernelMatrix k.covariance k.bandwidth 0 0 := hM.diag_pos
  have hr0 := Real.sqrt_pos.mpr hMi
  have hsq := Real.sq_sqrt hMi.le
  have hpd : p.1 ∈ a.dataset := by
    have := hpm
    unfold Spec.weighted at this
    split at this
    · obtain ⟨x, hx, rfl⟩ := List.mem_map.mp this
      exact hx
    · exact (List.of_mem_zip this).1
  obtain ⟨dat, _, hd2⟩ := dataExtrema_spec (C16_weights h).1
  obtain ⟨e1, e2⟩ := C09_extrema h he hr hD 0 _ _ (hd2 0)
  have hin := (hd2 0).2.2 (p.1 0) (List.mem_map_of_mem hpd)
  have hf0 : row.getD 0 0 = (k.extrema 0).1 := by rw [List.getD_eq_getElem?_getD, hfirst]; rfl
  have hfn : row.getD n 0 = (k.extrema 0).2 := by rw [List.getD_eq_getElem?_getD, hlast]; rfl
  obtain ⟨j, hj, hj1, hj2⟩ := exists_cell (f := fun j => row.getD j 0) (n := n) (y := p.1 0)
    (by show row.getD 0 0 < _; rw [hf0, e1]; nlinarith [hin.1])
    (by show _ ≤ row.getD n 0; rw [hfn, e2]; nlinarith [hin.2])
  have hst := hstep j (by have := hl.1; omega)
  have key : ∃ m ≤ n, |row.getD m 0 - p.1 0| < Real.sqrt (Spec.kernelMatrix k.covariance k.bandwidth 0 0) := by
    by_cases hc : p.1 0 - row.getD j 0 < Real.sqrt (Spec.kernelMatrix k.covariance k.bandwidth 0 0)
    · exact ⟨j, by omega, by rw [abs_lt]; constructor <;> linarith⟩
    · exact ⟨j + 1, by omega, by rw [abs_lt]; constructor <;> linarith⟩
  obtain ⟨m, hm, hclose⟩ := key
  refine hiff.mpr ⟨fun _ => m, fun i => ?_, p, hpm, hp0, shape_pos_inside _ ?_⟩
  · obtain rfl : i = 0 := Subsingleton.elim _ _
    show m < (pts.toRows.getD 0 []).length
    rw [hrow, hl.1]
    omega
  · rw [dist2_dim_one, div_lt_one hMi, ← hsq]
    show ((pts.toRows.getD 0 []).getD m 0 - p.1 0) ^ 2 < _
    rw [hrow]
    exact sq_lt_sq' (by linarith [(abs_lt.mp hclose).1]) (abs_lt.mp hclose).2

/-! ### Witnesses: box kernels of radius 1 at 0 and at `r` -/

/-- Two data points of weight 1, box kernel, bandwidth 1 and covariance 1. -/
lemma two_boxes (E : Ext) {r : ℝ} (hr0 : 0 ≤ r) : ∃ (a : KDEArgs 1) (k : KDE 1),
    KDE.init E a = .ok k ∧ a.points = .none ∧ a.extrema = none ∧ a.reflect = .none ∧ k.kernel.dist = .box ∧
    Spec.kernelMatrix k.covariance k.bandwidth = 1 ∧
    Spec.weighted a.dataset k.weights = [(![0], 1), (![r], 1)] ∧
    (k.extrema 0).1 = -(1 + 1 / 10 ^ 8) ∧ (k.extrema 0).2 = r + (1 + 1 / 10 ^ 8) := by
  obtain ⟨k, hk, hw⟩ := C16_accepted (d := 1) E [![0], ![r]] (by simp) [1, 1]
    ⟨rfl, by simp, 1, by simp, by norm_num⟩ .box rfl 1 1 (fun i => by fin_cases i; norm_num)
  obtain ⟨_, _, cov, bw, D', _, _, _, _, _, _, hc, hb, hD', _, _, _, _, he⟩ := init_inv hk
  cases hc
  cases hD'
  cases hb
  have hM : Spec.kernelMatrix k.covariance k.bandwidth = 1 := by
    rw [he]
    ext i j
    simp [Spec.kernelMatrix, rescaleBw]
  have hD : k.kernel.dist = .box := by rw [he]; rfl
  obtain ⟨e1, e2⟩ := C09_extrema hk rfl rfl (by rw [hD]; rfl) 0 0 r ⟨by simp, by simp, by simp [hr0]⟩
  rw [hM] at e1 e2
  refine ⟨_, k, hk, rfl, rfl, rfl, hD, hM, by rw [hw]; rfl, ?_, ?_⟩
  · rw [e1]; norm_num
  · rw [e2]; norm_num

/-- **C175**, refuted: with the data 0 and 1000 and box kernels of radius 1, every one of the at most 201 default evaluation
points misses both kernels.  The pdf is 0 at all of them, and `cdf` divides 0 by 0: it never returns numbers. -/
theorem C175_zero (E : Ext) (srt : List ℝ → List ℕ) (hs : ∀ l, IsArgsort (srt l) l) : ∃ (a : KDEArgs 1) (k : KDE 1) (pts : Pts)
    (F : (Fin 1 → ℝ) → ℝ), KDE.init E a = .ok k ∧ a.points = .none ∧ a.extrema = none ∧ a.reflect = .none ∧
      (Spec.kernelMatrix k.covariance k.bandwidth).PosDef ∧ (∀ i, (k.extrema i).1 < (k.extrema i).2) ∧
      (k.points srt).1 = .ok pts ∧ Spec.Reports E srt k F ∧
      (∀ idx : Fin 1 → ℕ, (∀ i : Fin 1, idx i < (pts.toRows.getD i []).length) → F (Spec.node pts.toRows idx) = 0) ∧
      ∀ (history : List (Spec.Call 1)) (q : Pts) (out : List ℝ),
        ((history.foldl (fun k c => (Spec.call E srt k c).2) k).cdf E srt q).1 ≠ .ok out := by
  obtain ⟨a, k, hk, hp, he, hr, hD, hM1, hw, e1, e2⟩ := two_boxes E (r := 1000) (by norm_num)
  have hM : (Spec.kernelMatrix k.covariance k.bandwidth).PosDef := by rw [hM1]; exact Matrix.PosDef.one
  have hlt : ∀ i, (k.extrema i).1 < (k.extrema i).2 := by
    intro i
    obtain rfl : i = 0 := Subsingleton.elim _ _
    rw [e1, e2]
    norm_num
  have hF := reports_average hk srt one_pos hr hM
  obtain ⟨pts, hpts, hlen, hsp⟩ := default_points_spaced hk one_pos hs hp (fun _ => rfl) hlt
  obtain ⟨pts', hp', _, hiff, hno⟩ := C175_iff hk one_pos hs hp (fun _ => rfl) hlt hF
  obtain rfl : pts = pts' := by rw [hpts] at hp'; exact Except.ok.inj hp'
  have hzero : ∀ idx : Fin 1 → ℕ, (∀ i : Fin 1, idx i < (pts.toRows.getD i []).length) →
      ¬ 0 < (fun x => ((Spec.weighted a.dataset k.weights).map fun p =>
        p.2 * Spec.kernelAt k.kernel.dist (Spec.kernelMatrix k.covariance k.bandwidth) (x - p.1)).sum
        / ((Spec.weighted a.dataset k.weights).map Prod.snd).sum) (Spec.node pts.toRows idx) := by
    intro idx hidx
    rw [pdf_pos_iff hk srt one_pos hr hM hF]
    rintro ⟨p, hpm, -, hpos⟩
    obtain ⟨n, hn3, hn, hl, hv⟩ := hsp 0
    have hj := hidx 0
    rw [hl] at hj
    have hx : Spec.node pts.toRows idx 0
        = -(1 + 1 / 10 ^ 8) + idx 0 * ((1000 + (1 + 1 / 10 ^ 8) - -(1 + 1 / 10 ^ 8)) / n) := by
      show (pts.toRows.getD (0 : Fin 1) []).getD (idx 0) 0 = _
      rw [List.getD_eq_getElem?_getD, hv _ (by omega), Option.getD_some, e1, e2]
    rw [hD, dist2_dim_one, hM1] at hpos
    simp only [Spec.shape, Matrix.one_apply_eq, div_one, Pi.sub_apply] at hpos
    have hsq : (Spec.node pts.toRows idx 0 - p.1 0) ^ 2 ≤ 1 := by
      by_contra hc
      rw [if_neg hc] at hpos
      exact lt_irrefl _ hpos
    have hab := (sq_le_one_iff_abs_le_one _).mp hsq
    rw [abs_le] at hab
    have hp01 : p.1 0 = 0 ∨ p.1 0 = 1000 := by
      rw [hw] at hpm
      simp only [List.mem_cons, List.not_mem_nil, or_false] at hpm
      rcases hpm with rfl | rfl
      · exact Or.inl rfl
      · exact Or.inr rfl
    have hnR : (3 : ℝ) ≤ n := by exact_mod_cast hn3
    have hn2 : (n : ℝ) ≤ 200 := by exact_mod_cast hn
    set s : ℝ := (1000 + (1 + 1 / 10 ^ 8) - -(1 + 1 / 10 ^ 8)) / n with hs_def
    have hsn : s * n = 1000 + (1 + 1 / 10 ^ 8) - -(1 + 1 / 10 ^ 8) := by
      rw [hs_def]; field_simp
    have hs5 : 5 ≤ s := by
      rw [hs_def, le_div_iff₀ (by linarith)]
      norm_num
      linarith
    rw [hx] at hab
    have hjn : idx 0 ≤ n := by omega
    rcases Nat.eq_zero_or_pos (idx 0) with h0 | h0
    · rw [h0] at hab
      rcases hp01 with hq | hq <;> rw [hq] at hab <;> norm_num at hab
    rcases hjn.eq_or_lt with h1 | h1
    · rw [h1] at hab
      rcases hp01 with hq | hq <;> rw [hq] at hab <;> norm_num at hab hsn <;> nlinarith [hab.1, hab.2]
    · have hj1 : (1 : ℝ) ≤ idx 0 := by exact_mod_cast h0
      have hj2 : (idx 0 : ℝ) + 1 ≤ n := by exact_mod_cast h1
      rcases hp01 with hq | hq <;> rw [hq] at hab <;> norm_num at hab hsn
      · nlinarith [hab.2]
      · nlinarith [hab.1]
  have hFn : ∀ x, 0 ≤ (fun x => ((Spec.weighted a.dataset k.weights).map fun p =>
        p.2 * Spec.kernelAt k.kernel.dist (Spec.kernelMatrix k.covariance k.bandwidth) (x - p.1)).sum
        / ((Spec.weighted a.dataset k.weights).map Prod.snd).sum) x := fun x =>
    C05_kde_all hk srt one_pos [] _ _ _ _ _ _ _ (hF [x]) _ (by simp)
  refine ⟨a, k, pts, _, hk, hp, he, hr, hM, hlt, hpts, hF,
    fun idx hidx => le_antisymm (not_lt.mp (hzero idx hidx)) (hFn _), hno fun hG => ?_⟩
  obtain ⟨idx, hidx, hpos⟩ := hiff.mp hG
  exact hzero idx hidx hpos

/-- **C175**, refuted. -/
theorem C175_refuted : ¬ C175_Claim := by
  intro hc
  obtain ⟨srt, hs⟩ : ∃ srt : List ℝ → List ℕ, ∀ l, IsArgsort (srt l) l := exists_argsort
  obtain ⟨a, k, _, _, hk, hp, he, hr, hM, hlt, _, _, _, hno⟩ := C175_zero ⟨fun A => A, id⟩ srt hs
  obtain ⟨G, hG⟩ := hc 1 _ srt a k one_pos hs hk hp he hr (fun _ => rfl) hM hlt
  exact hno [] _ _ (hG [] [])

/-- Concrete case of the hypotheses of `C175_iff`, `C175_data`, `C175_spacing` and `C174_finite`: data 0 and 3, box kernels of
radius 1, default points. -/
example (srt : List ℝ → List ℕ) (hs : ∀ l, IsArgsort (srt l) l) : ∃ (E : Ext) (a : KDEArgs 1) (k : KDE 1) (pts q : Pts)
    (out : List ℝ), KDE.init E a = .ok k ∧ a.points = .none ∧ a.extrema = none ∧ a.reflect = .none ∧
      k.kernel.dist.finite = true ∧ (Spec.kernelMatrix k.covariance k.bandwidth).PosDef ∧ (k.points srt).1 = .ok pts ∧
      (∀ j, j + 1 < (pts.toRows.getD 0 []).length → (pts.toRows.getD 0 []).getD (j + 1) 0
        - (pts.toRows.getD 0 []).getD j 0 < 2 * Real.sqrt (Spec.kernelMatrix k.covariance k.bandwidth 0 0)) ∧
      (k.cdf E srt q).1 = .ok out := by
  obtain ⟨a, k, hk, hp, he, hr, hD, hM1, hw, e1, e2⟩ := two_boxes ⟨fun A => A, id⟩ (r := 3) (by norm_num)
  have hM : (Spec.kernelMatrix k.covariance k.bandwidth).PosDef := by rw [hM1]; exact Matrix.PosDef.one
  have hlt : ∀ i, (k.extrema i).1 < (k.extrema i).2 := by
    intro i
    obtain rfl : i = 0 := Subsingleton.elim _ _
    rw [e1, e2]
    norm_num
  obtain ⟨pts, hpts, hlen, hsp⟩ := default_points_spaced hk one_pos hs hp (fun _ => rfl) hlt
  have hstep : ∀ j, j + 1 < (pts.toRows.getD 0 []).length → (pts.toRows.getD 0 []).getD (j + 1) 0
        - (pts.toRows.getD 0 []).getD j 0 < 2 * Real.sqrt (Spec.kernelMatrix k.covariance k.bandwidth 0 0) := by
    intro j hj
    obtain ⟨n, hn3, _, hl, hv⟩ := hsp 0
    have hl : (pts.toRows.getD 0 []).length = n + 1 := hl
    have hv : ∀ m : ℕ, m ≤ n → (pts.toRows.getD 0 [])[m]? = _ := hv
    generalize pts.toRows.getD 0 [] = row at hl hv hj ⊢
    rw [hM1, List.getD_eq_getElem?_getD, List.getD_eq_getElem?_getD, hv _ (by omega), hv _ (by omega), e1, e2]
    have hnR : (3 : ℝ) ≤ n := by exact_mod_cast hn3
    simp only [Option.getD_some, Matrix.one_apply_eq, Real.sqrt_one, Nat.cast_add, Nat.cast_one]
    have : (3 + (1 + 1 / 10 ^ 8) - -(1 + 1 / 10 ^ 8)) / (n : ℝ) < 2 := by
      rw [div_lt_iff₀ (by linarith)]
      norm_num
      linarith
    linarith
  obtain ⟨G, hG⟩ := C175_spacing hk hs hp he hr hM (by rw [hD]; rfl) hpts hstep
  exact ⟨_, a, k, pts, _, _, hk, hp, he, hr, by rw [hD]; rfl, hM, hpts, hstep, hG [] []⟩

/-- Concrete case of the hypotheses of `C175_partial`: data 0 and 1, gaussian kernel, two dimensions of which the data
span both. -/
example (srt : List ℝ → List ℕ) : ∃ (E : Ext) (a : KDEArgs 2) (k : KDE 2),
    KDE.init E a = .ok k ∧ a.points = .none ∧ a.reflect = .none ∧ a.squeeze = false ∧
      (Spec.kernelMatrix k.covariance k.bandwidth).PosDef ∧ k.kernel.dist = .gaussian ∧
      ∀ i, (k.extrema i).1 < (k.extrema i).2 := by
  obtain ⟨f, hf⟩ := exists_quantile
  obtain ⟨k, hk, -, hM, hD⟩ := iid_reports ⟨fun A => A, f⟩ srt two_pos .gaussian (n := 2) (by norm_num)
    (fun i _ => (i : ℝ)) (some (1 : Matrix (Fin 2) (Fin 2) ℝ)) (by rintro c ⟨⟩; exact Matrix.PosDef.one) (.val (.num 1)) 1
    one_pos rfl Matrix.PosDef.one
  refine ⟨_, _, k, hk, rfl, rfl, rfl, hM, hD, fun i => ?_⟩
  have hdat : k.dataset = List.ofFn fun i : Fin 2 => fun _ => ((i : ℕ) : ℝ) := by
    obtain ⟨_, _, _, _, _, _, _, _, _, _, _, _, _, _, _, _, _, _, he⟩ := init_inv hk
    rw [he]
  have := C109_unweighted hf hk rfl rfl rfl rfl i
  have h0 := this (fun _ => 0) (by rw [hdat]; simp)
  have h1 := this (fun _ => 1) (by rw [hdat]; simp)
  linarith [h0.1, h1.2]

end Kalepy
