import Verif.Props.GridPdf

/-!
# C175 and C176 with default arguments: one outlier among many data points
-/

namespace Kalepy

open MeasureTheory

/-- Data: all values are 0, except for the first, which is 1. -/
noncomputable def outlierAt (i : ℕ) : Fin 1 → ℝ := fun _ => if i = 0 then 1 else 0

lemma sum_first {n : ℕ} (hn : 0 < n) (f : ℝ → ℝ) :
    ∑ i : Fin n, f (outlierAt i 0) = f 1 + (n - 1) * f 0 := by
  obtain ⟨m, rfl⟩ := Nat.exists_eq_succ_of_ne_zero hn.ne'
  rw [Fin.sum_univ_succ]
  simp [outlierAt]

/-- The sample variance of the data is `1 / n`. -/
lemma outlier_cov {n : ℕ} (hn : 1 < n) (i j : Fin 1) :
    Spec.sampleCov (Spec.weighted (List.ofFn fun i : Fin n => outlierAt i) none) i j = 1 / n := by
  obtain rfl : i = 0 := Subsingleton.elim _ _
  obtain rfl : j = 0 := Subsingleton.elim _ _
  have hw : Spec.weighted (List.ofFn fun i : Fin n => outlierAt i) none
      = List.ofFn fun i : Fin n => (outlierAt i, (1 : ℝ)) := by
    simp [Spec.weighted, List.map_ofFn, Function.comp_def]
  have hn' : (1 : ℝ) < n := by exact_mod_cast hn
  have hmean : Spec.mean (List.ofFn fun i : Fin n => (outlierAt i, (1 : ℝ))) 0 = 1 / n := by
    unfold Spec.mean
    simp only [List.map_ofFn, List.sum_ofFn, Function.comp_apply, one_mul]
    rw [sum_first (by omega) fun x => x]
    simp
  rw [hw, Spec.sampleCov, Matrix.of_apply, hmean]
  simp only [List.map_ofFn, List.sum_ofFn, Function.comp_apply, one_mul]
  rw [sum_first (by omega) fun x => (x - 1 / n) * (x - 1 / n)]
  simp only [Finset.sum_const, Finset.card_univ, Fintype.card_fin, nsmul_eq_mul, one_pow, mul_one]
  rw [div_self (by linarith : (n : ℝ) ≠ 0)]
  have h1 : (n : ℝ) - 1 ≠ 0 := by linarith
  have h2 : (n : ℝ) ≠ 0 := by linarith
  field_simp
  ring

/-- Points in at most 200 equal steps from just below `-r` to just above `1 + r` are further than `r` from 0 and from 1. -/
lemma far_apart {r : ℝ} (hr0 : 0 < r) (hr1 : r < 1 / 1000) {N j : ℕ} (hN3 : 3 ≤ N) (hN : N ≤ 200) (hj : j ≤ N) {q : ℝ}
    (hq : q = 0 ∨ q = 1)
    (h1 : -r ≤ 0 - r * (1 + 1 / 10 ^ 8) + j * ((1 + r * (1 + 1 / 10 ^ 8) - (0 - r * (1 + 1 / 10 ^ 8))) / N) - q)
    (h2 : 0 - r * (1 + 1 / 10 ^ 8) + j * ((1 + r * (1 + 1 / 10 ^ 8) - (0 - r * (1 + 1 / 10 ^ 8))) / N) - q ≤ r) : False := by
  have hNR : (3 : ℝ) ≤ N := by exact_mod_cast hN3
  have hN2 : (N : ℝ) ≤ 200 := by exact_mod_cast hN
  set s : ℝ := (1 + r * (1 + 1 / 10 ^ 8) - (0 - r * (1 + 1 / 10 ^ 8))) / N with hs_def
  have hsN : s * N = 1 + r * (1 + 1 / 10 ^ 8) - (0 - r * (1 + 1 / 10 ^ 8)) := by
    rw [hs_def, div_mul_cancel₀]
    linarith
  have hs5 : 1 / 200 ≤ s := by
    rw [hs_def, le_div_iff₀ (by linarith)]
    linarith
  rcases Nat.eq_zero_or_pos j with h0 | h0
  · rw [h0, Nat.cast_zero, zero_mul] at h1 h2
    rcases hq with hq | hq <;> rw [hq] at h1 h2 <;> linarith
  rcases hj.eq_or_lt with h | h
  · rw [h, mul_comm (N : ℝ) s, hsN] at h1 h2
    rcases hq with hq | hq <;> rw [hq] at h1 h2 <;> linarith
  · have hj1 : (1 : ℝ) ≤ j := by exact_mod_cast h0
    have hj2 : (j : ℝ) + 1 ≤ N := by exact_mod_cast h
    have hlo : s ≤ j * s := le_mul_of_one_le_left (by linarith) hj1
    have hhi : (j + 1) * s ≤ N * s := mul_le_mul_of_nonneg_right hj2 (by linarith)
    rw [mul_comm (N : ℝ) s, hsN, add_mul, one_mul] at hhi
    rcases hq with hq | hq <;> rw [hq] at h1 h2 <;> linarith

lemma outlier_missed (E : Ext) (srt : List ℝ → List ℕ) (hs : ∀ l, IsArgsort (srt l) l) (D : Dist) (hD : D.finite = true)
    {n : ℕ} (hn : n = 100000) :
    ∃ (k : KDE 1) (pts : Pts) (F : (Fin 1 → ℝ) → ℝ),
      KDE.init E { dataset := List.ofFn fun i : Fin n => outlierAt i, kernel := .cls D } = .ok k ∧
      (k.points srt).1 = .ok pts ∧ Spec.IsGrid 1 pts.toRows ∧ Spec.Reports E srt k F ∧ ∫ y, F y = 1 ∧
      (∀ idx : Fin 1 → ℕ, (∀ i : Fin 1, idx i < (pts.toRows.getD i []).length) → F (Spec.node pts.toRows idx) = 0) ∧
      ∀ (history : List (Spec.Call 1)) (q : Pts) (out : List ℝ),
        ((history.foldl (fun k c => (Spec.call E srt k c).2) k).cdf E srt q).1 ≠ .ok out := by
  have hnR : (n : ℝ) = 10 ^ 5 := by rw [hn]; norm_num
  have hscott : scottFactor 1 n = 1 / 10 := by
    rw [scottFactor, hnR, ← Real.rpow_natCast, ← Real.rpow_mul (by norm_num)]
    norm_num
  obtain ⟨k, hk, hw, hkd, hc, hbw⟩ := iid_init E D (n := n) (by omega) outlierAt none (by simp) .none (1 / 10) (by
    simp only [bwMatrix, computeBw, if_true]
    rw [if_pos (by rw [hnR]; norm_num), hscott]
    rfl)
  have hM : Spec.kernelMatrix k.covariance k.bandwidth = Matrix.of fun _ _ => 1 / 10 ^ 7 := by
    rw [hc, hbw, kernelMatrix_const]
    ext i j
    rw [Matrix.smul_apply, Option.getD_none, outlier_cov (by omega), hnR]
    norm_num
  have hMp : (Spec.kernelMatrix k.covariance k.bandwidth).PosDef := by
    rw [hM]
    have : (Matrix.of fun _ _ => 1 / 10 ^ 7 : Matrix (Fin 1) (Fin 1) ℝ) = (1 / 10 ^ 7 : ℝ) • 1 := by
      ext i j
      obtain rfl : i = j := Subsingleton.elim _ _
      simp
    rw [this]
    exact Matrix.PosDef.one.smul (by norm_num)
  have hdata : ∀ x ∈ (List.ofFn fun i : Fin n => outlierAt i), x 0 = 0 ∨ x 0 = 1 := by
    intro x hx
    obtain ⟨i, rfl⟩ := (List.mem_ofFn' _ _).mp hx
    simp only [outlierAt]
    split_ifs <;> simp
  obtain ⟨e1, e2⟩ := C09_extrema hk rfl rfl (by rw [hkd]; exact hD) 0 0 1 ⟨by
      refine List.mem_map.mpr ⟨_, (List.mem_ofFn' _ _).mpr ⟨⟨1, by omega⟩, rfl⟩, ?_⟩
      simp [outlierAt], by
      refine List.mem_map.mpr ⟨_, (List.mem_ofFn' _ _).mpr ⟨⟨0, by omega⟩, rfl⟩, ?_⟩
      simp [outlierAt], fun v hv => by
      obtain ⟨x, hx, rfl⟩ := List.mem_map.mp hv
      rcases hdata x hx with h | h <;> rw [h] <;> norm_num⟩
  set r := Real.sqrt (Spec.kernelMatrix k.covariance k.bandwidth 0 0) with hr
  have hr2 : r ^ 2 = 1 / 10 ^ 7 := by rw [hr, hM, Real.sq_sqrt (by simp)]; rfl
  have hr0 : 0 < r := by rw [hr, hM]; exact Real.sqrt_pos.mpr (by simp)
  have hr1 : r < 1 / 1000 := by
    by_contra hcon
    push Not at hcon
    nlinarith
  have hlt : ∀ i, (k.extrema i).1 < (k.extrema i).2 := by
    intro i
    obtain rfl : i = 0 := Subsingleton.elim _ _
    rw [e1, e2]
    nlinarith
  have hF := reports_average hk srt one_pos rfl hMp
  set F := (fun x => ((Spec.weighted (List.ofFn fun i : Fin n => outlierAt i) k.weights).map fun p =>
        p.2 * Spec.kernelAt k.kernel.dist (Spec.kernelMatrix k.covariance k.bandwidth) (x - p.1)).sum
        / ((Spec.weighted (List.ofFn fun i : Fin n => outlierAt i) k.weights).map Prod.snd).sum)
  have hone : ∫ y, F y = 1 := by
    obtain ⟨F', hF', _, h1⟩ := C07_normalised hk srt one_pos rfl hMp
    rwa [reports_unique (fun pts => hF' [] pts) hF] at h1
  obtain ⟨pts, hpts, hlen, hsp⟩ := default_points_spaced hk one_pos hs rfl (fun _ => rfl) hlt
  obtain ⟨pts', hp', _, hiff, hno⟩ := C175_iff hk one_pos hs rfl (fun _ => rfl) hlt hF
  obtain rfl : pts = pts' := by rw [hpts] at hp'; exact Except.ok.inj hp'
  have hzero : ∀ idx : Fin 1 → ℕ, (∀ i : Fin 1, idx i < (pts.toRows.getD i []).length) →
      ¬ 0 < F (Spec.node pts.toRows idx) := by
    intro idx hidx
    rw [pdf_pos_iff hk srt one_pos rfl hMp hF]
    rintro ⟨p, hpm, -, hpos⟩
    obtain ⟨N, hN3, hN, hl, hv⟩ := hsp 0
    have hj := hidx 0
    rw [hl] at hj
    have hx : Spec.node pts.toRows idx 0
        = 0 - r * (1 + 1 / 10 ^ 8) + idx 0 * ((1 + r * (1 + 1 / 10 ^ 8) - (0 - r * (1 + 1 / 10 ^ 8))) / N) := by
      show (pts.toRows.getD (0 : Fin 1) []).getD (idx 0) 0 = _
      rw [List.getD_eq_getElem?_getD, hv _ (by omega), Option.getD_some, e1, e2]
    have hsq : (Spec.node pts.toRows idx 0 - p.1 0) ^ 2 ≤ r ^ 2 := by
      by_contra hcon
      push Not at hcon
      rw [hkd, dist2_dim_one, hM] at hpos
      rw [shape_eq_zero hD] at hpos
      · exact lt_irrefl _ hpos
      · rw [Matrix.of_apply, lt_div_iff₀ (by norm_num), one_mul, ← hr2]
        exact hcon
    have hab := abs_le.mp (abs_le_of_sq_le_sq hsq hr0.le)
    have hp01 : p.1 0 = 0 ∨ p.1 0 = 1 := by
      refine hdata _ ?_
      rw [hw] at hpm
      obtain ⟨x, hx, rfl⟩ := List.mem_map.mp hpm
      exact hx
    rw [hx] at hab
    exact far_apart hr0 hr1 hN3 hN (by omega) hp01 hab.1 hab.2
  have hFn : ∀ x, 0 ≤ F x := fun x => C05_kde_all hk srt one_pos [] _ _ _ _ _ _ _ (hF [x]) _ (by simp)
  refine ⟨k, pts, F, hk, hpts, isGrid_spaced hlen hsp hlt, hF, hone,
    fun idx hidx => le_antisymm (not_lt.mp (hzero idx hidx)) (hFn _), hno fun hG => ?_⟩
  obtain ⟨idx, hidx, hpos⟩ := hiff.mp hG
  exact hzero idx hidx hpos

/-- **C175**, refuted for default arguments.  100000 data points, all at 0 except for one at 1, and any of the kernels of finite
support; everything else, including the bandwidth, is left at its default.  Every default evaluation point misses all
kernels, the pdf is 0 at all of them and `cdf` never returns numbers. -/
theorem C175_outlier (E : Ext) (srt : List ℝ → List ℕ) (hs : ∀ l, IsArgsort (srt l) l) (D : Dist) (hD : D.finite = true) :
    ∃ (k : KDE 1) (pts : Pts) (F : (Fin 1 → ℝ) → ℝ),
      KDE.init E { dataset := List.ofFn fun i : Fin 100000 => outlierAt i, kernel := .cls D } = .ok k ∧
      (k.points srt).1 = .ok pts ∧ Spec.IsGrid 1 pts.toRows ∧ Spec.Reports E srt k F ∧ ∫ y, F y = 1 ∧
      (∀ idx : Fin 1 → ℕ, (∀ i : Fin 1, idx i < (pts.toRows.getD i []).length) → F (Spec.node pts.toRows idx) = 0) ∧
      ∀ (history : List (Spec.Call 1)) (q : Pts) (out : List ℝ),
        ((history.foldl (fun k c => (Spec.call E srt k c).2) k).cdf E srt q).1 ≠ .ok out :=
  outlier_missed E srt hs D hD rfl

/-- **C176**, why the error bound is needed, for default arguments: with the same data the pdf integrates to 1, but its values on
the grid of default evaluation points integrate to 0. -/
theorem C176_outlier (E : Ext) (srt : List ℝ → List ℕ) (hs : ∀ l, IsArgsort (srt l) l) (D : Dist) (hD : D.finite = true) :
    ∃ (k : KDE 1) (pts p : Pts) (arr : Arr) (F : (Fin 1 → ℝ) → ℝ),
      KDE.init E { dataset := List.ofFn fun i : Fin 100000 => outlierAt i, kernel := .cls D } = .ok k ∧
      (k.points srt).1 = .ok pts ∧ Spec.Reports E srt k F ∧ ∫ y, F y = 1 ∧
      (k.pdf E srt (some (.rows pts.toRows)) .none .none true).1 = .ok (p, arr) ∧
      trapzNd (arr.toND pts.toRows : NDArr 1 ℝ) pts.toRows = .ok 0 := by
  obtain ⟨k, pts, F, hk, hpts, hg, hF, hone, hzero, -⟩ := C175_outlier E srt hs D hD
  obtain ⟨p, arr, h1, h2⟩ := C176_values hF one_pos hg.1
  obtain ⟨M, hT, _, _, hsum⟩ := grid_masses hg (dens := arr.toND pts.toRows) rfl h2
  refine ⟨k, pts, p, arr, F, hk, hpts, hF, hone, h1, ?_⟩
  rw [C38_mass_sum hT, hsum, massBelow_congr (f' := fun _ => 0) (lastIdx_lt hg) fun j hj => hzero j hj]
  simp [Spec.massBelow, Spec.cellMass]

/-- Concrete case of the hypotheses of `C175_outlier` and `C176_outlier`: the parabola kernel, and a sorting function exists. -/
example : ∃ (srt : List ℝ → List ℕ) (D : Dist), (∀ l, IsArgsort (srt l) l) ∧ D.finite = true :=
  let ⟨srt, hs⟩ := exists_argsort
  ⟨srt, .parabola, hs, rfl⟩

end Kalepy
