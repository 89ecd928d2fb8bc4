import Verif.Props.Bandwidth
import Verif.Props.Evaluate
import Verif.Props.ResampleWitness

/-!
# C09: finite kernels vanish outside the reported extrema
-/

namespace Kalepy

open Matrix

variable {d : ℕ}

/-- Cauchy–Schwarz in the metric of a positive definite matrix: each coordinate is bounded by the square root
of the diagonal entry times the distance. -/
lemma sq_le_diag_mul_dist2 {M : Matrix (Fin d) (Fin d) ℝ} (hM : M.PosDef) (u : Fin d → ℝ) (i : Fin d) :
    u i ^ 2 ≤ M i i * Spec.dist2 M u := by
  obtain ⟨U, hU⟩ := cholesky_of_posDef hM
  have hs : M.IsSymm := hM.isHermitian
  have hUM := cholesky_mul hs hU
  have hdet : IsUnit M.det := hM.det_pos.ne'.isUnit
  have hUd : IsUnit (Uᵀ).det := by
    rw [Matrix.det_transpose]
    exact (cholesky_det_pos hU).ne'.isUnit
  obtain ⟨v, hv⟩ : ∃ v, Uᵀ *ᵥ v = u := ⟨(Uᵀ)⁻¹ *ᵥ u, by
    rw [Matrix.mulVec_mulVec, Matrix.mul_nonsing_inv _ hUd, Matrix.one_mulVec]⟩
  have h1 : Spec.dist2 M u = ∑ j, v j ^ 2 := by
    rw [← hv]
    exact dist2_coloured hdet (by simpa using hUM) v
  have h2 : M i i = ∑ j, Uᵀ i j ^ 2 := by
    rw [← hUM, Matrix.mul_apply]
    exact Finset.sum_congr rfl fun j _ => by simp [sq]
  rw [h1, h2, ← hv]
  exact Finset.sum_mul_sq_le_sq_mul_sq Finset.univ (fun j => Uᵀ i j) v

lemma shape_eq_zero {D : Dist} (hD : D.finite = true) {s : ℝ} (hs : 1 < s) : Spec.shape D s = 0 := by
  cases D <;> simp_all [Dist.finite, Spec.shape, not_le.mpr hs]

/-- **C09**, the extrema: without `extrema` and `reflect`, the extrema of a finite kernel are those of the data,
extended by the standard deviation of the kernel in each parameter, times `1 + 1e-8`. -/
theorem C09_extrema {E : Ext} {a : KDEArgs d} {k : KDE d} (h : KDE.init E a = .ok k) (he : a.extrema = none)
    (hr : a.reflect = .none) (hD : k.kernel.dist.finite = true) (i : Fin d) :
    ∀ mn mx, IsExtrema (a.dataset.map (· i)) mn mx →
      (k.extrema i).1 = mn - Real.sqrt (Spec.kernelMatrix k.covariance k.bandwidth i i) * (1 + 1 / 10 ^ 8) ∧
      (k.extrema i).2 = mx + Real.sqrt (Spec.kernelMatrix k.covariance k.bandwidth i i) * (1 + 1 / 10 ^ 8) := by
  intro mn mx hmm
  have hMk := (C18_matrix h).1
  obtain ⟨rows, w, cov, bw0, D, out, eff, ext, hrr, hne, _, _, _, hDD, _, hout, heff, hext, hk⟩ := init_inv h
  rw [hr] at hrr
  cases hrr
  have hdist : k.kernel.dist = D := by rw [hk]; rfl
  have hmat : (Kernel.init D (rescaleBw bw0 a.rescale) cov a.helper a.chunk).matrix
      = Spec.kernelMatrix k.covariance k.bandwidth := by rw [← hMk, hk]
  have hke : k.extrema = ext := by rw [hk]
  rw [he] at hext
  simp only [extremaArg, parseExtrema, Option.map_none] at hext
  cases hext
  rw [hdist] at hD
  simp only [kernelOut, hD, if_true] at hout
  cases hout
  rw [hmat] at heff
  unfold effExtrema at heff
  split at heff
  · rename_i hnn
    obtain ⟨dat, hd1, hd2⟩ := dataExtrema_spec hne
    rw [hd1] at heff
    cases heff
    obtain ⟨g1, g2, g3⟩ := hd2 i
    obtain ⟨e1, e2, e3⟩ := hmm
    have q1 : (dat i).1 = mn := le_antisymm (g3 _ e1).1 (e3 _ g1).1
    have q2 : (dat i).2 = mx := le_antisymm (e3 _ g2).2 (g3 _ e2).2
    have hle : (dat i).1 ≤ (dat i).2 := (g3 _ g1).2
    have hp : 0 ≤ Real.sqrt (Spec.kernelMatrix k.covariance k.bandwidth i i) * (1 + numPad) :=
      mul_nonneg (Real.sqrt_nonneg _) (by norm_num [numPad])
    have hab : (dat i).1 - Real.sqrt (Spec.kernelMatrix k.covariance k.bandwidth i i) * (1 + numPad)
        ≤ (dat i).2 + Real.sqrt (Spec.kernelMatrix k.covariance k.bandwidth i i) * (1 + numPad) := by linarith
    rw [hke]
    refine ⟨?_, ?_⟩
    · change min _ _ = _
      rw [min_eq_left hab, q1, numPad]
    · change max _ _ = _
      rw [max_eq_right hab, q2, numPad]
  · cases heff

/-- A finite kernel does not reach beyond its standard deviation. -/
lemma kernelSum_eq_zero {D : Dist} (hD : D.finite = true) {M : Matrix (Fin d) (Fin d) ℝ} (hM : M.PosDef)
    (wdata : List ((Fin d → ℝ) × ℝ)) (x : Fin d → ℝ) (i : Fin d)
    (h : ∀ p ∈ wdata, Real.sqrt (M i i) < |x i - p.1 i|) : Spec.kernelSum D M wdata x = 0 := by
  unfold Spec.kernelSum
  refine List.sum_eq_zero fun y hy => ?_
  obtain ⟨p, hp, rfl⟩ := List.mem_map.mp hy
  have h1 := h p hp
  have hMi : 0 < M i i := hM.diag_pos
  have h2 := sq_le_diag_mul_dist2 hM (x - p.1) i
  have h3 : M i i < (x i - p.1 i) ^ 2 := by
    rw [← sq_abs, ← Real.sq_sqrt hMi.le]
    exact pow_lt_pow_left₀ h1 (Real.sqrt_nonneg _) (by norm_num)
  have h4 : 1 < Spec.dist2 M (x - p.1) := by
    simp only [Pi.sub_apply] at h2
    by_contra hc
    push Not at hc
    nlinarith
  rw [shape_eq_zero hD h4, mul_zero]

/-- **C09.** For the box, parabola and triweight kernels, without reflection, the density and the pdf vanish
at every point with some coordinate outside the extrema of the KDE. -/
theorem C09_zero_outside {E : Ext} {a : KDEArgs d} {k : KDE d} (h : KDE.init E a = .ok k) (srt : List ℝ → List ℕ)
    (he : a.extrema = none) (hr : a.reflect = .none) (hD : k.kernel.dist.finite = true)
    (hM : (Spec.kernelMatrix k.covariance k.bandwidth).PosDef) (hd : 0 < d) (pts : List (Fin d → ℝ))
    (probability : Bool) :
    ∃ vals, (k.density E srt (some (.rows (Spec.rowsOf pts))) .none .none false probability).1
        = .ok (.rows (Spec.rowsOf pts), ⟨[pts.length], vals⟩) ∧
      ∀ (n : ℕ) (x : Fin d → ℝ), pts[n]? = some x →
        (∃ i, x i < (k.extrema i).1 ∨ (k.extrema i).2 < x i) → vals[n]? = some 0 := by
  have hne := (C16_weights h).1
  have key : ∀ x : Fin d → ℝ, (∃ i, x i < (k.extrema i).1 ∨ (k.extrema i).2 < x i) →
      Spec.kernelSum k.kernel.dist (Spec.kernelMatrix k.covariance k.bandwidth)
        (Spec.weighted a.dataset k.weights) x = 0 := by
    rintro x ⟨i, hx⟩
    obtain ⟨dat, _, hd2⟩ := dataExtrema_spec hne
    obtain ⟨e1, e2⟩ := C09_extrema h he hr hD i _ _ (hd2 i)
    refine kernelSum_eq_zero hD hM _ x i fun p hp => ?_
    have hmem : p.1 ∈ a.dataset := by
      cases hw : k.weights with
      | none =>
        rw [hw] at hp
        obtain ⟨y, hy, rfl⟩ := List.mem_map.mp hp
        exact hy
      | some w =>
        rw [hw] at hp
        exact (List.of_mem_zip hp).1
    have hb := (hd2 i).2.2 _ (List.mem_map_of_mem hmem)
    have hs : 0 ≤ Real.sqrt (Spec.kernelMatrix k.covariance k.bandwidth i i) := Real.sqrt_nonneg _
    have hMi : 0 < Real.sqrt (Spec.kernelMatrix k.covariance k.bandwidth i i) := Real.sqrt_pos.mpr hM.diag_pos
    rcases hx with hx | hx
    · rw [abs_of_neg (by nlinarith [hb.1])]
      nlinarith [hb.1]
    · rw [abs_of_pos (by nlinarith [hb.2])]
      nlinarith [hb.2]
  cases probability with
  | false =>
    refine ⟨_, (C02_kde_density h srt hd hr hM pts).1, fun n x hn hx => ?_⟩
    simp [List.getElem?_map, hn, key x hx]
  | true =>
    refine ⟨_, (C02_kde_density h srt hd hr hM pts).2, fun n x hn hx => ?_⟩
    simp [List.getElem?_map, hn, key x hx]

/-- Pairs given for all parameters are taken as they are. -/
lemma parseExtremaList_extremaList {dat e ext : Fin d → ℝ × ℝ}
    (h : parseExtremaList dat (extremaList e) = .ok ext) (i : Fin d) : ext i = e i := by
  have hn : ¬ ((extremaList e).all ExtElem.scalar = true) := by
    rw [List.all_eq_true]
    intro hall
    have := hall (.seq [some (e i).1, some (e i).2])
      (List.mem_ofFn.mpr ⟨i, rfl⟩)
    simp [ExtElem.scalar] at this
  unfold parseExtremaList at h
  rw [if_neg (fun hc => hn hc.1), dif_pos (by simp [extremaList]), if_neg hn] at h
  split at h
  · cases h
  · split at h
    · cases h
      have : (extremaList e).get (Fin.cast (by simp [extremaList]) i) = .seq [some (e i).1, some (e i).2] := by
        simp only [extremaList, List.get_eq_getElem, List.getElem_ofFn]
        rfl
      change fillExtrema _ _ = _
      rw [this]
      rfl
    · cases h

lemma parseExtremaOf_extremaList (hd : 0 < d) {data : List (Fin d → ℝ)} (hne : data ≠ []) (e : Fin d → ℝ × ℝ) :
    ∃ ext, parseExtremaOf data (some (extremaList e)) = .ok ext ∧ ∀ i, ext i = e i := by
  obtain ⟨dat, h1, _⟩ := dataExtrema_spec hne
  have : ∃ ext, parseExtremaOf data (some (extremaList e)) = .ok ext := by
    simp only [parseExtremaOf, h1, parseExtrema, parseExtremaList]
    have hn : ¬ ((extremaList e).all ExtElem.scalar = true) := by
      rw [List.all_eq_true]
      intro hall
      have := hall (.seq [some (e ⟨0, hd⟩).1, some (e ⟨0, hd⟩).2]) (List.mem_ofFn.mpr ⟨_, rfl⟩)
      simp [ExtElem.scalar] at this
    rw [if_neg (fun hc => hn hc.1), dif_pos (by simp [extremaList]), if_neg hn, if_neg, if_pos]
    · exact ⟨_, rfl⟩
    · rw [List.all_eq_true]
      intro x hx
      obtain ⟨i, rfl⟩ := List.mem_ofFn.mp hx
      rfl
    · rw [Bool.not_eq_true, List.any_eq_false]
      intro x hx
      obtain ⟨i, rfl⟩ := List.mem_ofFn.mp hx
      simp
  obtain ⟨ext, he⟩ := this
  refine ⟨ext, he, fun i => ?_⟩
  simp only [parseExtremaOf, h1, parseExtrema] at he
  exact parseExtremaList_extremaList he i

/-- The extrema of a KDE with finite kernel are a proper box. -/
lemma extrema_lt {E : Ext} {a : KDEArgs d} {k : KDE d} (h : KDE.init E a = .ok k)
    (he : a.extrema = none) (hr : a.reflect = .none) (hD : k.kernel.dist.finite = true)
    (hM : (Spec.kernelMatrix k.covariance k.bandwidth).PosDef) (i : Fin d) : (k.extrema i).1 < (k.extrema i).2 := by
  obtain ⟨dat, _, hd2⟩ := dataExtrema_spec (C16_weights h).1
  obtain ⟨e1, e2⟩ := C09_extrema h he hr hD i _ _ (hd2 i)
  have hMi : 0 < Real.sqrt (Spec.kernelMatrix k.covariance k.bandwidth i i) := Real.sqrt_pos.mpr hM.diag_pos
  have hle : (dat i).1 ≤ (dat i).2 := ((hd2 i).2.2 _ (hd2 i).1).2
  rw [e1, e2]; nlinarith

/-- **C09**, the default points exist for every dataset, also one without any spread. -/
theorem C09_grid_exists {E : Ext} {a : KDEArgs d} {k : KDE d} (h : KDE.init E a = .ok k) (srt : List ℝ → List ℕ)
    (hs : ∀ l, IsArgsort (srt l) l) (he : a.extrema = none) (hr : a.reflect = .none)
    (hD : k.kernel.dist.finite = true) (hM : (Spec.kernelMatrix k.covariance k.bandwidth).PosDef) (hd : 0 < d)
    (hp : a.points = .none) : ∃ pts, (k.points srt).1 = .ok pts := by
  have hne := (C16_weights h).1
  obtain ⟨_, _, _, _, _, _, _, _, _, _, _, _, _, _, _, _, _, _, hk⟩ := init_inv h
  have hk1 : k.pointsVal = none := by rw [hk]
  have hk2 : k.pointsSpec = .none := by rw [hk, hp]
  have hk3 : k.dataset = a.dataset := by rw [hk]
  obtain ⟨ext, e1, e2⟩ := parseExtremaOf_extremaList hd hne k.extrema
  have hw : ValidWeights k.dataset.length k.weights := by
    cases hkw : k.weights with
    | none => trivial
    | some w =>
      have := stored_valid h hkw
      exact ⟨by rw [hk3]; exact this.1, this.2.1, validW_sum this⟩
  obtain ⟨rows, hrows⟩ := C45_succeeds_extrema srt hs k.dataset (by rw [hk3]; exact hne) .none (Or.inl rfl)
    (some (extremaList k.extrema)) k.weights hw 3 200 (by norm_num) (by norm_num) (some 0) (Real.sqrt 10)
    (some k.bandwidth) ext (by rw [hk3]; exact e1) (fun i => by rw [e2]; exact extrema_lt h he hr hD hM i)
  refine ⟨k.shapePoints rows, ?_⟩
  simp only [KDE.points, hk1, KDE.computePoints, hk2, hrows]

/-- **C09**, the default grid: without a specification of the points, the default points in each parameter are
strictly increasing and run exactly from the lower to the upper extremum, so that they enclose every point at
which the density does not vanish. -/
theorem C09_grid {E : Ext} {a : KDEArgs d} {k : KDE d} (h : KDE.init E a = .ok k) (srt : List ℝ → List ℕ)
    (he : a.extrema = none) (hr : a.reflect = .none) (hD : k.kernel.dist.finite = true)
    (hM : (Spec.kernelMatrix k.covariance k.bandwidth).PosDef) (hp : a.points = .none)
    (hsq : a.squeeze = true → d = 1) (pts : Pts)
    (hpts : (k.points srt).1 = .ok pts) (i : Fin d) :
    ∃ l : List ℝ, pts.toRows[(i : ℕ)]? = some l ∧ l.Pairwise (· < ·) ∧
      l.head? = some (k.extrema i).1 ∧ l.getLast? = some (k.extrema i).2 := by
  have hne := (C16_weights h).1
  obtain ⟨_, _, _, _, _, _, _, _, _, _, _, _, _, _, _, _, _, _, hk⟩ := init_inv h
  have hk1 : k.pointsVal = none := by rw [hk]
  have hk2 : k.pointsSpec = .none := by rw [hk, hp]
  have hk3 : k.dataset = a.dataset := by rw [hk]
  have hk4 : k.squeeze = a.squeeze := by rw [hk]
  simp only [KDE.points, hk1] at hpts
  cases hc : k.computePoints srt with
  | error e => rw [hc] at hpts; cases hpts
  | ok rows =>
    rw [hc] at hpts
    cases hpts
    rw [KDE.computePoints, hk2] at hc
    obtain ⟨hlen, ext, hext, hall⟩ := C45_edges srt _ _ _ _ _ _ _ _ _ (by positivity) _ hc
    obtain ⟨l, hl, n, w, hn1, hn2, hw, hsp⟩ := hall i .auto rfl
    have hn : 0 < n := lt_of_lt_of_le (by norm_num) (hn2 (by norm_num))
    have hsp := hsp hn
    simp only [Option.getD_some, zero_mul, sub_zero, add_zero] at hsp
    have hexteq : ext i = k.extrema i := by
      rw [parseExtremaOf] at hext
      split at hext
      · cases hext
      · exact parseExtremaList_extremaList hext i
    rw [hexteq] at hsp
    have hlt := extrema_lt h he hr hD hM i
    obtain ⟨h1, h2, h3⟩ := equallySpaced_increasing hsp (by omega) hlt
    refine ⟨l, ?_, h1, ?_, ?_⟩
    · unfold KDE.shapePoints
      rw [hk4]
      split
      · rename_i hs
        have := hsq hs
        subst this
        have hi : (i : ℕ) = 0 := by omega
        rw [hi] at hl ⊢
        simp [Pts.toRows, List.getD, hl]
      · exact hl
    · rw [List.head?_eq_getElem?]; exact h2
    · rw [List.getLast?_eq_getElem?, hsp.1]; exact h3

/-- Concrete case of the hypotheses of the theorems of this file: a 2D box kernel with correlated covariance. -/
example : ∃ (E : Ext) (a : KDEArgs 2) (k : KDE 2), KDE.init E a = .ok k ∧ a.extrema = none ∧ a.reflect = .none ∧
    a.points = .none ∧ k.kernel.dist.finite = true ∧ (Spec.kernelMatrix k.covariance k.bandwidth).PosDef ∧
    Spec.kernelMatrix k.covariance k.bandwidth 0 1 ≠ 0 := by
  obtain ⟨k, hk, _⟩ := C16_accepted (d := 2) ⟨fun A => A, id⟩ [![0, 1], ![2, 5]] (by simp) [1, 3]
    ⟨rfl, by simp, 1, by simp, by norm_num⟩ .box rfl 1 !![1, 4 / 5; 4 / 5, 1]
    (fun i => by fin_cases i <;> norm_num)
  obtain ⟨B, hB, hR⟩ := C18_bandwidth hk
  obtain ⟨_, _, cov, bw, D', _, _, _, _, _, _, hc, hb, hD', _, _, _, _, he⟩ := init_inv hk
  cases hc
  cases hD'
  cases hb
  have hM : Spec.kernelMatrix k.covariance k.bandwidth = !![1, 4 / 5; 4 / 5, 1] := by
    rw [he]
    ext i j
    simp [Spec.kernelMatrix, rescaleBw]
  refine ⟨_, _, k, hk, rfl, rfl, rfl, by rw [he]; rfl, by rw [hM]; exact rho_posDef, ?_⟩
  rw [hM]
  norm_num

end Kalepy
