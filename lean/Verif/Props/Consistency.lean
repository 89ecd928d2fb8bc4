import Verif.Proofs.SampleCov
import Verif.Props.Frequencies

/-!
# C123: kernel density estimates of independent data tend to the density of the data
-/

namespace Kalepy

open MeasureTheory ProbabilityTheory Filter Topology Matrix

variable {d : ℕ} {Ω : Type*} [MeasurableSpace Ω] {P : Measure Ω} [IsProbabilityMeasure P]

/-! ## Specification -/

/-- Specification: `X 0, X 1, …` are independent random points with the probability density `f`. -/
structure Spec.DrawnFrom (P : Measure Ω) (X : ℕ → Ω → Fin d → ℝ) (f : (Fin d → ℝ) → ℝ) : Prop where
  measurable : ∀ i, Measurable (X i)
  indep : iIndepFun X P
  nonneg : ∀ y, 0 ≤ f y
  measurable_density : Measurable f
  law : ∀ i, P.map (X i) = volume.withDensity fun y => ENNReal.ofReal (f y)

/-- Specification: `F` is the function whose values `pdf` reports. -/
def Spec.Reports (E : Ext) (srt : List ℝ → List ℕ) (k : KDE d) (F : (Fin d → ℝ) → ℝ) : Prop :=
  ∀ pts : List (Fin d → ℝ), (k.pdf E srt (some (.rows (Spec.rowsOf pts))) .none .none false).1
    = .ok (.rows (Spec.rowsOf pts), ⟨[pts.length], pts.map F⟩)

/-- Specification: bandwidths that get small, but slowly enough for `n` points in `d` dimensions. -/
def Spec.Shrinks (d : ℕ) (h : ℕ → ℝ) : Prop :=
  (∀ n, 0 < h n) ∧ Tendsto h atTop (𝓝 0) ∧ Tendsto (fun n : ℕ => n * h n ^ d) atTop atTop

/-! ## The estimate -/

lemma kernelMatrix_const (C : Matrix (Fin d) (Fin d) ℝ) (b : ℝ) :
    Spec.kernelMatrix C (Matrix.of fun _ _ => b) = (b ^ 2) • C := by
  ext i j
  simp [Spec.kernelMatrix, mul_comm]

/-- The estimate with kernel matrix `M`. -/
noncomputable def estimate (D : Dist) (M : Matrix (Fin d) (Fin d) ℝ) (n : ℕ) (y : ℕ → Fin d → ℝ) (x : Fin d → ℝ) : ℝ :=
  (∑ i ∈ Finset.range n, unitKernel D M (x - y i)) / n

/-- The constructor without weights and boundaries, with one bandwidth. -/
lemma iid_init (E : Ext) (D : Dist) {n : ℕ} (hn : 1 < n) (y : ℕ → Fin d → ℝ) (C : Option (Matrix (Fin d) (Fin d) ℝ))
    (hC : ∀ c, C = some c → c.PosDef) (bw : BwArg) (b : ℝ)
    (hb : bwMatrix d n false bw = .ok (Matrix.of fun _ _ => b)) :
    ∃ k, KDE.init E
      { dataset := List.ofFn fun i : Fin n => y i
        kernel := .cls D
        bandwidth := bw
        covariance := C } = .ok k ∧ k.weights = none ∧ k.kernel.dist = D ∧
      k.covariance = C.getD (Spec.sampleCov (Spec.weighted (List.ofFn fun i : Fin n => y i) none)) ∧
      k.bandwidth = Matrix.of fun _ _ => b := by
  set data := List.ofFn fun i : Fin n => y i with hdata
  have hlen : data.length = n := by simp [hdata]
  have hne : data ≠ [] := by
    intro h
    rw [h] at hlen
    simp at hlen
    omega
  have hn1 : (1 : ℝ) < n := by exact_mod_cast hn
  have hf : 0 < covFact data none := by simp only [covFact, hlen]; linarith
  obtain ⟨dat, h1, h2⟩ := dataExtrema_spec hne
  have hcov : covArg data none C = .ok (C.getD (Spec.sampleCov (Spec.weighted data none))) := by
    cases C with
    | none => simp only [covArg, npCov_eq data hne none (by simp), if_neg (not_le.mpr hf), Option.getD_none]
    | some c => rfl
  have hpsd : (C.getD (Spec.sampleCov (Spec.weighted data none))).PosSemidef := by
    cases C with
    | none => exact sampleCov_posSemidef data hne none (by simp) hf
    | some c => exact (hC c rfl).posSemidef
  have hout : ∃ out, kernelOut E D n = .ok out := by
    unfold kernelOut
    split_ifs
    · exact ⟨_, rfl⟩
    · exact ⟨_, rfl⟩
  obtain ⟨out, hout⟩ := hout
  have heff : ∃ eff, effExtrema data (Kernel.init D (rescaleBw (Matrix.of fun _ _ => b) .none)
      (C.getD (Spec.sampleCov (Spec.weighted data none))) true 100000).matrix out = .ok eff := by
    simp only [effExtrema, h1]
    rw [if_pos]
    · exact ⟨_, rfl⟩
    · intro i
      simp only [Kernel.init, rescaleBw, Matrix.of_apply]
      exact mul_nonneg hpsd.diag_nonneg (sq_nonneg _)
  obtain ⟨eff, heff⟩ := heff
  refine ⟨_, init_of_stages (reflect := none) (weights := none) (D := D) (out := out) (eff := eff) (ext := eff)
    rfl hne rfl hcov ?_ rfl rfl ?_ heff rfl, rfl, rfl, rfl, rfl⟩
  · simpa [effNum, hlen] using hb
  · simpa [effNum, hlen] using hout

/-- What the estimator of independent data reports. -/
lemma iid_reports (E : Ext) (srt : List ℝ → List ℕ) (hd : 0 < d) (D : Dist) {n : ℕ} (hn : 1 < n) (y : ℕ → Fin d → ℝ)
    (C : Option (Matrix (Fin d) (Fin d) ℝ)) (hC : ∀ c, C = some c → c.PosDef) (bw : BwArg) (b : ℝ) (hb0 : 0 < b)
    (hb : bwMatrix d n false bw = .ok (Matrix.of fun _ _ => b))
    (hS : (C.getD (Spec.sampleCov (Spec.weighted (List.ofFn fun i : Fin n => y i) none))).PosDef) :
    ∃ k, KDE.init E
      { dataset := List.ofFn fun i : Fin n => y i
        kernel := .cls D
        bandwidth := bw
        covariance := C } = .ok k ∧
      Spec.Reports E srt k (estimate D ((b ^ 2) •
        C.getD (Spec.sampleCov (Spec.weighted (List.ofFn fun i : Fin n => y i) none))) n y) ∧
      (Spec.kernelMatrix k.covariance k.bandwidth).PosDef ∧ k.kernel.dist = D := by
  obtain ⟨k, hk, hw, hkd, hc, hbw⟩ := iid_init E D hn y C hC bw b hb
  set S := C.getD (Spec.sampleCov (Spec.weighted (List.ofFn fun i : Fin n => y i) none)) with hSdef
  have hM : Spec.kernelMatrix k.covariance k.bandwidth = (b ^ 2) • S := by rw [hc, hbw, kernelMatrix_const]
  have hMp : (Spec.kernelMatrix k.covariance k.bandwidth).PosDef := by rw [hM]; exact hS.smul (by positivity)
  refine ⟨k, hk, fun pts => ?_, hMp, hkd⟩
  rw [(C02_kde_density hk srt hd rfl hMp pts).2, hM, hw, hkd]
  congr 3
  refine List.map_congr_left fun x _ => ?_
  simp only [estimate, Spec.kernelSum, Spec.weighted, List.map_map, Function.comp_def, one_mul, List.map_ofFn, List.sum_ofFn]
  rw [Finset.sum_const, Finset.card_univ, Fintype.card_fin, nsmul_eq_mul, mul_one, Finset.sum_range, Finset.sum_div]
  rfl

/-! ## Convergence with a fixed covariance -/

lemma mean_density {X : ℕ → Ω → Fin d → ℝ} {f : (Fin d → ℝ) → ℝ} (hX : Spec.DrawnFrom P X f) (g : (Fin d → ℝ) → ℝ)
    (hg : Measurable g) : ∫ ω, g (X 0 ω) ∂P = ∫ y, g y * f y := by
  rw [← integral_map (hX.measurable 0).aemeasurable hg.aestronglyMeasurable, hX.law 0,
    integral_withDensity_eq_integral_toReal_smul (hX.measurable_density.ennreal_ofReal)
      (Eventually.of_forall fun _ => ENNReal.ofReal_lt_top)]
  refine integral_congr_ae (Eventually.of_forall fun y => ?_)
  simp only
  rw [ENNReal.toReal_ofReal (hX.nonneg y), smul_eq_mul, mul_comm]

lemma density_integrable {X : ℕ → Ω → Fin d → ℝ} {f : (Fin d → ℝ) → ℝ} (hX : Spec.DrawnFrom P X f) : Integrable f := by
  refine ⟨hX.measurable_density.aestronglyMeasurable, ?_⟩
  rw [hasFiniteIntegral_iff_ofReal (Eventually.of_forall hX.nonneg)]
  have h1 : P.map (X 0) Set.univ = 1 := by
    rw [Measure.map_apply (hX.measurable 0) MeasurableSet.univ]
    simp
  rw [hX.law 0, withDensity_apply _ MeasurableSet.univ, Measure.restrict_univ] at h1
  rw [h1]
  exact ENNReal.one_lt_top

lemma estimate_tendsto_of (hd : 0 < d) (D : Dist) {S : Matrix (Fin d) (Fin d) ℝ} (hS : S.PosDef) {X : ℕ → Ω → Fin d → ℝ}
    {f : (Fin d → ℝ) → ℝ} (hX : Spec.DrawnFrom P X f) {x : Fin d → ℝ} {h : ℕ → ℝ} (hh : Spec.Shrinks d h) {l : Filter ℕ}
    (hl : l ≤ atTop) {L : ℝ} (hx : Tendsto (fun n => ∫ y, unitKernel D ((h n ^ 2) • S) (x - y) * f y) l (𝓝 L)) {ε : ℝ}
    (hε : 0 < ε) :
    Tendsto (fun n : ℕ => P {ω | ε ≤ |estimate D ((h n ^ 2) • S) n (fun i => X i ω) x - L|}) l (𝓝 0) := by
  obtain ⟨h1, h2, h3⟩ := hh
  have hSn : ∀ n, ((h n ^ 2) • S).PosDef := fun n => hS.smul (pow_pos (h1 n) 2)
  refine avg_tendsto hX.measurable hl (fun i => by rw [hX.law i, hX.law 0]) (fun i j hij => hX.indep.indepFun hij)
    (fun n y => unitKernel D ((h n ^ 2) • S) (x - y)) (fun n => (measurable_unitKernel _ _).comp (by fun_prop))
    (fun n y => unitKernel_nonneg hd D (hSn n) _)
    (fun n => 1 / (Real.sqrt ((h n ^ 2) • S).det * D.norm d)) (fun n y => unitKernel_le hd D (hSn n) _) ?_ ?_ hε
  · have hB := mul_pos (Real.sqrt_pos.mpr hS.det_pos) (D.norm_pos d hd)
    have : Tendsto (fun n : ℕ => 1 / (Real.sqrt S.det * D.norm d) * (n * h n ^ d)⁻¹) l (𝓝 0) := by
      simpa using (h3.inv_tendsto_atTop.const_mul (1 / (Real.sqrt S.det * D.norm d))).mono_left hl
    refine this.congr fun n => ?_
    have hp := h1 n
    rw [det_smul, Fintype.card_fin, ← pow_mul, mul_comm 2 d, pow_mul, Real.sqrt_mul (by positivity),
      Real.sqrt_sq (by positivity)]
    rw [mul_inv]
    field_simp
  · refine hx.congr fun n => ?_
    rw [mean_density hX (fun y => unitKernel D ((h n ^ 2) • S) (x - y)) ((measurable_unitKernel _ _).comp (by fun_prop))]

lemma estimate_tendsto (hd : 0 < d) (D : Dist) {S : Matrix (Fin d) (Fin d) ℝ} (hS : S.PosDef) {X : ℕ → Ω → Fin d → ℝ}
    {f : (Fin d → ℝ) → ℝ} (hX : Spec.DrawnFrom P X f) {x : Fin d → ℝ} (hx : ContinuousAt f x) {h : ℕ → ℝ}
    (hh : Spec.Shrinks d h) {ε : ℝ} (hε : 0 < ε) :
    Tendsto (fun n : ℕ => P {ω | ε ≤ |estimate D ((h n ^ 2) • S) n (fun i => X i ω) x - f x|}) atTop (𝓝 0) :=
  estimate_tendsto_of hd D hS hX hh le_rfl (kernel_mean_tendsto hd D hS (density_integrable hX) hx hh.1 hh.2.1) hε

/-! ## Convergence with the covariance of the data -/

/-- Kernels with nearly the same matrix have nearly the same values. -/
lemma unitKernel_sandwich (hd : 0 < d) (D : Dist) {S M : Matrix (Fin d) (Fin d) ℝ} (hS : S.PosDef) (hM : M.PosDef) {r : ℝ}
    (hr : 1 < r) (h1 : ∀ u, r⁻¹ * Spec.dist2 S u ≤ Spec.dist2 M u ∧ Spec.dist2 M u ≤ r * Spec.dist2 S u)
    (h2 : r⁻¹ * Real.sqrt S.det < Real.sqrt M.det) (h3 : Real.sqrt M.det < r * Real.sqrt S.det) {h : ℝ} (hh : 0 < h)
    (u : Fin d → ℝ) :
    (r * Real.sqrt (r ^ d))⁻¹ * unitKernel D ((h ^ 2) • (r⁻¹ • S)) u ≤ unitKernel D ((h ^ 2) • M) u ∧
      unitKernel D ((h ^ 2) • M) u ≤ (r * Real.sqrt (r ^ d)) * unitKernel D ((h ^ 2) • (r • S)) u := by
  have hr0 : 0 < r := by linarith
  have hs := Real.sqrt_pos.mpr hS.det_pos
  have hm := Real.sqrt_pos.mpr hM.det_pos
  have hN := D.norm_pos d hd
  rw [unitKernel_scale _ _ hh, unitKernel_scale _ _ hh, unitKernel_scale _ _ hh]
  set v := h⁻¹ • u
  have hhd : 0 < h⁻¹ ^ d := by positivity
  have hq : 0 < Real.sqrt (r ^ d) := Real.sqrt_pos.mpr (by positivity)
  have e1 : unitKernel D (r⁻¹ • S) v = Real.sqrt (r ^ d) * (Spec.shape D (r * Spec.dist2 S v) / (Real.sqrt S.det * D.norm d)) := by
    unfold unitKernel
    rw [dist2_smul_matrix S (inv_ne_zero hr0.ne'), inv_inv, det_smul, Fintype.card_fin, Real.sqrt_mul (by positivity), inv_pow,
      Real.sqrt_inv]
    field_simp
  have e2 : unitKernel D (r • S) v
      = (Real.sqrt (r ^ d))⁻¹ * (Spec.shape D (r⁻¹ * Spec.dist2 S v) / (Real.sqrt S.det * D.norm d)) := by
    unfold unitKernel
    rw [dist2_smul_matrix S hr0.ne', det_smul, Fintype.card_fin, Real.sqrt_mul (by positivity)]
    field_simp
  have k1 : r⁻¹ * (Spec.shape D (r * Spec.dist2 S v) / (Real.sqrt S.det * D.norm d)) ≤ unitKernel D M v := by
    unfold unitKernel
    have a1 := shape_antitone D (h1 v).2
    have a0 := shape_nonneg' D (r * Spec.dist2 S v)
    have : r⁻¹ * (Spec.shape D (r * Spec.dist2 S v) / (Real.sqrt S.det * D.norm d))
        = Spec.shape D (r * Spec.dist2 S v) / (r * Real.sqrt S.det * D.norm d) := by field_simp
    rw [this]
    refine div_le_div₀ (shape_nonneg' _ _) a1 (mul_pos hm hN) (mul_le_mul_of_nonneg_right h3.le hN.le)
  have k2 : unitKernel D M v ≤ r * (Spec.shape D (r⁻¹ * Spec.dist2 S v) / (Real.sqrt S.det * D.norm d)) := by
    unfold unitKernel
    have a1 := shape_antitone D (h1 v).1
    have a0 := shape_nonneg' D (Spec.dist2 M v)
    have : r * (Spec.shape D (r⁻¹ * Spec.dist2 S v) / (Real.sqrt S.det * D.norm d))
        = Spec.shape D (r⁻¹ * Spec.dist2 S v) / (r⁻¹ * Real.sqrt S.det * D.norm d) := by field_simp
    rw [this]
    refine div_le_div₀ (shape_nonneg' _ _) a1 (by positivity) (mul_le_mul_of_nonneg_right h2.le hN.le)
  constructor
  · rw [e1]
    calc _ = h⁻¹ ^ d * (r⁻¹ * (Spec.shape D (r * Spec.dist2 S v) / (Real.sqrt S.det * D.norm d))) := by
          field_simp
      _ ≤ _ := mul_le_mul_of_nonneg_left k1 hhd.le
  · rw [e2]
    calc _ ≤ h⁻¹ ^ d * (r * (Spec.shape D (r⁻¹ * Spec.dist2 S v) / (Real.sqrt S.det * D.norm d))) :=
          mul_le_mul_of_nonneg_left k2 hhd.le
      _ = _ := by field_simp

lemma estimate_sandwich (hd : 0 < d) (D : Dist) {S M : Matrix (Fin d) (Fin d) ℝ} (hS : S.PosDef) (hM : M.PosDef) {r : ℝ}
    (hr : 1 < r) (h1 : ∀ u, r⁻¹ * Spec.dist2 S u ≤ Spec.dist2 M u ∧ Spec.dist2 M u ≤ r * Spec.dist2 S u)
    (h2 : r⁻¹ * Real.sqrt S.det < Real.sqrt M.det) (h3 : Real.sqrt M.det < r * Real.sqrt S.det) {h : ℝ} (hh : 0 < h)
    (n : ℕ) (y : ℕ → Fin d → ℝ) (x : Fin d → ℝ) :
    (r * Real.sqrt (r ^ d))⁻¹ * estimate D ((h ^ 2) • (r⁻¹ • S)) n y x ≤ estimate D ((h ^ 2) • M) n y x ∧
      estimate D ((h ^ 2) • M) n y x ≤ (r * Real.sqrt (r ^ d)) * estimate D ((h ^ 2) • (r • S)) n y x := by
  simp only [estimate, ← mul_div_assoc, Finset.mul_sum]
  constructor
  · exact div_le_div_of_nonneg_right
      (Finset.sum_le_sum fun i _ => (unitKernel_sandwich hd D hS hM hr h1 h2 h3 hh _).1) (Nat.cast_nonneg _)
  · exact div_le_div_of_nonneg_right
      (Finset.sum_le_sum fun i _ => (unitKernel_sandwich hd D hS hM hr h1 h2 h3 hh _).2) (Nat.cast_nonneg _)

/-- Factors close to 1 do not matter. -/
lemma exists_factor (d : ℕ) {v ε : ℝ} (hε : 0 < ε) :
    ∃ r : ℝ, 1 < r ∧ (r * Real.sqrt (r ^ d)) * (v + ε / 2) < v + ε ∧ v - ε < (r * Real.sqrt (r ^ d))⁻¹ * (v - ε / 2) := by
  have hc : ContinuousAt (fun r : ℝ => r * Real.sqrt (r ^ d)) 1 := by fun_prop
  have h1 : Tendsto (fun r : ℝ => (r * Real.sqrt (r ^ d)) * (v + ε / 2)) (𝓝[>] 1) (𝓝 (1 * Real.sqrt (1 ^ d) * (v + ε / 2))) :=
    (hc.tendsto.mono_left nhdsWithin_le_nhds).mul_const _
  have h2 : Tendsto (fun r : ℝ => (r * Real.sqrt (r ^ d))⁻¹ * (v - ε / 2)) (𝓝[>] 1)
      (𝓝 ((1 * Real.sqrt (1 ^ d))⁻¹ * (v - ε / 2))) :=
    ((hc.tendsto.mono_left nhdsWithin_le_nhds).inv₀ (by simp)).mul_const _
  simp only [one_pow, Real.sqrt_one, mul_one, one_mul, inv_one] at h1 h2
  have e1 := h1.eventually (eventually_lt_nhds (b := v + ε) (by linarith))
  have e2 := h2.eventually (eventually_gt_nhds (show v - ε < v - ε / 2 by linarith))
  obtain ⟨r, ⟨ha, hb⟩, hr⟩ := ((e1.and e2).and self_mem_nhdsWithin).exists
  exact ⟨r, hr, ha, hb⟩

lemma sampleCov_symm (p : List ((Fin d → ℝ) × ℝ)) : (Spec.sampleCov p).IsSymm := by
  ext i j
  simp only [transpose_apply, Spec.sampleCov, of_apply]
  congr 3
  funext q
  ring

lemma measurable_sampleCov {X : ℕ → Ω → Fin d → ℝ} (hX : ∀ i, Measurable (X i)) (n : ℕ) :
    Measurable (β := Fin d → Fin d → ℝ) fun ω =>
      Spec.sampleCov (Spec.weighted (List.ofFn fun k : Fin n => X k ω) none) := by
  have hsum : ∀ (f : Ω → (Fin d → ℝ) → ℝ), (∀ k, Measurable fun ω => f ω (X k ω)) →
      Measurable fun ω => ((List.ofFn fun k : Fin n => X k ω).map (f ω)).sum := by
    intro f hf
    simp only [List.map_ofFn, List.sum_ofFn]
    exact Finset.measurable_fun_sum _ fun i _ => hf i
  have hx : ∀ (k : ℕ) (i : Fin d), Measurable fun ω => X k ω i := fun k i => (measurable_pi_apply i).comp (hX k)
  have hmean : ∀ i : Fin d, Measurable fun ω => Spec.mean (Spec.weighted (List.ofFn fun k : Fin n => X k ω) none) i := by
    intro i
    simp only [Spec.mean, Spec.weighted, List.map_map, Function.comp_def, one_mul]
    exact (hsum (fun _ y => y i) fun k => hx k i).div (hsum (fun _ _ => 1) fun k => measurable_const)
  refine measurable_pi_iff.mpr fun i => measurable_pi_iff.mpr fun j => ?_
  simp only [Spec.sampleCov, of_apply]
  have h1 := hmean i
  have h2 := hmean j
  generalize hm : (fun ω => Spec.mean (Spec.weighted (List.ofFn fun k : Fin n => X k ω) none)) = m at *
  have hmω : ∀ ω, Spec.mean (Spec.weighted (List.ofFn fun k : Fin n => X k ω) none) = m ω := fun ω => congrFun hm ω
  simp only [hmω] at h1 h2 ⊢
  simp only [Spec.weighted, List.map_map, Function.comp_def, one_mul]
  refine (hsum (fun ω y => (y i - m ω i) * (y j - m ω j)) fun k => ((hx k i).sub h1).mul ((hx k j).sub h2)).div ?_
  simp only [List.map_const', List.sum_replicate]
  simp

omit [IsProbabilityMeasure P] in
/-- The coordinates have second moments. -/
lemma coord_memLp {X : ℕ → Ω → Fin d → ℝ} {f : (Fin d → ℝ) → ℝ} (hX : Spec.DrawnFrom P X f)
    (hmom : Integrable fun y => ‖y‖ ^ 2 * f y) (i : Fin d) : MemLp (fun ω => X 0 ω i) 2 P := by
  have hm : Measurable fun ω => X 0 ω i := (measurable_pi_apply i).comp (hX.measurable 0)
  rw [memLp_two_iff_integrable_sq hm.aestronglyMeasurable]
  have h1 : Integrable (fun y : Fin d → ℝ => y i ^ 2) (P.map (X 0)) := by
    rw [hX.law 0, integrable_withDensity_iff_integrable_smul' hX.measurable_density.ennreal_ofReal
      (Eventually.of_forall fun _ => ENNReal.ofReal_lt_top)]
    have hmf := hX.measurable_density
    refine hmom.mono' (Measurable.aestronglyMeasurable (by fun_prop)) (Eventually.of_forall fun y => ?_)
    have h0 := hX.nonneg y
    rw [ENNReal.toReal_ofReal h0, smul_eq_mul, Real.norm_eq_abs, abs_mul, abs_of_nonneg h0, abs_of_nonneg (sq_nonneg _),
      mul_comm]
    refine mul_le_mul_of_nonneg_right ?_ h0
    rw [← sq_abs (y i)]
    exact pow_le_pow_left₀ (abs_nonneg _) (norm_le_pi_norm y i) 2
  exact (integrable_map_measure (Measurable.aestronglyMeasurable (by fun_prop)) (hX.measurable 0).aemeasurable).mp h1

/-- The kind of bandwidth meant by the theorems below: one number, or one of the names, or the default. -/
lemma bw_const {n : ℕ} {bw : BwVal} {b : ℝ} (hb : Spec.BwMeans d n bw b) :
    bwMatrix d n false (.val bw) = .ok (Matrix.of fun _ _ => b) := by
  cases bw with
  | num x =>
    simp only [Spec.BwMeans] at hb
    subst hb
    simp [bwMatrix, computeBw, Except.map]
  | str s =>
    simp only [Spec.BwMeans] at hb
    obtain ⟨hn, ⟨rfl, rfl⟩ | ⟨rfl, rfl⟩⟩ := hb
    · simp [bwMatrix, computeBw, Except.map, hn, scottFactor]
    · simp [bwMatrix, computeBw, Except.map, hn, silvermanFactor]
  | other => exact hb.elim

/-- The estimator misses the limit of the means with vanishing probability. -/
lemma consistent_core_of (hd : 0 < d) {X : ℕ → Ω → Fin d → ℝ} {f : (Fin d → ℝ) → ℝ} (hX : Spec.DrawnFrom P X f)
    (hmom : Integrable fun y => ‖y‖ ^ 2 * f y) {x : Fin d → ℝ} {L : ℝ} (D : Dist) (E : Ext)
    (srt : List ℝ → List ℕ) (bw : ℕ → BwArg) (h : ℕ → ℝ) (hh : Spec.Shrinks d h)
    (hL : ∀ r : ℝ, 0 < r → Tendsto (fun n => ∫ z, unitKernel D ((h n ^ 2) • (r • trueCov P (X 0))) (x - z) * f z) atTop (𝓝 L))
    (hb : ∀ n : ℕ, 1 < n → bwMatrix d n false (bw n) = .ok (Matrix.of fun _ _ => h n)) {ε : ℝ} (hε : 0 < ε) :
    Tendsto (fun n : ℕ => P {ω | ¬ ∃ k F,
      KDE.init E { dataset := List.ofFn fun i : Fin n => X i ω, kernel := .cls D, bandwidth := bw n } = .ok k ∧
      Spec.Reports E srt k F ∧ |F x - L| < ε}) atTop (𝓝 0) := by
  have hid : ∀ i, P.map (X i) = P.map (X 0) := fun i => by rw [hX.law i, hX.law 0]
  have hL2 := coord_memLp hX hmom
  have hac : P.map (X 0) ≪ volume := by rw [hX.law 0]; exact withDensity_absolutelyContinuous _ _
  have hS : (trueCov P (X 0)).PosDef := trueCov_posDef (hX.measurable 0) hL2 hac
  set S := trueCov P (X 0) with hSdef
  obtain ⟨r, hr, hr1, hr2⟩ := exists_factor d (v := L) hε
  have hr0 : 0 < r := by linarith
  set U := {M : Fin d → Fin d → ℝ | (Matrix.of M).IsSymm → (Matrix.of M).PosDef ∧
      (∀ u, r⁻¹ * Spec.dist2 S u ≤ Spec.dist2 (Matrix.of M) u ∧ Spec.dist2 (Matrix.of M) u ≤ r * Spec.dist2 S u) ∧
      r⁻¹ * Real.sqrt S.det < Real.sqrt (Matrix.of M).det ∧ Real.sqrt (Matrix.of M).det < r * Real.sqrt S.det} with hU
  have c1 := prob_nhds_tendsto (measurable_sampleCov hX.measurable)
    (sampleCov_tendsto hX.measurable hid (fun i j hij => hX.indep.indepFun hij) hL2) (U := U) (matrix_close hS hr)
  have c2 := estimate_tendsto_of hd D (hS.smul hr0) hX hh le_rfl (hL r hr0) (half_pos hε)
  have c3 := estimate_tendsto_of hd D (hS.smul (inv_pos.mpr hr0)) hX hh le_rfl (hL r⁻¹ (inv_pos.mpr hr0)) (half_pos hε)
  have hlim := (c1.add c2).add c3
  simp only [add_zero] at hlim
  refine tendsto_of_tendsto_of_tendsto_of_le_of_le' tendsto_const_nhds hlim (Eventually.of_forall fun _ => zero_le) ?_
  filter_upwards [eventually_gt_atTop 1] with n hn
  refine le_trans (measure_mono ?_) ((measure_union_le _ _).trans (add_le_add_left (measure_union_le _ _) _))
  intro ω hω
  by_contra hnot
  simp only [Set.mem_union, Set.mem_ofPred_eq, not_or, not_not, not_le] at hnot
  obtain ⟨⟨g1, g2⟩, g3⟩ := hnot
  obtain ⟨m1, m2, m3, m4⟩ := g1 (sampleCov_symm _)
  obtain ⟨k, hk, hrep, -⟩ := iid_reports E srt hd D hn (fun i => X i ω) none (by simp) (bw n) (h n) (hh.1 n) (hb n hn) m1
  refine hω ⟨k, _, hk, hrep, ?_⟩
  obtain ⟨s1, s2⟩ := estimate_sandwich hd D hS m1 hr m2 m3 m4 (hh.1 n) n (fun i => X i ω) x
  have hq : 0 < r * Real.sqrt (r ^ d) := mul_pos hr0 (Real.sqrt_pos.mpr (by positivity))
  rw [abs_lt] at g2 g3 ⊢
  simp only [Option.getD_none]
  constructor
  · have : (r * Real.sqrt (r ^ d))⁻¹ * (L - ε / 2) ≤ (r * Real.sqrt (r ^ d))⁻¹ *
        estimate D ((h n ^ 2) • (r⁻¹ • S)) n (fun i => X i ω) x :=
      mul_le_mul_of_nonneg_left (by linarith [g3.1]) (inv_pos.mpr hq).le
    have s1' : _ ≤ estimate D ((h n ^ 2) • Spec.sampleCov (Spec.weighted (List.ofFn fun i : Fin n => X i ω) none)) n
      (fun i => X i ω) x := s1
    linarith
  · have : (r * Real.sqrt (r ^ d)) * estimate D ((h n ^ 2) • (r • S)) n (fun i => X i ω) x
        ≤ (r * Real.sqrt (r ^ d)) * (L + ε / 2) :=
      mul_le_mul_of_nonneg_left (by linarith [g2.2]) hq.le
    have s2' : estimate D ((h n ^ 2) • Spec.sampleCov (Spec.weighted (List.ofFn fun i : Fin n => X i ω) none)) n
      (fun i => X i ω) x ≤ _ := s2
    linarith

/-- The estimator misses the density with vanishing probability. -/
lemma consistent_core (hd : 0 < d) {X : ℕ → Ω → Fin d → ℝ} {f : (Fin d → ℝ) → ℝ} (hX : Spec.DrawnFrom P X f)
    (hmom : Integrable fun y => ‖y‖ ^ 2 * f y) {x : Fin d → ℝ} (hx : ContinuousAt f x) (D : Dist) (E : Ext)
    (srt : List ℝ → List ℕ) (bw : ℕ → BwArg) (h : ℕ → ℝ) (hh : Spec.Shrinks d h)
    (hb : ∀ n : ℕ, 1 < n → bwMatrix d n false (bw n) = .ok (Matrix.of fun _ _ => h n)) {ε : ℝ} (hε : 0 < ε) :
    Tendsto (fun n : ℕ => P {ω | ¬ ∃ k F,
      KDE.init E { dataset := List.ofFn fun i : Fin n => X i ω, kernel := .cls D, bandwidth := bw n } = .ok k ∧
      Spec.Reports E srt k F ∧ |F x - f x| < ε}) atTop (𝓝 0) := by
  have hS : (trueCov P (X 0)).PosDef := trueCov_posDef (hX.measurable 0) (coord_memLp hX hmom) (by
    rw [hX.law 0]; exact withDensity_absolutelyContinuous _ _)
  exact consistent_core_of hd hX hmom D E srt bw h hh
    (fun r hr => kernel_mean_tendsto hd D (hS.smul hr) (density_integrable hX) hx hh.1 hh.2.1) hb hε

/-! ## C123 -/

/-- **C123.** Let the data be independent points with a density `f` that has second moments, and let the bandwidths
`h n` get small slowly enough.  Then, for every kernel, the `KDE` made from the first `n` points exists and its pdf at
any point of continuity of `f` is close to `f`, with a probability that tends to 1 as `n` grows. -/
theorem C123_consistent (hd : 0 < d) {X : ℕ → Ω → Fin d → ℝ} {f : (Fin d → ℝ) → ℝ} (hX : Spec.DrawnFrom P X f)
    (hmom : Integrable fun y => ‖y‖ ^ 2 * f y) {x : Fin d → ℝ} (hx : ContinuousAt f x) (D : Dist) (E : Ext)
    (srt : List ℝ → List ℕ) (bw : ℕ → BwVal) (h : ℕ → ℝ) (hh : Spec.Shrinks d h)
    (hb : ∀ n : ℕ, 1 < n → Spec.BwMeans d n (bw n) (h n)) {ε : ℝ} (hε : 0 < ε) :
    Tendsto (fun n : ℕ => P {ω | ¬ ∃ k F,
      KDE.init E { dataset := List.ofFn fun i : Fin n => X i ω, kernel := .cls D, bandwidth := .val (bw n) } = .ok k ∧
      Spec.Reports E srt k F ∧ |F x - f x| < ε}) atTop (𝓝 0) :=
  consistent_core hd hX hmom hx D E srt (fun n => .val (bw n)) h hh (fun n hn => bw_const (hb n hn)) hε

/-- The named bandwidths get small slowly enough. -/
lemma shrinks_power (d : ℕ) {c : ℝ} (hc : 0 < c) :
    Spec.Shrinks d fun n : ℕ => if n = 0 then 1 else ((n : ℝ) * c) ^ (-1 / ((d : ℝ) + 4)) := by
  have hd4 : (0 : ℝ) < d + 4 := by positivity
  refine ⟨fun n => ?_, ?_, ?_⟩
  · simp only
    split_ifs with hn
    · exact one_pos
    · have : (0 : ℝ) < n := by positivity
      exact Real.rpow_pos_of_pos (by positivity) _
  · have h1 : Tendsto (fun n : ℕ => ((n : ℝ) * c) ^ (-(1 / ((d : ℝ) + 4)))) atTop (𝓝 0) :=
      (tendsto_rpow_neg_atTop (by positivity)).comp (tendsto_natCast_atTop_atTop.atTop_mul_const hc)
    refine h1.congr' ?_
    filter_upwards [eventually_gt_atTop 0] with n hn
    rw [if_neg hn.ne', neg_div]
  · have h1 : Tendsto (fun n : ℕ => c⁻¹ * ((n : ℝ) * c) ^ (4 / ((d : ℝ) + 4))) atTop atTop :=
      ((tendsto_rpow_atTop (by positivity)).comp (tendsto_natCast_atTop_atTop.atTop_mul_const hc)).const_mul_atTop
        (inv_pos.mpr hc)
    refine h1.congr' ?_
    filter_upwards [eventually_gt_atTop 0] with n hn
    have hn0 : (0 : ℝ) < n * c := by positivity
    rw [if_neg hn.ne', ← Real.rpow_natCast, ← Real.rpow_mul hn0.le]
    have e : 4 / ((d : ℝ) + 4) = 1 + -1 / ((d : ℝ) + 4) * d := by field_simp; ring
    rw [e, Real.rpow_add hn0, Real.rpow_one]
    field_simp

/-- **C123 for the named bandwidths** "scott" and "silverman". -/
theorem C123_named (hd : 0 < d) {X : ℕ → Ω → Fin d → ℝ} {f : (Fin d → ℝ) → ℝ} (hX : Spec.DrawnFrom P X f)
    (hmom : Integrable fun y => ‖y‖ ^ 2 * f y) {x : Fin d → ℝ} (hx : ContinuousAt f x) (D : Dist) (E : Ext)
    (srt : List ℝ → List ℕ) (s : String) (hs : s = "scott" ∨ s = "silverman") {ε : ℝ} (hε : 0 < ε) :
    Tendsto (fun n : ℕ => P {ω | ¬ ∃ k F,
      KDE.init E { dataset := List.ofFn fun i : Fin n => X i ω, kernel := .cls D, bandwidth := .val (.str s) } = .ok k ∧
      Spec.Reports E srt k F ∧ |F x - f x| < ε}) atTop (𝓝 0) := by
  rcases hs with rfl | rfl
  · refine C123_consistent hd hX hmom hx D E srt (fun _ => .str "scott") _ (shrinks_power d one_pos) (fun n hn => ?_) hε
    simp only [if_neg (show n ≠ 0 by omega), mul_one]
    exact ⟨by positivity, Or.inl ⟨rfl, rfl⟩⟩
  · refine C123_consistent hd hX hmom hx D E srt (fun _ => .str "silverman") _
      (shrinks_power d (show (0 : ℝ) < ((d : ℝ) + 2) / 4 by positivity)) (fun n hn => ?_) hε
    simp only [if_neg (show n ≠ 0 by omega)]
    exact ⟨by positivity, Or.inr ⟨rfl, by rw [mul_div_assoc]⟩⟩

/-- **C123 for `KDE(data)`**: all arguments other than the data have their default values. -/
theorem C123_default (hd : 0 < d) {X : ℕ → Ω → Fin d → ℝ} {f : (Fin d → ℝ) → ℝ} (hX : Spec.DrawnFrom P X f)
    (hmom : Integrable fun y => ‖y‖ ^ 2 * f y) {x : Fin d → ℝ} (hx : ContinuousAt f x) (E : Ext)
    (srt : List ℝ → List ℕ) {ε : ℝ} (hε : 0 < ε) :
    Tendsto (fun n : ℕ => P {ω | ¬ ∃ k F,
      KDE.init E { dataset := List.ofFn fun i : Fin n => X i ω } = .ok k ∧
      Spec.Reports E srt k F ∧ |F x - f x| < ε}) atTop (𝓝 0) := by
  have := consistent_core hd hX hmom hx .gaussian E srt (fun _ => .none) _ (shrinks_power d one_pos) (fun n hn => ?_) hε
  · refine this.congr fun n => ?_
    rfl
  · simp only [if_neg (show n ≠ 0 by omega), mul_one]
    have hn0 : (0 : ℝ) < n := by positivity
    simp [bwMatrix, computeBw, Except.map, hn0, scottFactor]

/-- **C123 with a given covariance**: second moments are not needed. -/
theorem C123_given_covariance (hd : 0 < d) {X : ℕ → Ω → Fin d → ℝ} {f : (Fin d → ℝ) → ℝ} (hX : Spec.DrawnFrom P X f)
    {x : Fin d → ℝ} (hx : ContinuousAt f x) (D : Dist) (E : Ext) (srt : List ℝ → List ℕ)
    (C : Matrix (Fin d) (Fin d) ℝ) (hC : C.PosDef) (bw : ℕ → BwVal) (h : ℕ → ℝ) (hh : Spec.Shrinks d h)
    (hb : ∀ n : ℕ, 1 < n → Spec.BwMeans d n (bw n) (h n)) {ε : ℝ} (hε : 0 < ε) :
    Tendsto (fun n : ℕ => P {ω | ¬ ∃ k F,
      KDE.init E
        { dataset := List.ofFn fun i : Fin n => X i ω, kernel := .cls D, bandwidth := .val (bw n), covariance := some C }
          = .ok k ∧
      Spec.Reports E srt k F ∧ |F x - f x| < ε}) atTop (𝓝 0) := by
  refine tendsto_of_tendsto_of_tendsto_of_le_of_le' tendsto_const_nhds (estimate_tendsto hd D hC hX hx hh hε)
    (Eventually.of_forall fun _ => zero_le) ?_
  filter_upwards [eventually_gt_atTop 1] with n hn
  refine measure_mono fun ω hω => ?_
  by_contra hnot
  simp only [Set.mem_ofPred_eq, not_le] at hnot
  obtain ⟨k, hk, hrep, -⟩ := iid_reports E srt hd D hn (fun i => X i ω) (some C) (by rintro c ⟨⟩; exact hC) (.val (bw n)) (h n)
    (hh.1 n) (bw_const (hb n hn)) hC
  exact hω ⟨k, _, hk, hrep, hnot⟩

/-! ## The hypotheses can be met -/

/-- Every probability density is the density of some independent data. -/
lemma exists_drawnFrom {f : (Fin d → ℝ) → ℝ} (h0 : ∀ y, 0 ≤ f y) (hm : Measurable f)
    (h1 : ∫⁻ y, ENNReal.ofReal (f y) = 1) :
    ∃ (Ω : Type) (_ : MeasurableSpace Ω) (P : Measure Ω) (_ : IsProbabilityMeasure P) (X : ℕ → Ω → Fin d → ℝ),
      Spec.DrawnFrom P X f := by
  have hP : IsProbabilityMeasure ((volume : Measure (Fin d → ℝ)).withDensity fun y => ENNReal.ofReal (f y)) :=
    ⟨by rw [withDensity_apply _ MeasurableSet.univ, Measure.restrict_univ, h1]⟩
  refine ⟨ℕ → Fin d → ℝ, inferInstance,
    Measure.infinitePi fun _ : ℕ => (volume : Measure (Fin d → ℝ)).withDensity fun y => ENNReal.ofReal (f y), inferInstance,
    fun i ω => ω i, fun i => measurable_pi_apply i, ?_, h0, hm, fun i => ?_⟩
  · exact iIndepFun_infinitePi (X := fun _ y => y) (fun _ => measurable_id)
  · exact (measurePreserving_eval_infinitePi
      (fun _ : ℕ => (volume : Measure (Fin d → ℝ)).withDensity fun y => ENNReal.ofReal (f y)) i).map_eq

/-- Points drawn uniformly from the unit cube. -/
lemma exists_uniform_data (d : ℕ) :
    ∃ (Ω : Type) (_ : MeasurableSpace Ω) (P : Measure Ω) (_ : IsProbabilityMeasure P) (X : ℕ → Ω → Fin d → ℝ),
      Spec.DrawnFrom P X ((Set.Icc 0 1).indicator 1) ∧
      (Integrable fun y : Fin d → ℝ => ‖y‖ ^ 2 * (Set.Icc (0 : Fin d → ℝ) 1).indicator 1 y) ∧
      ∀ x : Fin d → ℝ, (∀ i, x i ∈ Set.Ioo 0 1) →
        ContinuousAt ((Set.Icc (0 : Fin d → ℝ) 1).indicator (1 : (Fin d → ℝ) → ℝ)) x := by
  have hf : (fun y : Fin d → ℝ => ENNReal.ofReal ((Set.Icc 0 1).indicator 1 y)) = (Set.Icc 0 1).indicator 1 := by
    funext y
    by_cases hy : y ∈ Set.Icc (0 : Fin d → ℝ) 1 <;> simp [hy]
  obtain ⟨Ω, mΩ, P, hP, X, hX⟩ := exists_drawnFrom (f := (Set.Icc (0 : Fin d → ℝ) 1).indicator 1)
    (fun y => Set.indicator_nonneg (fun _ _ => zero_le_one) y) (measurable_one.indicator measurableSet_Icc)
    (by rw [hf, lintegral_indicator_one measurableSet_Icc, Real.volume_Icc_pi]; simp)
  refine ⟨Ω, mΩ, P, hP, X, hX, ?_, fun x hx => ?_⟩
  · have e : (fun y : Fin d → ℝ => ‖y‖ ^ 2 * (Set.Icc (0 : Fin d → ℝ) 1).indicator 1 y)
        = (Set.Icc (0 : Fin d → ℝ) 1).indicator fun y => ‖y‖ ^ 2 := by
      funext y
      by_cases hy : y ∈ Set.Icc (0 : Fin d → ℝ) 1 <;> simp [hy]
    rw [e, integrable_indicator_iff measurableSet_Icc]
    exact (continuous_norm.pow 2).continuousOn.integrableOn_compact isCompact_Icc
  · refine ContinuousAt.congr (f := fun _ => (1 : ℝ)) continuousAt_const ?_
    have : ∀ i, ∀ᶠ y : Fin d → ℝ in 𝓝 x, y i ∈ Set.Ioo (0 : ℝ) 1 := fun i =>
      (continuous_apply i).continuousAt.eventually (Ioo_mem_nhds (hx i).1 (hx i).2)
    filter_upwards [eventually_all.mpr this] with y hy
    rw [Set.indicator_of_mem]
    · rfl
    · exact ⟨fun i => (hy i).1.le, fun i => (hy i).2.le⟩

/-- The pdf of `KDE(data)` at the centre of the unit square tends to 1, for data drawn uniformly from the square. -/
example (ε : ℝ) (hε : 0 < ε) (E : Ext) (srt : List ℝ → List ℕ) :
    ∃ (Ω : Type) (_ : MeasurableSpace Ω) (P : Measure Ω) (_ : IsProbabilityMeasure P) (X : ℕ → Ω → Fin 2 → ℝ),
      Tendsto (fun n : ℕ => P {ω | ¬ ∃ k F,
        KDE.init E { dataset := List.ofFn fun i : Fin n => X i ω } = .ok k ∧
        Spec.Reports E srt k F ∧ |F ![1 / 2, 1 / 2] - 1| < ε}) atTop (𝓝 0) := by
  obtain ⟨Ω, mΩ, P, hP, X, hX, hmom, hc⟩ := exists_uniform_data 2
  refine ⟨Ω, mΩ, P, hP, X, ?_⟩
  have h := C123_default two_pos hX hmom (x := ![1 / 2, 1 / 2]) (hc _ fun i => by fin_cases i <;> norm_num) E srt hε
  have e : (Set.Icc (0 : Fin 2 → ℝ) 1).indicator (1 : (Fin 2 → ℝ) → ℝ) ![1 / 2, 1 / 2] = 1 := by
    rw [Set.indicator_of_mem]
    · rfl
    · constructor <;> intro i <;> fin_cases i <;> norm_num
  simpa only [e] using h

end Kalepy
