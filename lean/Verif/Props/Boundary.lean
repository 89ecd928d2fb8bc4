import Verif.Props.TotalVariation
import Verif.Props.ReflectDims
import Verif.Props.ResampleReflect

/-!
# C125: the pdf of independent data with boundaries tends to the density of the data, up to the boundaries
-/

namespace Kalepy

open MeasureTheory ProbabilityTheory Filter Topology Matrix

variable {d : ℕ} {Ω : Type*} [MeasurableSpace Ω] {P : Measure Ω} [IsProbabilityMeasure P]

/-! ## The estimator -/

/-- The data themselves and their mirror images. -/
def images (d : ℕ) (rows : List ReflRow) : List ((Fin d → ℝ) → Fin d → ℝ) :=
  id :: (List.finRange d).flatMap fun j : Fin d => (Spec.bounds (rows.getD j none)).map fun b => Spec.mirror j b

lemma images_spec {rows : List ReflRow} {m : (Fin d → ℝ) → Fin d → ℝ} (hm : m ∈ images d rows) :
    MeasurePreserving m volume volume ∧ (∀ y, m (m y) = y) ∧
      (m = id ∨ ∃ j : Fin d, ∃ b ∈ Spec.bounds (rows.getD j none), m = Spec.mirror j b) := by
  rcases List.mem_cons.mp hm with rfl | hm
  · exact ⟨MeasurePreserving.id _, fun _ => rfl, Or.inl rfl⟩
  · obtain ⟨j, _, hj⟩ := List.mem_flatMap.mp hm
    obtain ⟨b, hb, rfl⟩ := List.mem_map.mp hj
    exact ⟨mirror_preserving j b, mirror_mirror j b, Or.inr ⟨j, b, hb, rfl⟩⟩

/-- The estimate with boundaries. -/
noncomputable def estimateR (D : Dist) (M : Matrix (Fin d) (Fin d) ℝ) (rows : List ReflRow) (n : ℕ) (y : ℕ → Fin d → ℝ)
    (x : Fin d → ℝ) : ℝ := ((images d rows).map fun m => estimate D M n (fun i => m (y i)) x).sum

lemma parse_rows {rows : List ReflRow} (h1 : rows.length = d) (h3 : ∃ p, some p ∈ rows) (eff : Fin d → ℝ × ℝ) :
    ∃ ext, parseExtrema eff (extremaArg none (some rows)) = .ok ext := by
  simp only [extremaArg, Option.map_some, parseExtrema, parseExtremaList]
  have hall : (rows.map ReflRow.toExt).all ExtElem.scalar = false := by
    obtain ⟨⟨lo, hi⟩, hp⟩ := h3
    rw [List.all_eq_false]
    exact ⟨_, List.mem_map_of_mem hp, by simp [ReflRow.toExt, ExtElem.scalar]⟩
  rw [if_neg (by simp [hall]), dif_pos (by simpa using h1), if_neg (by simp [hall]), if_neg, if_pos]
  · exact ⟨_, rfl⟩
  · rw [List.all_eq_true]
    intro e he
    obtain ⟨r, _, rfl⟩ := List.mem_map.mp he
    rcases r with _ | ⟨lo, hi⟩ <;> simp [ReflRow.toExt, ExtElem.pair]
  · rw [Bool.not_eq_true, List.any_eq_false]
    intro e he
    obtain ⟨r, _, rfl⟩ := List.mem_map.mp he
    rcases r with _ | ⟨lo, hi⟩ <;> simp [ReflRow.toExt]

/-- Specification: lower boundaries are below upper ones, and there is at least one row with boundaries. -/
def Spec.GoodRows (d : ℕ) (rows : List ReflRow) : Prop :=
  rows.length = d ∧ (∀ lo hi, some (some lo, some hi) ∈ rows → lo < hi) ∧ ∃ p, some p ∈ rows

lemma iid_init_rows (E : Ext) (D : Dist) {n : ℕ} (hn : 1 < n) (y : ℕ → Fin d → ℝ) (C : Option (Matrix (Fin d) (Fin d) ℝ))
    (hC : ∀ c, C = some c → c.PosDef) (bw : BwArg) (b : ℝ)
    (hb : bwMatrix d n false bw = .ok (Matrix.of fun _ _ => b)) {rows : List ReflRow} (hrows : Spec.GoodRows d rows) :
    ∃ k, KDE.init E
      { dataset := List.ofFn fun i : Fin n => y i
        kernel := .cls D
        bandwidth := bw
        covariance := C
        reflect := Reflect.ofChecked (some rows) } = .ok k ∧ k.weights = none ∧ k.kernel.dist = D ∧
      k.covariance = C.getD (Spec.sampleCov (Spec.weighted (List.ofFn fun i : Fin n => y i) none)) ∧
      k.bandwidth = (Matrix.of fun _ _ => b) ∧ k.reflect = some rows := by
  set data := List.ofFn fun i : Fin n => y i with hdata
  have hlen : data.length = n := by simp [hdata]
  have hne : data ≠ [] := by
    intro h
    rw [h] at hlen
    simp at hlen
    omega
  have hn1 : (1 : ℝ) < n := by exact_mod_cast hn
  have hf : 0 < covFact data none := by simp only [covFact, hlen]; linarith
  obtain ⟨dat, h1, h2⟩ := dataExtrema_spec hne
  have hcov : covArg data none C = .ok (C.getD (Spec.sampleCov (Spec.weighted data none))) := by
    cases C with
    | none => simp only [covArg, npCov_eq data hne none (by simp), if_neg (not_le.mpr hf), Option.getD_none]
    | some c => rfl
  have hpsd : (C.getD (Spec.sampleCov (Spec.weighted data none))).PosSemidef := by
    cases C with
    | none => exact sampleCov_posSemidef data hne none (by simp) hf
    | some c => exact (hC c rfl).posSemidef
  have hout : ∃ out, kernelOut E D n = .ok out := by
    unfold kernelOut
    split_ifs
    · exact ⟨_, rfl⟩
    · exact ⟨_, rfl⟩
  obtain ⟨out, hout⟩ := hout
  have heff : ∃ eff, effExtrema data (Kernel.init D (rescaleBw (Matrix.of fun _ _ => b) .none)
      (C.getD (Spec.sampleCov (Spec.weighted data none))) true 100000).matrix out = .ok eff := by
    simp only [effExtrema, h1]
    rw [if_pos]
    · exact ⟨_, rfl⟩
    · intro i
      simp only [Kernel.init, rescaleBw, Matrix.of_apply]
      exact mul_nonneg hpsd.diag_nonneg (sq_nonneg _)
  obtain ⟨eff, heff⟩ := heff
  obtain ⟨ext, hext⟩ := parse_rows hrows.1 hrows.2.2 eff
  refine ⟨_, init_of_stages (reflect := some rows) (weights := none) (D := D) (out := out) (eff := eff) (ext := ext)
    (checkReflect_ofChecked data hne rows hrows.1 hrows.2.1) hne rfl hcov ?_ rfl rfl ?_ heff hext, rfl, rfl, rfl, rfl, rfl⟩
  · simpa [effNum, hlen] using hb
  · simpa [effNum, hlen] using hout

open Classical in
/-- What the estimator of independent data with boundaries reports. -/
lemma iid_reports_rows (E : Ext) (srt : List ℝ → List ℕ) (hd : 0 < d) (D : Dist) {n : ℕ} (hn : 1 < n) (y : ℕ → Fin d → ℝ)
    (C : Option (Matrix (Fin d) (Fin d) ℝ)) (hC : ∀ c, C = some c → c.PosDef) (bw : BwArg) (b : ℝ) (hb0 : 0 < b)
    (hb : bwMatrix d n false bw = .ok (Matrix.of fun _ _ => b)) {rows : List ReflRow} (hrows : Spec.GoodRows d rows)
    (hS : (C.getD (Spec.sampleCov (Spec.weighted (List.ofFn fun i : Fin n => y i) none))).PosDef) :
    ∃ k F, KDE.init E
      { dataset := List.ofFn fun i : Fin n => y i
        kernel := .cls D
        bandwidth := bw
        covariance := C
        reflect := Reflect.ofChecked (some rows) } = .ok k ∧
      Spec.Reports E srt k F ∧ ∀ x ∈ Spec.Allowed rows, F x = estimateR D ((b ^ 2) •
        C.getD (Spec.sampleCov (Spec.weighted (List.ofFn fun i : Fin n => y i) none))) rows n y x := by
  obtain ⟨k, hk, hw, hkd, hc, hbw, hkr⟩ := iid_init_rows E D hn y C hC bw b hb hrows
  set S := C.getD (Spec.sampleCov (Spec.weighted (List.ofFn fun i : Fin n => y i) none)) with hSdef
  have hM : Spec.kernelMatrix k.covariance k.bandwidth = (b ^ 2) • S := by rw [hc, hbw, kernelMatrix_const]
  have hMp : (Spec.kernelMatrix k.covariance k.bandwidth).PosDef := by rw [hM]; exact hS.smul (by positivity)
  refine ⟨k, _, hk, fun pts => C13_kde_dims hk srt hd hMp rows hkr [] pts, fun x hx => ?_⟩
  have hfrom : ∀ j, Spec.AllowedFrom rows j x := fun j i _ => hx i
  rw [hM, hw, hkd]
  simp only [if_pos hx, if_pos (hfrom _)]
  have hone : ∀ m : (Fin d → ℝ) → Fin d → ℝ, Spec.kernelSum D ((b ^ 2) • S)
      (Spec.weighted ((List.ofFn fun i : Fin n => y i).map m) none) x
        / (Real.sqrt ((b ^ 2) • S).det * D.norm d) / n = estimate D ((b ^ 2) • S) n (fun i => m (y i)) x := by
    intro m
    simp only [estimate, Spec.kernelSum, Spec.weighted, List.map_map, Function.comp_def, one_mul, List.map_ofFn, List.sum_ofFn]
    rw [Finset.sum_range, Finset.sum_div]
    rfl
  have htot : ((Spec.weighted (List.ofFn fun i : Fin n => y i) none).map Prod.snd).sum = (n : ℝ) := by
    simp [Spec.weighted, Function.comp_def]
  rw [htot]
  simp only [estimateR, images, List.map_cons, List.sum_cons, id]
  rw [add_div, add_div]
  congr 1
  · have := hone id
    rw [List.map_id] at this
    exact this
  · rw [List.map_flatMap, List.flatMap_def, List.sum_flatten, List.map_map, div_eq_mul_inv, div_eq_mul_inv, ← List.sum_map_mul_right,
      ← List.sum_map_mul_right]
    refine congrArg List.sum (List.map_congr_left fun j _ => ?_)
    simp only [Function.comp_apply, List.map_map]
    rw [← List.sum_map_mul_right, ← List.sum_map_mul_right]
    refine congrArg List.sum (List.map_congr_left fun c _ => ?_)
    simp only [Function.comp_apply]
    rw [← hone, div_eq_mul_inv, div_eq_mul_inv]

/-! ## Its limit -/

/-- The mean of the kernels around a datum and its mirror images. -/
lemma images_mean {X : ℕ → Ω → Fin d → ℝ} {f : (Fin d → ℝ) → ℝ} (hX : Spec.DrawnFrom P X f) (rows : List ReflRow)
    (hd : 0 < d) (D : Dist) {M : Matrix (Fin d) (Fin d) ℝ} (hM : M.PosDef) (x : Fin d → ℝ) :
    ∫ ω, ((images d rows).map fun m => unitKernel D M (x - m (X 0 ω))).sum ∂P
      = ∫ z, unitKernel D M (x - z) * ((images d rows).map fun m => f (m z)).sum := by
  have hfi := density_integrable hX
  have hmeas : ∀ m ∈ images d rows, Measurable fun y => unitKernel D M (x - m y) := fun m hm =>
    (measurable_unitKernel D M).comp (measurable_const.sub (images_spec hm).1.measurable)
  have hbd : ∀ {g : (Fin d → ℝ) → ℝ} {u : (Fin d → ℝ) → Fin d → ℝ}, Integrable g → Measurable u →
      Integrable fun y => unitKernel D M (u y) * g y := by
    intro g u hg hu
    refine hg.bdd_mul ((measurable_unitKernel D M).comp hu).aestronglyMeasurable
      (Eventually.of_forall fun y => ?_) (c := 1 / (Real.sqrt M.det * D.norm d))
    rw [Real.norm_eq_abs, abs_of_nonneg (unitKernel_nonneg hd D hM _)]
    exact unitKernel_le hd D hM _
  have hsum : ∀ (l : List ((Fin d → ℝ) → Fin d → ℝ)), (∀ m ∈ l, m ∈ images d rows) →
      Measurable (fun y => (l.map fun m => unitKernel D M (x - m y)).sum) ∧
      Integrable (fun y => (l.map fun m => unitKernel D M (x - m y)).sum * f y) ∧
      Integrable (fun z => unitKernel D M (x - z) * (l.map fun m => f (m z)).sum) ∧
      ∫ y, (l.map fun m => unitKernel D M (x - m y)).sum * f y
        = ∫ z, unitKernel D M (x - z) * (l.map fun m => f (m z)).sum := by
    intro l
    induction l with
    | nil => intro _; simp
    | cons m l ih =>
      intro hl
      have hm := hl m (List.mem_cons_self ..)
      obtain ⟨hp, hinv, _⟩ := images_spec hm
      obtain ⟨i1, i2, i3, i4⟩ := ih fun m' h' => hl m' (List.mem_cons_of_mem _ h')
      have a1 : Integrable fun y => unitKernel D M (x - m y) * f y := hbd hfi (measurable_const.sub hp.measurable)
      have a2 : Integrable fun z => unitKernel D M (x - z) * f (m z) :=
        hbd (hp.integrable_comp_of_integrable hfi) (measurable_const.sub measurable_id)
      have a3 : ∫ y, unitKernel D M (x - m y) * f y = ∫ z, unitKernel D M (x - z) * f (m z) := by
        have hemb : MeasurableEmbedding m := (MeasurableEquiv.mk ⟨m, m, hinv, hinv⟩ hp.measurable hp.measurable).measurableEmbedding
        have := hp.integral_comp hemb fun z => unitKernel D M (x - z) * f (m z)
        simp only [hinv] at this
        exact this
      refine ⟨?_, ?_, ?_, ?_⟩
      · simp only [List.map_cons, List.sum_cons]
        exact (hmeas m hm).add i1
      · simp only [List.map_cons, List.sum_cons, add_mul]
        exact a1.add i2
      · simp only [List.map_cons, List.sum_cons, mul_add]
        exact a2.add i3
      · simp only [List.map_cons, List.sum_cons, add_mul, mul_add]
        rw [integral_add a1 i2, integral_add a2 i3, a3, i4]
  obtain ⟨h1, -, -, h4⟩ := hsum _ fun _ h => h
  rw [mean_density hX _ h1, h4]

/-- The estimate with boundaries as an average over the data. -/
lemma estimateR_avg (D : Dist) (M : Matrix (Fin d) (Fin d) ℝ) (rows : List ReflRow) (n : ℕ) (y : ℕ → Fin d → ℝ)
    (x : Fin d → ℝ) : estimateR D M rows n y x
      = (∑ i ∈ Finset.range n, ((images d rows).map fun m => unitKernel D M (x - m (y i))).sum) / n := by
  unfold estimateR estimate
  induction images d rows with
  | nil => simp
  | cons m l ih => simp only [List.map_cons, List.sum_cons, ih, Finset.sum_add_distrib, add_div]

/-- The kernels around a point and its mirror images. -/
noncomputable def imageKernel (D : Dist) (M : Matrix (Fin d) (Fin d) ℝ) (rows : List ReflRow) (x y : Fin d → ℝ) : ℝ :=
  ((images d rows).map fun m => unitKernel D M (x - m y)).sum

lemma measurable_imageKernel (D : Dist) (M : Matrix (Fin d) (Fin d) ℝ) (rows : List ReflRow) (x : Fin d → ℝ) :
    Measurable (imageKernel D M rows x) := by
  unfold imageKernel
  have : ∀ l : List ((Fin d → ℝ) → Fin d → ℝ), (∀ m ∈ l, m ∈ images d rows) →
      Measurable fun y => (l.map fun m => unitKernel D M (x - m y)).sum := by
    intro l
    induction l with
    | nil => intro _; simp
    | cons m l ih =>
      intro hl
      simp only [List.map_cons, List.sum_cons]
      exact ((measurable_unitKernel D _).comp
        (measurable_const.sub (images_spec (hl m (List.mem_cons_self ..))).1.measurable)).add
          (ih fun m' h' => hl m' (List.mem_cons_of_mem _ h'))
  exact this _ fun _ h => h

lemma imageKernel_nonneg (hd : 0 < d) (D : Dist) {M : Matrix (Fin d) (Fin d) ℝ} (hM : M.PosDef) (rows : List ReflRow)
    (x y : Fin d → ℝ) : 0 ≤ imageKernel D M rows x y := by
  refine List.sum_nonneg fun t ht => ?_
  obtain ⟨m, _, rfl⟩ := List.mem_map.mp ht
  exact unitKernel_nonneg hd D hM _

lemma imageKernel_le (hd : 0 < d) (D : Dist) {M : Matrix (Fin d) (Fin d) ℝ} (hM : M.PosDef) (rows : List ReflRow)
    (x y : Fin d → ℝ) : imageKernel D M rows x y ≤ (images d rows).length * (1 / (Real.sqrt M.det * D.norm d)) := by
  refine (List.sum_le_card_nsmul _ (1 / (Real.sqrt M.det * D.norm d)) fun t ht => ?_).trans (le_of_eq ?_)
  · obtain ⟨m, _, rfl⟩ := List.mem_map.mp ht
    exact unitKernel_le hd D hM _
  · rw [List.length_map, nsmul_eq_mul]

/-- Convergence to the limit of the means. -/
lemma estimateR_tendsto (hd : 0 < d) (D : Dist) {S : Matrix (Fin d) (Fin d) ℝ} (hS : S.PosDef) {X : ℕ → Ω → Fin d → ℝ}
    {f : (Fin d → ℝ) → ℝ} (hX : Spec.DrawnFrom P X f) (rows : List ReflRow) {x : Fin d → ℝ} {h : ℕ → ℝ}
    (hh : Spec.Shrinks d h) {L : ℝ}
    (hL : Tendsto (fun n => ∫ z, unitKernel D ((h n ^ 2) • S) (x - z) * ((images d rows).map fun m => f (m z)).sum) atTop
      (𝓝 L)) {ε : ℝ} (hε : 0 < ε) :
    Tendsto (fun n : ℕ => P {ω | ε ≤ |estimateR D ((h n ^ 2) • S) rows n (fun i => X i ω) x - L|}) atTop (𝓝 0) := by
  obtain ⟨h1, h2, h3⟩ := hh
  have hSn : ∀ n, ((h n ^ 2) • S).PosDef := fun n => hS.smul (pow_pos (h1 n) 2)
  have hb : Tendsto (fun n : ℕ => (images d rows).length * (1 / (Real.sqrt ((h n ^ 2) • S).det * D.norm d)) / n) atTop (𝓝 0) := by
    have hB := mul_pos (Real.sqrt_pos.mpr hS.det_pos) (D.norm_pos d hd)
    have : Tendsto (fun n : ℕ => (images d rows).length * (1 / (Real.sqrt S.det * D.norm d)) * (n * h n ^ d)⁻¹) atTop (𝓝 0) := by
      simpa using h3.inv_tendsto_atTop.const_mul ((images d rows).length * (1 / (Real.sqrt S.det * D.norm d)))
    refine this.congr fun n => ?_
    have hp := h1 n
    rw [det_smul, Fintype.card_fin, ← pow_mul, mul_comm 2 d, pow_mul, Real.sqrt_mul (by positivity),
      Real.sqrt_sq (by positivity)]
    rw [mul_inv]
    field_simp
  have hm : Tendsto (fun n => ∫ ω, imageKernel D ((h n ^ 2) • S) rows x (X 0 ω) ∂P) atTop (𝓝 L) :=
    hL.congr fun n => (images_mean hX rows hd D (hSn n) x).symm
  have := avg_tendsto hX.measurable le_rfl (fun i => by rw [hX.law i, hX.law 0]) (fun i j hij => hX.indep.indepFun hij)
    (fun n => imageKernel D ((h n ^ 2) • S) rows x) (fun n => measurable_imageKernel D _ rows x)
    (fun n => imageKernel_nonneg hd D (hSn n) rows x) _ (fun n => imageKernel_le hd D (hSn n) rows x) hb hm hε
  refine this.congr fun n => ?_
  simp only [estimateR_avg, imageKernel]

lemma estimateR_sandwich (hd : 0 < d) (D : Dist) {S M : Matrix (Fin d) (Fin d) ℝ} (hS : S.PosDef) (hM : M.PosDef) {r : ℝ}
    (hr : 1 < r) (h1 : ∀ u, r⁻¹ * Spec.dist2 S u ≤ Spec.dist2 M u ∧ Spec.dist2 M u ≤ r * Spec.dist2 S u)
    (h2 : r⁻¹ * Real.sqrt S.det < Real.sqrt M.det) (h3 : Real.sqrt M.det < r * Real.sqrt S.det) {h : ℝ} (hh : 0 < h)
    (rows : List ReflRow) (n : ℕ) (y : ℕ → Fin d → ℝ) (x : Fin d → ℝ) :
    (r * Real.sqrt (r ^ d))⁻¹ * estimateR D ((h ^ 2) • (r⁻¹ • S)) rows n y x ≤ estimateR D ((h ^ 2) • M) rows n y x ∧
      estimateR D ((h ^ 2) • M) rows n y x ≤ (r * Real.sqrt (r ^ d)) * estimateR D ((h ^ 2) • (r • S)) rows n y x := by
  unfold estimateR
  rw [← List.sum_map_mul_left, ← List.sum_map_mul_left]
  constructor
  · exact List.sum_le_sum fun m _ => (estimate_sandwich hd D hS hM hr h1 h2 h3 hh n (fun i => m (y i)) x).1
  · exact List.sum_le_sum fun m _ => (estimate_sandwich hd D hS hM hr h1 h2 h3 hh n (fun i => m (y i)) x).2

/-- With the covariance of the data the estimate has the same limit. -/
lemma boundary_core (hd : 0 < d) {X : ℕ → Ω → Fin d → ℝ} {f : (Fin d → ℝ) → ℝ} (hX : Spec.DrawnFrom P X f)
    (hmom : Integrable fun y => ‖y‖ ^ 2 * f y) {rows : List ReflRow} (hrows : Spec.GoodRows d rows) {x : Fin d → ℝ}
    (hxa : x ∈ Spec.Allowed rows) {L : ℝ} (D : Dist) (E : Ext) (srt : List ℝ → List ℕ) (bw : ℕ → BwArg) (h : ℕ → ℝ)
    (hh : Spec.Shrinks d h)
    (hL : ∀ r : ℝ, 0 < r → Tendsto (fun n => ∫ z, unitKernel D ((h n ^ 2) • (r • trueCov P (X 0))) (x - z) *
      ((images d rows).map fun m => f (m z)).sum) atTop (𝓝 L))
    (hb : ∀ n : ℕ, 1 < n → bwMatrix d n false (bw n) = .ok (Matrix.of fun _ _ => h n)) {ε : ℝ} (hε : 0 < ε) :
    Tendsto (fun n : ℕ => P {ω | ¬ ∃ k F,
      KDE.init E { dataset := List.ofFn fun i : Fin n => X i ω, kernel := .cls D, bandwidth := bw n,
                   reflect := Reflect.ofChecked (some rows) } = .ok k ∧
      Spec.Reports E srt k F ∧ |F x - L| < ε}) atTop (𝓝 0) := by
  have hid : ∀ i, P.map (X i) = P.map (X 0) := fun i => by rw [hX.law i, hX.law 0]
  have hL2 := coord_memLp hX hmom
  have hac : P.map (X 0) ≪ volume := by rw [hX.law 0]; exact withDensity_absolutelyContinuous _ _
  have hS : (trueCov P (X 0)).PosDef := trueCov_posDef (hX.measurable 0) hL2 hac
  set S := trueCov P (X 0) with hSdef
  obtain ⟨r, hr, hr1, hr2⟩ := exists_factor d (v := L) hε
  have hr0 : 0 < r := by linarith
  set U := {M : Fin d → Fin d → ℝ | (Matrix.of M).IsSymm → (Matrix.of M).PosDef ∧
      (∀ u, r⁻¹ * Spec.dist2 S u ≤ Spec.dist2 (Matrix.of M) u ∧ Spec.dist2 (Matrix.of M) u ≤ r * Spec.dist2 S u) ∧
      r⁻¹ * Real.sqrt S.det < Real.sqrt (Matrix.of M).det ∧ Real.sqrt (Matrix.of M).det < r * Real.sqrt S.det} with hU
  have c1 := prob_nhds_tendsto (measurable_sampleCov hX.measurable)
    (sampleCov_tendsto hX.measurable hid (fun i j hij => hX.indep.indepFun hij) hL2) (U := U) (matrix_close hS hr)
  have c2 := estimateR_tendsto hd D (hS.smul hr0) hX rows hh (hL r hr0) (half_pos hε)
  have c3 := estimateR_tendsto hd D (hS.smul (inv_pos.mpr hr0)) hX rows hh (hL r⁻¹ (inv_pos.mpr hr0)) (half_pos hε)
  have hlim := (c1.add c2).add c3
  simp only [add_zero] at hlim
  refine tendsto_of_tendsto_of_tendsto_of_le_of_le' tendsto_const_nhds hlim (Eventually.of_forall fun _ => zero_le) ?_
  filter_upwards [eventually_gt_atTop 1] with n hn
  refine le_trans (measure_mono ?_) ((measure_union_le _ _).trans (add_le_add_left (measure_union_le _ _) _))
  intro ω hω
  by_contra hnot
  simp only [Set.mem_union, Set.mem_ofPred_eq, not_or, not_not, not_le] at hnot
  obtain ⟨⟨g1, g2⟩, g3⟩ := hnot
  obtain ⟨m1, m2, m3, m4⟩ := g1 (sampleCov_symm _)
  obtain ⟨k, F, hk, hrep, hF⟩ := iid_reports_rows E srt hd D hn (fun i => X i ω) none (by simp) (bw n) (h n) (hh.1 n) (hb n hn)
    hrows m1
  refine hω ⟨k, F, hk, hrep, ?_⟩
  rw [hF x hxa]
  obtain ⟨s1, s2⟩ := estimateR_sandwich hd D hS m1 hr m2 m3 m4 (hh.1 n) rows n (fun i => X i ω) x
  have hq : 0 < r * Real.sqrt (r ^ d) := mul_pos hr0 (Real.sqrt_pos.mpr (by positivity))
  rw [abs_lt] at g2 g3 ⊢
  simp only [Option.getD_none]
  constructor
  · have : (r * Real.sqrt (r ^ d))⁻¹ * (L - ε / 2) ≤ (r * Real.sqrt (r ^ d))⁻¹ *
        estimateR D ((h n ^ 2) • (r⁻¹ • S)) rows n (fun i => X i ω) x :=
      mul_le_mul_of_nonneg_left (by linarith [g3.1]) (inv_pos.mpr hq).le
    have s1' : _ ≤ estimateR D ((h n ^ 2) • Spec.sampleCov (Spec.weighted (List.ofFn fun i : Fin n => X i ω) none)) rows n
      (fun i => X i ω) x := s1
    linarith
  · have : (r * Real.sqrt (r ^ d)) * estimateR D ((h n ^ 2) • (r • S)) rows n (fun i => X i ω) x
        ≤ (r * Real.sqrt (r ^ d)) * (L + ε / 2) :=
      mul_le_mul_of_nonneg_left (by linarith [g2.2]) hq.le
    have s2' : estimateR D ((h n ^ 2) • Spec.sampleCov (Spec.weighted (List.ofFn fun i : Fin n => X i ω) none)) rows n
      (fun i => X i ω) x ≤ _ := s2
    linarith

/-- The same with a given covariance. -/
lemma boundary_given (hd : 0 < d) {X : ℕ → Ω → Fin d → ℝ} {f : (Fin d → ℝ) → ℝ} (hX : Spec.DrawnFrom P X f)
    {rows : List ReflRow} (hrows : Spec.GoodRows d rows) {x : Fin d → ℝ}
    (hxa : x ∈ Spec.Allowed rows) {L : ℝ} (D : Dist) (E : Ext) (srt : List ℝ → List ℕ) (C : Matrix (Fin d) (Fin d) ℝ)
    (hC : C.PosDef) (bw : ℕ → BwArg) (h : ℕ → ℝ) (hh : Spec.Shrinks d h)
    (hL : Tendsto (fun n => ∫ z, unitKernel D ((h n ^ 2) • C) (x - z) *
      ((images d rows).map fun m => f (m z)).sum) atTop (𝓝 L))
    (hb : ∀ n : ℕ, 1 < n → bwMatrix d n false (bw n) = .ok (Matrix.of fun _ _ => h n)) {ε : ℝ} (hε : 0 < ε) :
    Tendsto (fun n : ℕ => P {ω | ¬ ∃ k F,
      KDE.init E { dataset := List.ofFn fun i : Fin n => X i ω, kernel := .cls D, bandwidth := bw n, covariance := some C,
                   reflect := Reflect.ofChecked (some rows) } = .ok k ∧
      Spec.Reports E srt k F ∧ |F x - L| < ε}) atTop (𝓝 0) := by
  refine tendsto_of_tendsto_of_tendsto_of_le_of_le' tendsto_const_nhds (estimateR_tendsto hd D hC hX rows hh hL hε)
    (Eventually.of_forall fun _ => zero_le) ?_
  filter_upwards [eventually_gt_atTop 1] with n hn
  refine measure_mono fun ω hω => ?_
  by_contra hnot
  simp only [Set.mem_ofPred_eq, not_le] at hnot
  obtain ⟨k, F, hk, hrep, hF⟩ := iid_reports_rows E srt hd D hn (fun i => X i ω) (some C) (by rintro c ⟨⟩; exact hC) (bw n)
    (h n) (hh.1 n) (hb n hn) hrows hC
  refine hω ⟨k, F, hk, hrep, ?_⟩
  rw [hF x hxa]
  exact hnot

/-! ## The density near a boundary -/

/-- Specification: seen from the point `x`, the point `z` is beyond the boundary of dimension `j` on which `x` lies. -/
def Spec.Beyond (rows : List ReflRow) (x : Fin d → ℝ) (j : Fin d) (z : Fin d → ℝ) : Prop :=
  (∃ hi, rows.getD j none = some (some (x j), hi)) ∧ z j < x j ∨ (∃ lo, rows.getD j none = some (lo, some (x j))) ∧ x j < z j

lemma goodRows_lt {rows : List ReflRow} (h : Spec.GoodRows d rows) (j : Fin d) {lo hi : ℝ}
    (hj : rows.getD j none = some (some lo, some hi)) : lo < hi := by
  refine h.2.1 lo hi ?_
  by_cases hc : (j : ℕ) < rows.length
  · rw [List.getD_eq_getElem _ _ hc] at hj
    rw [← hj]
    exact List.getElem_mem hc
  · rw [List.getD_eq_default _ _ (not_lt.mp hc)] at hj
    cases hj

/-- Near an allowed point the boundaries are violated by the points beyond the boundaries on which the point lies. -/
lemma near_violates {rows : List ReflRow} {x : Fin d → ℝ} (hx : x ∈ Spec.Allowed rows) :
    ∀ᶠ z in 𝓝 x, ∀ j : Fin d, Spec.Violates (rows.getD j none) (z j) ↔ Spec.Beyond rows x j z := by
  rw [eventually_all]
  intro j
  have hc : Tendsto (fun z : Fin d → ℝ => z j) (𝓝 x) (𝓝 (x j)) := (continuous_apply j).tendsto x
  have hv := hx j
  cases hr : rows.getD j none with
  | none =>
    refine Eventually.of_forall fun z => ?_
    simp only [Spec.Violates, Spec.Beyond, hr]
    simp
  | some p =>
    obtain ⟨lo, hi⟩ := p
    have e1 : ∀ᶠ z in 𝓝 x, ∀ l, lo = some l → l ≠ x j → ¬ z j < l := by
      cases lo with
      | none => exact Eventually.of_forall fun z l h => by cases h
      | some l =>
        by_cases hl : l = x j
        · refine Eventually.of_forall fun z l' h hne => ?_
          cases h
          exact absurd hl hne
        · have : l < x j := by
            refine lt_of_le_of_ne (not_lt.mp fun h => hv ?_) hl
            rw [hr]
            exact ⟨_, _, rfl, Or.inl ⟨l, rfl, h⟩⟩
          filter_upwards [hc.eventually (eventually_gt_nhds this)] with z hz l' h _
          cases h
          exact not_lt.mpr hz.le
    have e2 : ∀ᶠ z in 𝓝 x, ∀ u, hi = some u → u ≠ x j → ¬ u < z j := by
      cases hi with
      | none => exact Eventually.of_forall fun z l h => by cases h
      | some u =>
        by_cases hl : u = x j
        · refine Eventually.of_forall fun z l' h hne => ?_
          cases h
          exact absurd hl hne
        · have : x j < u := by
            refine lt_of_le_of_ne (not_lt.mp fun h => hv ?_) (Ne.symm hl)
            rw [hr]
            exact ⟨_, _, rfl, Or.inr ⟨u, rfl, h⟩⟩
          filter_upwards [hc.eventually (eventually_lt_nhds this)] with z hz l' h _
          cases h
          exact not_lt.mpr hz.le
    filter_upwards [e1, e2] with z h1 h2
    simp only [Spec.Beyond, hr]
    constructor
    · rintro ⟨lo', hi', he, ⟨l, hl, hz⟩ | ⟨u, hu, hz⟩⟩
      · cases he
        by_cases hlx : l = x j
        · subst hlx
          exact Or.inl ⟨⟨hi, by rw [hl]⟩, hz⟩
        · exact absurd hz (h1 l hl hlx)
      · cases he
        by_cases hux : u = x j
        · subst hux
          exact Or.inr ⟨⟨lo, by rw [hu]⟩, hz⟩
        · exact absurd hz (h2 u hu hux)
    · rintro (⟨⟨hi', he⟩, hz⟩ | ⟨⟨lo', he⟩, hz⟩)
      · cases he
        exact ⟨_, _, rfl, Or.inl ⟨_, rfl, hz⟩⟩
      · cases he
        exact ⟨_, _, rfl, Or.inr ⟨_, rfl, hz⟩⟩

/-- Mirror images of points strictly inside are outside. -/
lemma mirror_violates {r : ReflRow} {t b : ℝ} (h : ¬ Spec.Violates r t) (hb : b ∈ Spec.bounds r) (htb : t ≠ b) :
    Spec.Violates r (2 * b - t) := by
  cases r with
  | none => simp [Spec.bounds] at hb
  | some p =>
    obtain ⟨lo, hi⟩ := p
    simp only [Spec.bounds, List.mem_append, Option.mem_toList] at hb
    rcases hb with hb | hb
    · subst hb
      refine ⟨_, _, rfl, Or.inl ⟨b, rfl, ?_⟩⟩
      have : b ≤ t := not_lt.mp fun hlt => h ⟨_, _, rfl, Or.inl ⟨b, rfl, hlt⟩⟩
      have := lt_of_le_of_ne this (Ne.symm htb)
      linarith
    · subst hb
      refine ⟨_, _, rfl, Or.inr ⟨b, rfl, ?_⟩⟩
      have : t ≤ b := not_lt.mp fun hlt => h ⟨_, _, rfl, Or.inr ⟨b, rfl, hlt⟩⟩
      have := lt_of_le_of_ne this htb
      linarith

/-- Of the mirror images of a point beyond the boundary `x j`, only the one in this boundary can be inside. -/
lemma beyond_sum {rows : List ReflRow} (hrows : Spec.GoodRows d rows) {x z : Fin d → ℝ} {j : Fin d}
    (hz : Spec.Beyond rows x j z) (φ : ℝ → ℝ) (hφ : ∀ b, Spec.Violates (rows.getD j none) (2 * b - z j) → φ b = 0) :
    ((Spec.bounds (rows.getD j none)).map φ).sum = φ (x j) := by
  rcases hz with ⟨⟨hi, he⟩, hz⟩ | ⟨⟨lo, he⟩, hz⟩
  · cases hi with
    | none => rw [he]; simp [Spec.bounds]
    | some u =>
      have hlt := goodRows_lt hrows j he
      have := hφ u (by rw [he]; exact ⟨_, _, rfl, Or.inr ⟨u, rfl, by linarith⟩⟩)
      rw [he]
      simp [Spec.bounds, this]
  · cases lo with
    | none => rw [he]; simp [Spec.bounds]
    | some l =>
      have hlt := goodRows_lt hrows j he
      have := hφ l (by rw [he]; exact ⟨_, _, rfl, Or.inl ⟨l, rfl, by linarith⟩⟩)
      rw [he]
      simp [Spec.bounds, this]

/-- The sum over all images as a sum over dimensions. -/
lemma images_sum (rows : List ReflRow) (φ : ((Fin d → ℝ) → Fin d → ℝ) → ℝ) :
    ((images d rows).map φ).sum
      = φ id + ∑ j : Fin d, ((Spec.bounds (rows.getD j none)).map fun b => φ (Spec.mirror j b)).sum := by
  simp only [images, List.map_cons, List.sum_cons]
  rw [List.map_flatMap, List.flatMap_def, List.sum_flatten, List.map_map, ← Fin.sum_univ_def]
  simp only [Function.comp_apply, List.map_map, Function.comp_def]

open Classical in
/-- The density together with its mirror images, corrected on the boundaries. -/
noncomputable def folded (rows : List ReflRow) (f : (Fin d → ℝ) → ℝ) (z : Fin d → ℝ) : ℝ :=
  if z ∈ Spec.Allowed rows then f z else ((images d rows).map fun m => f (m z)).sum

lemma folded_ae {rows : List ReflRow} {f : (Fin d → ℝ) → ℝ} (hf : ∀ z ∉ Spec.Allowed rows, f z = 0) :
    (fun z => ((images d rows).map fun m => f (m z)).sum) =ᵐ[volume] folded rows f := by
  filter_upwards [ae_not_bounds rows] with z hz
  unfold folded
  split_ifs with hA
  · rw [images_sum]
    have : ∀ j : Fin d, ((Spec.bounds (rows.getD j none)).map fun b => f (Spec.mirror j b z)).sum = 0 := by
      intro j
      refine List.sum_eq_zero fun t ht => ?_
      obtain ⟨b, hb, rfl⟩ := List.mem_map.mp ht
      refine hf _ fun hc => hc j ?_
      rw [mirror_same]
      exact mirror_violates (hA j) hb fun h => hz j (h ▸ hb)
    simp only [this, Finset.sum_const_zero, add_zero, id_eq]
  · rfl

/-- Specification: seen from `x`, the point `z` is beyond at most one boundary. -/
def Spec.OneBeyond (rows : List ReflRow) (x : Fin d → ℝ) : Set (Fin d → ℝ) :=
  {z | ∀ i j, Spec.Beyond rows x i z → Spec.Beyond rows x j z → i = j}

lemma mirror_tendsto (x : Fin d → ℝ) (j : Fin d) : Tendsto (Spec.mirror j (x j)) (𝓝 x) (𝓝 x) := by
  have hc : Continuous (Spec.mirror (d := d) j (x j)) := by
    unfold Spec.mirror
    refine continuous_pi fun i => ?_
    by_cases h : i = j
    · simp only [h, if_true]; fun_prop
    · simp only [h, if_false]; fun_prop
  have := hc.tendsto x
  have e : Spec.mirror j (x j) x = x := by
    funext i
    simp only [Spec.mirror]
    split_ifs with h
    · subst h; ring
    · rfl
  rwa [e] at this

/-- Near a point `x` the density with its mirror images is close to its value at `x`, where at most one boundary is
violated, and vanishes elsewhere. -/
lemma folded_limit {rows : List ReflRow} (hrows : Spec.GoodRows d rows) {f : (Fin d → ℝ) → ℝ}
    (hf : ∀ z ∉ Spec.Allowed rows, f z = 0) {x : Fin d → ℝ} (hx : x ∈ Spec.Allowed rows)
    (hfx : ContinuousWithinAt f (Spec.Allowed rows) x) :
    Tendsto (folded rows f) (𝓝[Spec.OneBeyond rows x] x) (𝓝 (f x)) ∧
      ∀ᶠ z in 𝓝[(Spec.OneBeyond rows x)ᶜ] x, folded rows f z = 0 := by
  have hnear := near_violates hx
  have hnearm : ∀ᶠ z in 𝓝 x, ∀ j, ∀ i : Fin d, Spec.Violates (rows.getD i none) (Spec.mirror j (x j) z i)
      ↔ Spec.Beyond rows x i (Spec.mirror j (x j) z) := eventually_all.mpr fun j => (mirror_tendsto x j).eventually hnear
  constructor
  · rw [Metric.tendsto_nhds]
    intro ε hε
    have hcl : ∀ᶠ z in 𝓝 x, z ∈ Spec.Allowed rows → dist (f z) (f x) < ε :=
      eventually_nhdsWithin_iff.mp ((Metric.tendsto_nhds.mp hfx) ε hε)
    have hclm : ∀ᶠ z in 𝓝 x, ∀ j, Spec.mirror j (x j) z ∈ Spec.Allowed rows → dist (f (Spec.mirror j (x j) z)) (f x) < ε :=
      eventually_all.mpr fun j => (mirror_tendsto x j).eventually hcl
    rw [eventually_nhdsWithin_iff]
    filter_upwards [hnear, hnearm, hcl, hclm] with z h1 h2 h3 h4 hz
    unfold folded
    split_ifs with hA
    · exact h3 hA
    · obtain ⟨j, hj⟩ : ∃ j : Fin d, Spec.Violates (rows.getD j none) (z j) := by
        by_contra hc
        push Not at hc
        exact hA hc
      have hbj := (h1 j).mp hj
      -- the image in the boundary on which `x` lies is inside
      have hin : Spec.mirror j (x j) z ∈ Spec.Allowed rows := by
        intro i hi
        have hbi := (h2 j i).mp hi
        by_cases hij : i = j
        · subst hij
          simp only [Spec.Beyond, mirror_same] at hbi
          rcases hbi with ⟨⟨u, hu⟩, hlt⟩ | ⟨⟨l, hl⟩, hlt⟩
          · rcases hbj with ⟨_, hb⟩ | ⟨⟨l', hl'⟩, hb⟩
            · linarith
            · rw [hl'] at hu
              cases hu
              exact lt_irrefl _ (goodRows_lt hrows i hl')
          · rcases hbj with ⟨⟨u', hu'⟩, hb⟩ | ⟨_, hb⟩
            · rw [hu'] at hl
              cases hl
              exact lt_irrefl _ (goodRows_lt hrows i hu')
            · linarith
        · have hzi : Spec.Violates (rows.getD i none) (z i) := by
            have : Spec.mirror j (x j) z i = z i := by simp only [Spec.mirror, if_neg hij]
            rwa [this] at hi
          exact hij (hz i j ((h1 i).mp hzi) hbj)
      have hsum : ((images d rows).map fun m => f (m z)).sum = f (Spec.mirror j (x j) z) := by
        rw [images_sum]
        have h0 : f z = 0 := hf z hA
        have hother : ∀ i, i ≠ j → ((Spec.bounds (rows.getD i none)).map fun b => f (Spec.mirror i b z)).sum = 0 := by
          intro i hij
          refine List.sum_eq_zero fun t ht => ?_
          obtain ⟨b, hb, rfl⟩ := List.mem_map.mp ht
          refine hf _ fun hc => hc j ?_
          have : Spec.mirror i b z j = z j := by simp only [Spec.mirror, if_neg (Ne.symm hij)]
          rw [this]
          exact hj
        rw [Finset.sum_eq_single j (fun i _ hij => hother i hij) (fun h => absurd (Finset.mem_univ j) h),
          beyond_sum hrows hbj (fun b => f (Spec.mirror j b z)) fun b hb => hf _ fun hc => hc j (by rw [mirror_same]; exact hb)]
        simp [h0]
      rw [hsum]
      exact h4 j hin
  · rw [eventually_nhdsWithin_iff]
    filter_upwards [hnear] with z h1 hz
    simp only [Spec.OneBeyond, Set.mem_compl_iff, Set.mem_ofPred_eq, not_forall] at hz
    obtain ⟨i, j, hi, hj, hij⟩ := hz
    have vi := (h1 i).mpr hi
    have vj := (h1 j).mpr hj
    have hA : z ∉ Spec.Allowed rows := fun hc => hc i vi
    unfold folded
    rw [if_neg hA]
    refine List.sum_eq_zero fun t ht => ?_
    obtain ⟨m, hm, rfl⟩ := List.mem_map.mp ht
    obtain ⟨-, -, rfl | ⟨l, b, _, rfl⟩⟩ := images_spec hm
    · exact hf z hA
    · refine hf _ fun hc => ?_
      by_cases hil : i = l
      · refine hc j ?_
        have : Spec.mirror l b z j = z j := by simp only [Spec.mirror, if_neg (fun h : j = l => hij (hil.trans h.symm))]
        rwa [this]
      · refine hc i ?_
        have : Spec.mirror l b z i = z i := by simp only [Spec.mirror, if_neg hil]
        rwa [this]

/-! ## The mean of a kernel at the tip of a cone -/

/-- A function that is close to `c` in a cone and 0 outside of it: its smoothed value at the tip of the cone is `c` times
the part of the kernel in the cone. -/
lemma cone_mean_tendsto (hd : 0 < d) (D : Dist) {M : Matrix (Fin d) (Fin d) ℝ} (hM : M.PosDef) {g : (Fin d → ℝ) → ℝ}
    (hg : Integrable g) {x : Fin d → ℝ} {A : Set (Fin d → ℝ)} (hA : MeasurableSet A)
    (hcone : ∀ t : ℝ, 0 < t → ∀ u, x - t • u ∈ A ↔ x - u ∈ A) {c : ℝ} (h1 : Tendsto g (𝓝[A] x) (𝓝 c))
    (h2 : ∀ᶠ z in 𝓝[Aᶜ] x, g z = 0) {h : ℕ → ℝ} (hh : ∀ n, 0 < h n) (h0 : Tendsto h atTop (𝓝 0)) :
    Tendsto (fun n => ∫ z, unitKernel D ((h n ^ 2) • M) (x - z) * g z) atTop
      (𝓝 (c * ∫ u in {u | x - u ∈ A}, unitKernel D M u)) := by
  classical
  have hMn : ∀ n, ((h n ^ 2) • M).PosDef := fun n => hM.smul (pow_pos (hh n) 2)
  set B := A ∩ Metric.ball x 1 with hB
  have hBm : MeasurableSet B := hA.inter Metric.isOpen_ball.measurableSet
  have hBi : Integrable (B.indicator fun _ => c) := by
    rw [integrable_indicator_iff hBm]
    exact (integrableOn_const (measure_ne_top_of_subset Set.inter_subset_right measure_ball_lt_top.ne))
  set g1 := Function.update (fun z => g z - B.indicator (fun _ => c) z) x 0 with hg1
  have hae : (fun z => g z - B.indicator (fun _ => c) z) =ᵐ[volume] g1 := by
    have : Nonempty (Fin d) := ⟨⟨0, hd⟩⟩
    have h3 : ∀ᵐ z : Fin d → ℝ, z ≠ x := by
      rw [ae_iff]
      simp
    filter_upwards [h3] with z hz
    rw [hg1, Function.update_of_ne hz]
  have hg1i : Integrable g1 := (hg.sub hBi).congr hae
  have hg1c : ContinuousAt g1 x := by
    rw [hg1, continuousAt_update_same]
    refine Tendsto.mono_left ?_ nhdsWithin_le_nhds
    have hball : ∀ᶠ z in 𝓝 x, z ∈ Metric.ball x 1 := Metric.ball_mem_nhds x one_pos
    have : 𝓝 x = 𝓝[A] x ⊔ 𝓝[Aᶜ] x := by rw [← nhdsWithin_union, Set.union_compl_self, nhdsWithin_univ]
    rw [this, tendsto_sup]
    constructor
    · have h4 : Tendsto (fun z => g z - c) (𝓝[A] x) (𝓝 0) := by simpa using h1.sub_const c
      refine h4.congr' ?_
      filter_upwards [self_mem_nhdsWithin, nhdsWithin_le_nhds hball] with z hz hb
      rw [Set.indicator_of_mem (show z ∈ B from ⟨hz, hb⟩)]
    · refine tendsto_const_nhds.congr' ?_
      filter_upwards [self_mem_nhdsWithin, h2] with z hz hgz
      rw [hgz, Set.indicator_of_notMem (fun h : z ∈ B => hz h.1), sub_zero]
  have hlim1 := kernel_mean_tendsto hd D hM hg1i hg1c hh h0
  rw [show g1 x = 0 by rw [hg1, Function.update_self]] at hlim1
  -- the part in the cone
  have hKi : Integrable fun v => unitKernel D M v := by
    simpa [unitKernel] using (integrable_shape_dist2 hd D hM 0).div_const (Real.sqrt M.det * D.norm d)
  have hAm : MeasurableSet {u | x - u ∈ A} := hA.preimage (measurable_const.sub measurable_id)
  have hscale : ∀ n, ∫ z, unitKernel D ((h n ^ 2) • M) (x - z) * B.indicator (fun _ => c) z
      = ∫ u, unitKernel D M u * ({u | x - u ∈ A}.indicator (fun _ => c) u * {u | ‖h n • u‖ < 1}.indicator 1 u) := by
    intro n
    have hp := hh n
    rw [← integral_sub_left_eq_self (fun z => unitKernel D ((h n ^ 2) • M) (x - z) * B.indicator (fun _ => c) z) volume x]
    have key := Measure.integral_comp_smul (volume : Measure (Fin d → ℝ))
      (fun z => unitKernel D ((h n ^ 2) • M) (x - (x - z)) * B.indicator (fun _ => c) (x - z)) (h n)
    have hpt : ∀ v, unitKernel D ((h n ^ 2) • M) (x - (x - h n • v)) * B.indicator (fun _ => c) (x - h n • v)
        = (h n)⁻¹ ^ d * (unitKernel D M v * ({u | x - u ∈ A}.indicator (fun _ => c) v * {u | ‖h n • u‖ < 1}.indicator 1 v)) := by
      intro v
      rw [unitKernel_scale D M hp, sub_sub_cancel, inv_smul_smul₀ hp.ne', mul_assoc]
      congr 2
      have e1 : x - h n • v ∈ B ↔ x - v ∈ A ∧ ‖h n • v‖ < 1 := by
        rw [hB, Set.mem_inter_iff, hcone _ hp, Metric.mem_ball, dist_eq_norm, sub_sub_cancel_left, norm_neg]
      by_cases a1 : x - v ∈ A <;> by_cases a2 : ‖h n • v‖ < 1 <;>
        simp only [Set.indicator_apply, e1, a1, a2, Set.mem_ofPred_eq, and_self, and_true, and_false, true_and, false_and, if_true, if_false,
          Pi.one_apply, mul_one, mul_zero, zero_mul]
    simp only [hpt] at key
    rw [integral_const_mul, Module.finrank_fintype_fun_eq_card, Fintype.card_fin, abs_of_nonneg (by positivity), smul_eq_mul,
      ← inv_pow] at key
    exact (mul_left_cancel₀ (by positivity) key).symm
  have hlim2 : Tendsto (fun n => ∫ u, unitKernel D M u *
      ({u | x - u ∈ A}.indicator (fun _ => c) u * {u | ‖h n • u‖ < 1}.indicator 1 u)) atTop
      (𝓝 (∫ u, unitKernel D M u * {u | x - u ∈ A}.indicator (fun _ => c) u)) := by
    refine tendsto_integral_of_dominated_convergence (fun u => unitKernel D M u * |c|) (fun n => ?_) (hKi.mul_const _)
      (fun n => Eventually.of_forall fun u => ?_) (Eventually.of_forall fun u => ?_)
    · refine ((measurable_unitKernel D M).mul ((measurable_const.indicator hAm).mul (measurable_one.indicator ?_))).aestronglyMeasurable
      exact measurableSet_lt (by fun_prop) measurable_const
    · rw [Real.norm_eq_abs, abs_mul, abs_of_nonneg (unitKernel_nonneg hd D hM u)]
      refine mul_le_mul_of_nonneg_left ?_ (unitKernel_nonneg hd D hM u)
      rw [abs_mul]
      by_cases a1 : x - u ∈ A <;> by_cases a2 : ‖h n • u‖ < 1 <;> simp [Set.indicator_apply, a1, a2]
    · refine tendsto_const_nhds.congr' ?_
      have : Tendsto (fun n => ‖h n • u‖) atTop (𝓝 0) := by
        have := (h0.smul_const u).norm
        simpa using this
      filter_upwards [this.eventually (eventually_lt_nhds one_pos)] with n hn
      rw [Set.indicator_of_mem (s := {u | ‖h n • u‖ < 1}) hn, Pi.one_apply, mul_one]
  have hsum := hlim1.add hlim2
  have hval : (0 : ℝ) + ∫ u, unitKernel D M u * {u | x - u ∈ A}.indicator (fun _ => c) u
      = c * ∫ u in {u | x - u ∈ A}, unitKernel D M u := by
    rw [zero_add, ← integral_indicator hAm, ← integral_const_mul]
    refine integral_congr_ae (Eventually.of_forall fun u => ?_)
    simp only [Set.indicator_apply]
    split_ifs
    · ring
    · simp
  rw [hval] at hsum
  refine hsum.congr fun n => ?_
  rw [← hscale n]
  have hbd : ∀ {q : (Fin d → ℝ) → ℝ}, Integrable q → Integrable fun z => unitKernel D ((h n ^ 2) • M) (x - z) * q z := by
    intro q hq
    refine hq.bdd_mul ((measurable_unitKernel D _).comp (measurable_const.sub measurable_id)).aestronglyMeasurable
      (Eventually.of_forall fun y => ?_) (c := 1 / (Real.sqrt ((h n ^ 2) • M).det * D.norm d))
    rw [Real.norm_eq_abs, abs_of_nonneg (unitKernel_nonneg hd D (hMn n) _)]
    exact unitKernel_le hd D (hMn n) _
  rw [← integral_add (hbd hg1i) (hbd hBi)]
  refine integral_congr_ae ?_
  filter_upwards [hae] with z hz
  rw [← hz]
  ring

/-! ## The part of the kernel in the cone -/

open Classical in
/-- Specification: the dimensions in whose boundaries the point `x` lies. -/
noncomputable def Spec.touched (rows : List ReflRow) (x : Fin d → ℝ) : Finset (Fin d) :=
  Finset.univ.filter fun j : Fin d => x j ∈ Spec.bounds (rows.getD j none)

lemma touched_iff {rows : List ReflRow} {x : Fin d → ℝ} {j : Fin d} : j ∈ Spec.touched rows x ↔
    (∃ hi, rows.getD j none = some (some (x j), hi)) ∨ (∃ lo, rows.getD j none = some (lo, some (x j))) := by
  simp only [Spec.touched, Finset.mem_filter, Finset.mem_univ, true_and]
  cases hr : rows.getD j none with
  | none => simp [Spec.bounds]
  | some p =>
    obtain ⟨lo, hi⟩ := p
    simp only [Spec.bounds, List.mem_append, Option.mem_toList, Option.some.injEq, Prod.mk.injEq, exists_and_left,
      exists_eq', and_true, exists_eq_left']

lemma beyond_touched {rows : List ReflRow} {x z : Fin d → ℝ} {j : Fin d} (h : Spec.Beyond rows x j z) :
    j ∈ Spec.touched rows x := by
  rw [touched_iff]
  rcases h with ⟨h, _⟩ | ⟨h, _⟩
  · exact Or.inl h
  · exact Or.inr h

lemma lt_sub_self_neg {a b : ℝ} : a < a - b ↔ b < 0 := by
  constructor <;> intro h <;> linarith

lemma beyond_smul {rows : List ReflRow} {x u : Fin d → ℝ} {j : Fin d} {t : ℝ} (ht : 0 < t) :
    Spec.Beyond rows x j (x - t • u) ↔ Spec.Beyond rows x j (x - u) := by
  simp only [Spec.Beyond, Pi.sub_apply, Pi.smul_apply, smul_eq_mul, sub_lt_self_iff, lt_sub_self_neg]
  rw [mul_pos_iff_of_pos_left ht, show t * u j < 0 ↔ u j < 0 by
    rw [← neg_pos, ← mul_neg, mul_pos_iff_of_pos_left ht, neg_pos]]

lemma measurableSet_beyond (rows : List ReflRow) (x : Fin d → ℝ) (j : Fin d) : MeasurableSet {z | Spec.Beyond rows x j z} := by
  unfold Spec.Beyond
  refine MeasurableSet.union (MeasurableSet.inter (MeasurableSet.const _) ?_) (MeasurableSet.inter (MeasurableSet.const _) ?_)
  · exact measurableSet_lt (measurable_pi_apply j) measurable_const
  · exact measurableSet_lt measurable_const (measurable_pi_apply j)

lemma measurableSet_oneBeyond (rows : List ReflRow) (x : Fin d → ℝ) : MeasurableSet (Spec.OneBeyond rows x) := by
  have : Spec.OneBeyond rows x = ⋂ i, ⋂ j, {z | Spec.Beyond rows x i z}ᶜ ∪ ({z | Spec.Beyond rows x j z}ᶜ ∪ {_z | i = j}) := by
    ext z
    simp only [Spec.OneBeyond, Set.mem_ofPred_eq, Set.mem_iInter, Set.mem_union, Set.mem_compl_iff, ← imp_iff_not_or]
  rw [this]
  exact MeasurableSet.iInter fun i => MeasurableSet.iInter fun j =>
    (measurableSet_beyond rows x i).compl.union ((measurableSet_beyond rows x j).compl.union (MeasurableSet.const _))

open Classical in
/-- The boundaries beyond which `x - u` lies. -/
noncomputable def beyondSet (rows : List ReflRow) (x u : Fin d → ℝ) : Finset (Fin d) :=
  Finset.univ.filter fun j => Spec.Beyond rows x j (x - u)

lemma mem_beyondSet {rows : List ReflRow} {x u : Fin d → ℝ} {j : Fin d} :
    j ∈ beyondSet rows x u ↔ Spec.Beyond rows x j (x - u) := by simp [beyondSet]

lemma beyondSet_sub (rows : List ReflRow) (x u : Fin d → ℝ) : beyondSet rows x u ⊆ Spec.touched rows x := fun _ hj =>
  beyond_touched (mem_beyondSet.mp hj)

lemma oneBeyond_iff {rows : List ReflRow} {x u : Fin d → ℝ} : x - u ∈ Spec.OneBeyond rows x ↔ (beyondSet rows x u).card ≤ 1 := by
  simp only [Spec.OneBeyond, Set.mem_ofPred_eq, Finset.card_le_one, mem_beyondSet]
  constructor
  · intro h a ha b hb
    exact h a b ha hb
  · intro h i j hi hj
    exact h i hi j hj

lemma measurableSet_beyondSet (rows : List ReflRow) (x : Fin d → ℝ) (A : Finset (Fin d)) :
    MeasurableSet {u | beyondSet rows x u = A} := by
  have : {u | beyondSet rows x u = A} = ⋂ j, {u | Spec.Beyond rows x j (x - u) ↔ j ∈ A} := by
    ext u
    simp only [Set.mem_ofPred_eq, Set.mem_iInter, Finset.ext_iff, mem_beyondSet]
  rw [this]
  refine MeasurableSet.iInter fun j => ?_
  have h1 : MeasurableSet {u | Spec.Beyond rows x j (x - u)} :=
    (measurableSet_beyond rows x j).preimage (measurable_const.sub measurable_id)
  by_cases hj : j ∈ A
  · simpa [hj] using h1
  · have := h1.compl
    simp only [hj, iff_false]
    exact this

/-- Flipping a direction in a touched dimension changes the side of this boundary. -/
lemma beyondSet_flip {rows : List ReflRow} (hrows : Spec.GoodRows d rows) {x u : Fin d → ℝ} {j : Fin d}
    (hj : j ∈ Spec.touched rows x) (hu : u j ≠ 0) {A : Finset (Fin d)} (hA : j ∉ A) :
    beyondSet rows x (Spec.mirror j 0 u) = insert j A ↔ beyondSet rows x u = A := by
  have hself : j ∈ beyondSet rows x (Spec.mirror j 0 u) ↔ j ∉ beyondSet rows x u := by
    simp only [mem_beyondSet, Spec.Beyond, Pi.sub_apply, mirror_same, mul_zero, zero_sub, sub_neg_eq_add, sub_lt_self_iff,
      lt_sub_self_neg, add_lt_iff_neg_left, lt_add_iff_pos_right]
    rcases touched_iff.mp hj with ⟨hi, h⟩ | ⟨lo, h⟩
    · have h2 : ¬ ∃ lo, rows.getD j none = some (lo, some (x j)) := by
        rintro ⟨lo, hl⟩
        rw [hl] at h
        cases h
        exact lt_irrefl _ (goodRows_lt hrows j hl)
      have h1 : ∃ hi, rows.getD j none = some (some (x j), hi) := ⟨hi, h⟩
      simp only [h1, h2, true_and, false_and, or_false, not_lt]
      exact ⟨fun h => h.le, fun h => lt_of_le_of_ne h hu⟩
    · have h2 : ¬ ∃ hi, rows.getD j none = some (some (x j), hi) := by
        rintro ⟨hi, hl⟩
        rw [hl] at h
        cases h
        exact lt_irrefl _ (goodRows_lt hrows j hl)
      have h1 : ∃ lo, rows.getD j none = some (lo, some (x j)) := ⟨lo, h⟩
      simp only [h1, h2, true_and, false_and, false_or, not_lt]
      exact ⟨fun h => h.le, fun h => lt_of_le_of_ne h (Ne.symm hu)⟩
  have hother : ∀ i, i ≠ j → (i ∈ beyondSet rows x (Spec.mirror j 0 u) ↔ i ∈ beyondSet rows x u) := by
    intro i hij
    have : Spec.mirror j 0 u i = u i := by simp only [Spec.mirror, if_neg hij]
    simp only [mem_beyondSet, Spec.Beyond, Pi.sub_apply, this]
  constructor
  · intro h
    ext i
    by_cases hij : i = j
    · subst hij
      have : i ∈ beyondSet rows x (Spec.mirror i 0 u) := by rw [h]; exact Finset.mem_insert_self ..
      exact ⟨fun h' => absurd h' (hself.mp this), fun h' => absurd h' hA⟩
    · rw [← hother i hij, h, Finset.mem_insert, or_iff_right hij]
  · intro h
    ext i
    by_cases hij : i = j
    · subst hij
      simp only [Finset.mem_insert_self, iff_true]
      exact hself.mpr (h ▸ hA)
    · rw [hother i hij, h, Finset.mem_insert, or_iff_right hij]

/-- All orthants of uncoupled dimensions contain the same part of the kernel. -/
lemma orthant_same (D : Dist) {M : Matrix (Fin d) (Fin d) ℝ} {rows : List ReflRow}
    (hrows : Spec.GoodRows d rows) {x : Fin d → ℝ}
    (hunc : ∀ j ∈ Spec.touched rows x, ∀ i, i ≠ j → M j i = 0 ∧ M i j = 0) {A : Finset (Fin d)} (hA : A ⊆ Spec.touched rows x) :
    ∫ u in {u | beyondSet rows x u = A}, unitKernel D M u = ∫ u in {u | beyondSet rows x u = ∅}, unitKernel D M u := by
  induction A using Finset.induction_on with
  | empty => rfl
  | insert j A hj ih =>
    rw [← ih ((Finset.subset_insert j A).trans hA), ← integral_indicator (measurableSet_beyondSet ..),
      ← integral_indicator (measurableSet_beyondSet ..)]
    have ht : j ∈ Spec.touched rows x := hA (Finset.mem_insert_self ..)
    have hemb : MeasurableEmbedding (Spec.mirror (d := d) j 0) := (MeasurableEquiv.mk ⟨Spec.mirror j 0, Spec.mirror j 0,
      mirror_mirror j 0, mirror_mirror j 0⟩ (mirror_preserving j 0).measurable (mirror_preserving j 0).measurable).measurableEmbedding
    rw [← (mirror_preserving j 0).integral_comp hemb]
    have hne : ∀ᵐ u : Fin d → ℝ, u j ≠ 0 := by
      rw [volume_pi]; exact Measure.ae_eval_ne (fun _ : Fin d => (volume : Measure ℝ)) j 0
    refine integral_congr_ae ?_
    filter_upwards [hne] with u hu
    have hk : unitKernel D M (Spec.mirror j 0 u) = unitKernel D M u := by
      unfold unitKernel
      have := mirror_sub_dist2 j (hunc j ht) 0 u 0
      have e0 : Spec.mirror j 0 (0 : Fin d → ℝ) = 0 := by
        funext i
        simp [Spec.mirror]
      rw [e0, sub_zero, sub_zero] at this
      rw [this]
    classical
    simp only [Set.indicator_apply, Set.mem_ofPred_eq, beyondSet_flip hrows ht hu hj, hk]

/-- A sum over the sets of boundaries. -/
lemma orthant_sum (hd : 0 < d) (D : Dist) {M : Matrix (Fin d) (Fin d) ℝ} (hM : M.PosDef) (rows : List ReflRow) (x : Fin d → ℝ)
    (p : Finset (Fin d) → Prop) [DecidablePred p] :
    ∫ u in {u | p (beyondSet rows x u)}, unitKernel D M u
      = ∑ A ∈ (Spec.touched rows x).powerset with p A, ∫ u in {u | beyondSet rows x u = A}, unitKernel D M u := by
  have hset : {u | p (beyondSet rows x u)} = ⋃ A ∈ ((Spec.touched rows x).powerset.filter p), {u | beyondSet rows x u = A} := by
    ext u
    simp only [Set.mem_ofPred_eq, Set.mem_iUnion, Finset.mem_filter, Finset.mem_powerset, exists_prop]
    exact ⟨fun h => ⟨_, ⟨beyondSet_sub .., h⟩, rfl⟩, fun ⟨A, ⟨_, h⟩, e⟩ => e ▸ h⟩
  rw [hset, integral_biUnion_finset _ (fun A _ => measurableSet_beyondSet rows x A) ?_
    fun A _ => (by simpa using unitKernel_integrable hd D hM 0 : Integrable (unitKernel D M)).integrableOn]
  intro A _ B _ hAB
  refine Set.disjoint_left.mpr fun u hu hv => hAB ?_
  exact Eq.trans (Eq.symm hu) hv

/-- The part of the kernel in an orthant. -/
lemma orthant_value (hd : 0 < d) (D : Dist) {M : Matrix (Fin d) (Fin d) ℝ} (hM : M.PosDef) {rows : List ReflRow}
    (hrows : Spec.GoodRows d rows) {x : Fin d → ℝ}
    (hunc : ∀ j ∈ Spec.touched rows x, ∀ i, i ≠ j → M j i = 0 ∧ M i j = 0) :
    ∫ u in {u | beyondSet rows x u = ∅}, unitKernel D M u = 1 / 2 ^ (Spec.touched rows x).card := by
  have h := orthant_sum hd D hM rows x (fun _ => True)
  simp only [Finset.filter_true] at h
  rw [Finset.sum_congr rfl fun A hA => orthant_same D hrows hunc (Finset.mem_powerset.mp hA), Finset.sum_const,
    Finset.card_powerset, nsmul_eq_mul] at h
  have h1 : ∫ u in {_u : Fin d → ℝ | True}, unitKernel D M u = 1 := by
    have : {_u : Fin d → ℝ | True} = Set.univ := by ext; simp
    rw [this, setIntegral_univ, unitKernel_integral hd D hM]
  rw [h1] at h
  push_cast at h
  rw [eq_div_iff (by positivity), mul_comm]
  exact h.symm

/-- The part of the kernel in the cone beyond at most one boundary. -/
lemma oneBeyond_value (hd : 0 < d) (D : Dist) {M : Matrix (Fin d) (Fin d) ℝ} (hM : M.PosDef) {rows : List ReflRow}
    (hrows : Spec.GoodRows d rows) {x : Fin d → ℝ}
    (hunc : ∀ j ∈ Spec.touched rows x, ∀ i, i ≠ j → M j i = 0 ∧ M i j = 0) :
    ∫ u in {u | x - u ∈ Spec.OneBeyond rows x}, unitKernel D M u
      = ((Spec.touched rows x).card + 1) / 2 ^ (Spec.touched rows x).card := by
  simp only [oneBeyond_iff]
  rw [orthant_sum hd D hM rows x (fun A => A.card ≤ 1), Finset.sum_congr rfl fun A hA =>
    (orthant_same D hrows hunc (Finset.mem_powerset.mp (Finset.mem_filter.mp hA).1)).trans (orthant_value hd D hM hrows hunc),
    Finset.sum_const, nsmul_eq_mul]
  have hcard : ((Spec.touched rows x).powerset.filter fun A => A.card ≤ 1).card = (Spec.touched rows x).card + 1 := by
    have : ((Spec.touched rows x).powerset.filter fun A => A.card ≤ 1)
        = (Spec.touched rows x).powersetCard 0 ∪ (Spec.touched rows x).powersetCard 1 := by
      ext A
      simp only [Finset.mem_filter, Finset.mem_powerset, Finset.mem_union, Finset.mem_powersetCard, ← and_or_left]
      refine and_congr_right fun _ => ?_
      omega
    rw [this, Finset.card_union_of_disjoint, Finset.card_powersetCard, Finset.card_powersetCard, Nat.choose_zero_right,
      Nat.choose_one_right, add_comm]
    rw [Finset.disjoint_left]
    intro A h0 h1
    rw [Finset.mem_powersetCard] at h0 h1
    omega
  rw [hcard]
  push_cast
  ring

/-- With at most one touched boundary nothing is lost. -/
lemma oneBeyond_all (hd : 0 < d) (D : Dist) {M : Matrix (Fin d) (Fin d) ℝ} (hM : M.PosDef) {rows : List ReflRow}
    {x : Fin d → ℝ} (h1 : (Spec.touched rows x).card ≤ 1) :
    ∫ u in {u | x - u ∈ Spec.OneBeyond rows x}, unitKernel D M u = 1 := by
  have : {u | x - u ∈ Spec.OneBeyond rows x} = Set.univ := by
    ext u
    simp only [oneBeyond_iff, Set.mem_ofPred_eq, Set.mem_univ, iff_true]
    exact (Finset.card_le_card (beyondSet_sub rows x u)).trans h1
  rw [this, setIntegral_univ, unitKernel_integral hd D hM]

/-- The means have a limit at every point. -/
lemma boundary_means (hd : 0 < d) (D : Dist) {M : Matrix (Fin d) (Fin d) ℝ} (hM : M.PosDef) {rows : List ReflRow}
    (hrows : Spec.GoodRows d rows) {f : (Fin d → ℝ) → ℝ} (hfi : Integrable f) (hf : ∀ z ∉ Spec.Allowed rows, f z = 0)
    {x : Fin d → ℝ} (hx : x ∈ Spec.Allowed rows) (hfx : ContinuousWithinAt f (Spec.Allowed rows) x) {h : ℕ → ℝ}
    (hh : ∀ n, 0 < h n) (h0 : Tendsto h atTop (𝓝 0)) :
    Tendsto (fun n => ∫ z, unitKernel D ((h n ^ 2) • M) (x - z) * ((images d rows).map fun m => f (m z)).sum) atTop
      (𝓝 (f x * ∫ u in {u | x - u ∈ Spec.OneBeyond rows x}, unitKernel D M u)) := by
  have hae := folded_ae (d := d) hf
  have hgi : Integrable (folded rows f) := by
    refine Integrable.congr ?_ hae
    have : ∀ l : List ((Fin d → ℝ) → Fin d → ℝ), (∀ m ∈ l, m ∈ images d rows) → Integrable fun z => (l.map fun m => f (m z)).sum := by
      intro l
      induction l with
      | nil => intro _; simp
      | cons m l ih =>
        intro hl
        simp only [List.map_cons, List.sum_cons]
        exact ((images_spec (hl m (List.mem_cons_self ..))).1.integrable_comp_of_integrable hfi).add
          (ih fun m' h' => hl m' (List.mem_cons_of_mem _ h'))
    exact this _ fun _ h => h
  obtain ⟨l1, l2⟩ := folded_limit hrows hf hx hfx
  have := cone_mean_tendsto hd D hM hgi (measurableSet_oneBeyond rows x) (fun t ht u => by
    simp only [Spec.OneBeyond, Set.mem_ofPred_eq, beyond_smul ht]) l1 l2 hh h0
  refine this.congr fun n => integral_congr_ae ?_
  filter_upwards [hae] with z hz
  rw [← hz]

/-- The part of the kernel in a cone does not depend on the size of the kernel. -/
lemma cone_scale (D : Dist) (M : Matrix (Fin d) (Fin d) ℝ) {B : Set (Fin d → ℝ)} (hB : MeasurableSet B)
    (hcone : ∀ t : ℝ, 0 < t → ∀ u, t • u ∈ B ↔ u ∈ B) {r : ℝ} (hr : 0 < r) :
    ∫ u in B, unitKernel D (r • M) u = ∫ u in B, unitKernel D M u := by
  classical
  set h := Real.sqrt r with hh
  have hp : 0 < h := Real.sqrt_pos.mpr hr
  have hsq : r = h ^ 2 := (Real.sq_sqrt hr.le).symm
  rw [← integral_indicator hB, ← integral_indicator hB]
  have key := Measure.integral_comp_smul (volume : Measure (Fin d → ℝ)) (fun z => B.indicator (unitKernel D (r • M)) z) h
  have hpt : ∀ v, B.indicator (unitKernel D (r • M)) (h • v) = h⁻¹ ^ d * B.indicator (unitKernel D M) v := by
    intro v
    simp only [Set.indicator_apply, hcone h hp]
    split_ifs
    · rw [hsq, unitKernel_scale D M hp, inv_smul_smul₀ hp.ne']
    · simp
  simp only [hpt] at key
  rw [integral_const_mul, Module.finrank_fintype_fun_eq_card, Fintype.card_fin, abs_of_nonneg (by positivity), smul_eq_mul,
    ← inv_pow] at key
  exact (mul_left_cancel₀ (by positivity) key).symm

lemma shape_pos_of_lt (D : Dist) {s : ℝ} (hs : s < 1) : 0 < Spec.shape D s := by
  cases D with
  | gaussian => exact Real.exp_pos _
  | box => simp [Spec.shape, hs.le]
  | parabola => simp only [Spec.shape, if_pos hs.le]; linarith
  | triweight =>
    simp only [Spec.shape, if_pos hs.le]
    have : 0 < 1 - s := by linarith
    positivity

/-- Where two boundaries meet a part of the kernel is lost. -/
lemma oneBeyond_lt (hd : 0 < d) (D : Dist) {M : Matrix (Fin d) (Fin d) ℝ} (hM : M.PosDef) {rows : List ReflRow}
    {x : Fin d → ℝ} (h1 : 1 < (Spec.touched rows x).card) :
    ∫ u in {u | x - u ∈ Spec.OneBeyond rows x}, unitKernel D M u < 1 := by
  obtain ⟨i, hi, j, hj, hij⟩ := Finset.one_lt_card.mp h1
  have hKi : Integrable (unitKernel D M) := by simpa using unitKernel_integrable hd D hM 0
  have hm : MeasurableSet {u | x - u ∈ Spec.OneBeyond rows x} :=
    (measurableSet_oneBeyond rows x).preimage (measurable_const.sub measurable_id)
  have htot := integral_add_compl hm hKi
  rw [unitKernel_integral hd D hM] at htot
  suffices 0 < ∫ u in {u | x - u ∈ Spec.OneBeyond rows x}ᶜ, unitKernel D M u by linarith
  rw [setIntegral_pos_iff_support_of_nonneg_ae (Eventually.of_forall fun u => unitKernel_nonneg hd D hM u) hKi.integrableOn]
  -- a direction beyond both boundaries
  have hdir : ∀ l ∈ Spec.touched rows x, ∃ s : ℝ, s ≠ 0 ∧ ∀ u : Fin d → ℝ, 0 < s * u l → Spec.Beyond rows x l (x - u) := by
    intro l hl
    rcases touched_iff.mp hl with h | h
    · exact ⟨1, one_ne_zero, fun u hu => Or.inl ⟨h, by simp only [Pi.sub_apply]; linarith⟩⟩
    · exact ⟨-1, by norm_num, fun u hu => Or.inr ⟨h, by simp only [Pi.sub_apply]; linarith⟩⟩
  obtain ⟨si, hsi0, hsi⟩ := hdir i hi
  obtain ⟨sj, hsj0, hsj⟩ := hdir j hj
  have hcd : Continuous (Spec.dist2 M) := by
    unfold Spec.dist2
    simp only [dotProduct, mulVec]
    fun_prop
  set U := {u : Fin d → ℝ | 0 < si * u i} ∩ ({u | 0 < sj * u j} ∩ {u | Spec.dist2 M u < 1}) with hU
  have hopen : IsOpen U := (isOpen_lt continuous_const (by fun_prop)).inter
    ((isOpen_lt continuous_const (by fun_prop)).inter (isOpen_lt hcd continuous_const))
  have hne : U.Nonempty := by
    set v : Fin d → ℝ := Function.update (Function.update 0 i si) j sj with hv
    have hvi : v i = si := by rw [hv, Function.update_of_ne hij, Function.update_self]
    have hvj : v j = sj := by rw [hv, Function.update_self]
    have h0 := dist2_nonneg' hM v
    have ht : 0 < (1 + Spec.dist2 M v)⁻¹ := by positivity
    refine ⟨(1 + Spec.dist2 M v)⁻¹ • v, ?_, ?_, ?_⟩
    · simp only [Set.mem_ofPred_eq, Pi.smul_apply, smul_eq_mul, hvi]
      have := mul_self_pos.mpr hsi0
      nlinarith [mul_pos ht this]
    · simp only [Set.mem_ofPred_eq, Pi.smul_apply, smul_eq_mul, hvj]
      have := mul_self_pos.mpr hsj0
      nlinarith [mul_pos ht this]
    · simp only [Set.mem_ofPred_eq, dist2_smul_vec, inv_pow]
      rw [inv_mul_lt_iff₀ (by positivity)]
      nlinarith
  refine lt_of_lt_of_le (hopen.measure_pos volume hne) (measure_mono fun u hu => ⟨?_, ?_⟩)
  · refine ne_of_gt (div_pos (shape_pos_of_lt D hu.2.2) (mul_pos (Real.sqrt_pos.mpr hM.det_pos) (D.norm_pos d hd)))
  · exact fun hc => hij (hc i j (hsi u hu.1) (hsj u hu.2.1))

/-! ## C125 -/

/-- Specification: the bandwidth argument stands for one number `b` (the name or value given, or Scott's by default). -/
def Spec.OneBandwidth (d : ℕ) (n : ℝ) : BwArg → ℝ → Prop
  | .none, b => Spec.BwMeans d n (.str "scott") b
  | .val v, b => Spec.BwMeans d n v b
  | _, _ => False

lemma bw_one {n : ℕ} {bw : BwArg} {b : ℝ} (hb : Spec.OneBandwidth d n bw b) :
    bwMatrix d n false bw = .ok (Matrix.of fun _ _ => b) := by
  cases bw with
  | none => exact bw_const (bw := .str "scott") hb
  | val v => exact bw_const hb
  | vec => exact hb.elim
  | mat => exact hb.elim

/-- Specification: the covariance that shapes the kernels in the limit of many data: the given one or that of the law of
the data. -/
noncomputable def Spec.limitCov (P : Measure Ω) (X : ℕ → Ω → Fin d → ℝ) (C : Option (Matrix (Fin d) (Fin d) ℝ)) :
    Matrix (Fin d) (Fin d) ℝ :=
  C.getD (Matrix.of fun i j => covariance (fun ω => X 0 ω i) (fun ω => X 0 ω j) P)

/-- Specification: the pdf at `x` of the KDE of the first `n` data tends to `L`, in probability. -/
def Spec.PdfTendsTo (P : Measure Ω) (X : ℕ → Ω → Fin d → ℝ) (E : Ext) (srt : List ℝ → List ℕ) (D : Dist) (bw : ℕ → BwArg)
    (C : Option (Matrix (Fin d) (Fin d) ℝ)) (reflect : Reflect) (x : Fin d → ℝ) (L : ℝ) : Prop :=
  ∀ ε : ℝ, 0 < ε → Tendsto (fun n : ℕ => P {ω | ¬ ∃ k F,
    KDE.init E { dataset := List.ofFn fun i : Fin n => X i ω, kernel := .cls D, bandwidth := bw n, covariance := C,
                 reflect := reflect } = .ok k ∧
    Spec.Reports E srt k F ∧ |F x - L| < ε}) atTop (𝓝 0)

lemma limitCov_posDef {X : ℕ → Ω → Fin d → ℝ} {f : (Fin d → ℝ) → ℝ} (hX : Spec.DrawnFrom P X f)
    {C : Option (Matrix (Fin d) (Fin d) ℝ)} (hC : ∀ c, C = some c → c.PosDef)
    (hmom : C = none → Integrable fun y => ‖y‖ ^ 2 * f y) : (Spec.limitCov P X C).PosDef := by
  cases C with
  | some c => exact hC c rfl
  | none => exact trueCov_posDef (hX.measurable 0) (coord_memLp hX (hmom rfl)) (by
      rw [hX.law 0]; exact withDensity_absolutelyContinuous _ _)

lemma cone_oneBeyond (rows : List ReflRow) (x : Fin d → ℝ) {t : ℝ} (ht : 0 < t) (u : Fin d → ℝ) :
    x - t • u ∈ Spec.OneBeyond rows x ↔ x - u ∈ Spec.OneBeyond rows x := by
  simp only [Spec.OneBeyond, Set.mem_ofPred_eq, beyond_smul ht]

/-- The limit of the pdf at any point. -/
lemma boundary_limit (hd : 0 < d) {X : ℕ → Ω → Fin d → ℝ} {f : (Fin d → ℝ) → ℝ} (hX : Spec.DrawnFrom P X f)
    {C : Option (Matrix (Fin d) (Fin d) ℝ)} (hC : ∀ c, C = some c → c.PosDef)
    (hmom : C = none → Integrable fun y => ‖y‖ ^ 2 * f y) {rows : List ReflRow} (hrows : Spec.GoodRows d rows)
    (hf : ∀ z ∉ Spec.Allowed rows, f z = 0) {x : Fin d → ℝ} (hx : x ∈ Spec.Allowed rows)
    (hfx : ContinuousWithinAt f (Spec.Allowed rows) x) (D : Dist) (E : Ext) (srt : List ℝ → List ℕ) (bw : ℕ → BwArg)
    (h : ℕ → ℝ) (hh : Spec.Shrinks d h) (hb : ∀ n : ℕ, 1 < n → Spec.OneBandwidth d n (bw n) (h n)) :
    Spec.PdfTendsTo P X E srt D bw C (Reflect.ofChecked (some rows)) x
      (f x * ∫ u in {u | x - u ∈ Spec.OneBeyond rows x}, unitKernel D (Spec.limitCov P X C) u) := by
  intro ε hε
  have hS := limitCov_posDef hX hC hmom
  cases C with
  | some c =>
    exact boundary_given hd hX hrows hx D E srt c (hC c rfl) bw h hh
      (boundary_means hd D (hC c rfl) hrows (density_integrable hX) hf hx hfx hh.1 hh.2.1) (fun n hn => bw_one (hb n hn)) hε
  | none =>
    refine boundary_core hd hX (hmom rfl) hrows hx D E srt bw h hh (fun r hr => ?_) (fun n hn => bw_one (hb n hn)) hε
    have := boundary_means hd D (hS.smul hr) hrows (density_integrable hX) hf hx hfx hh.1 hh.2.1
    rwa [cone_scale (B := {u | x - u ∈ Spec.OneBeyond rows x}) D _ ((measurableSet_oneBeyond rows x).preimage (measurable_const.sub measurable_id))
      (fun t ht u => cone_oneBeyond rows x ht u) hr] at this

/-- **C125**, the full claim: with `reflect` the pdf tends to the density of the data, everywhere within the boundaries. -/
def C125_Claim : Prop :=
  ∀ (d : ℕ) (_ : 0 < d) (Ω : Type) (_ : MeasurableSpace Ω) (P : Measure Ω) (_ : IsProbabilityMeasure P)
    (X : ℕ → Ω → Fin d → ℝ) (f : (Fin d → ℝ) → ℝ) (_ : Spec.DrawnFrom P X f) (C : Option (Matrix (Fin d) (Fin d) ℝ))
    (_ : ∀ c, C = some c → c.PosDef) (_ : C = none → Integrable fun y => ‖y‖ ^ 2 * f y) (rows : List ReflRow)
    (_ : Spec.GoodRows d rows) (_ : ∀ z ∉ Spec.Allowed rows, f z = 0) (x : Fin d → ℝ) (_ : x ∈ Spec.Allowed rows)
    (_ : ContinuousWithinAt f (Spec.Allowed rows) x) (D : Dist) (E : Ext) (srt : List ℝ → List ℕ) (bw : ℕ → BwArg)
    (h : ℕ → ℝ) (_ : Spec.Shrinks d h) (_ : ∀ n : ℕ, 1 < n → Spec.OneBandwidth d n (bw n) (h n)),
    Spec.PdfTendsTo P X E srt D bw C (Reflect.ofChecked (some rows)) x (f x)

/-- **C125 (partial).** Let the data be independent points with a density `f` that vanishes outside the boundaries given
as `reflect`.  Then the pdf at any point `x` tends to `f x`, inside the boundaries and also on a boundary, provided
`x` does not lie on boundaries of two dimensions.  Missing: the points where boundaries of several dimensions meet, at
which the claim is false. -/
theorem C125_partial (hd : 0 < d) {X : ℕ → Ω → Fin d → ℝ} {f : (Fin d → ℝ) → ℝ} (hX : Spec.DrawnFrom P X f)
    {C : Option (Matrix (Fin d) (Fin d) ℝ)} (hC : ∀ c, C = some c → c.PosDef)
    (hmom : C = none → Integrable fun y => ‖y‖ ^ 2 * f y) {rows : List ReflRow} (hrows : Spec.GoodRows d rows)
    (hf : ∀ z ∉ Spec.Allowed rows, f z = 0) {x : Fin d → ℝ} (hx : x ∈ Spec.Allowed rows)
    (hfx : ContinuousWithinAt f (Spec.Allowed rows) x) (hone : (Spec.touched rows x).card ≤ 1) (D : Dist) (E : Ext)
    (srt : List ℝ → List ℕ) (bw : ℕ → BwArg) (h : ℕ → ℝ) (hh : Spec.Shrinks d h)
    (hb : ∀ n : ℕ, 1 < n → Spec.OneBandwidth d n (bw n) (h n)) :
    Spec.PdfTendsTo P X E srt D bw C (Reflect.ofChecked (some rows)) x (f x) := by
  have := boundary_limit hd hX hC hmom hrows hf hx hfx D E srt bw h hh hb
  rwa [oneBeyond_all hd D (limitCov_posDef hX hC hmom) hone, mul_one] at this

/-- **C125 where boundaries meet.** At a point with positive density at which the boundaries of two dimensions meet, the
pdf tends to a number below the density. -/
theorem C125_corner_low (hd : 0 < d) {X : ℕ → Ω → Fin d → ℝ} {f : (Fin d → ℝ) → ℝ} (hX : Spec.DrawnFrom P X f)
    {C : Option (Matrix (Fin d) (Fin d) ℝ)} (hC : ∀ c, C = some c → c.PosDef)
    (hmom : C = none → Integrable fun y => ‖y‖ ^ 2 * f y) {rows : List ReflRow} (hrows : Spec.GoodRows d rows)
    (hf : ∀ z ∉ Spec.Allowed rows, f z = 0) {x : Fin d → ℝ} (hx : x ∈ Spec.Allowed rows)
    (hfx : ContinuousWithinAt f (Spec.Allowed rows) x) (hpos : 0 < f x) (htwo : 1 < (Spec.touched rows x).card) (D : Dist) :
    ∃ L < f x, ∀ (E : Ext) (srt : List ℝ → List ℕ) (bw : ℕ → BwArg) (h : ℕ → ℝ), Spec.Shrinks d h →
      (∀ n : ℕ, 1 < n → Spec.OneBandwidth d n (bw n) (h n)) →
      Spec.PdfTendsTo P X E srt D bw C (Reflect.ofChecked (some rows)) x L := by
  refine ⟨_, ?_, fun E srt bw h hh hb => boundary_limit hd hX hC hmom hrows hf hx hfx D E srt bw h hh hb⟩
  have := oneBeyond_lt hd D (limitCov_posDef hX hC hmom) htwo
  calc _ < f x * 1 := mul_lt_mul_of_pos_left this hpos
    _ = f x := mul_one _

/-- **C125 where boundaries of uncoupled dimensions meet.** If the `m` dimensions on whose boundaries `x` lies are not
coupled to other dimensions by the covariance, the pdf tends to `(m + 1) / 2 ^ m` times the density. -/
theorem C125_corner (hd : 0 < d) {X : ℕ → Ω → Fin d → ℝ} {f : (Fin d → ℝ) → ℝ} (hX : Spec.DrawnFrom P X f)
    {C : Option (Matrix (Fin d) (Fin d) ℝ)} (hC : ∀ c, C = some c → c.PosDef)
    (hmom : C = none → Integrable fun y => ‖y‖ ^ 2 * f y) {rows : List ReflRow} (hrows : Spec.GoodRows d rows)
    (hf : ∀ z ∉ Spec.Allowed rows, f z = 0) {x : Fin d → ℝ} (hx : x ∈ Spec.Allowed rows)
    (hfx : ContinuousWithinAt f (Spec.Allowed rows) x)
    (hunc : ∀ j ∈ Spec.touched rows x, ∀ i, i ≠ j → Spec.limitCov P X C j i = 0) (D : Dist) (E : Ext)
    (srt : List ℝ → List ℕ) (bw : ℕ → BwArg) (h : ℕ → ℝ) (hh : Spec.Shrinks d h)
    (hb : ∀ n : ℕ, 1 < n → Spec.OneBandwidth d n (bw n) (h n)) :
    Spec.PdfTendsTo P X E srt D bw C (Reflect.ofChecked (some rows)) x
      (f x * (((Spec.touched rows x).card + 1) / 2 ^ (Spec.touched rows x).card)) := by
  have := boundary_limit hd hX hC hmom hrows hf hx hfx D E srt bw h hh hb
  have hS := limitCov_posDef hX hC hmom
  rwa [oneBeyond_value hd D hS hrows fun j hj i hij => ⟨hunc j hj i hij, by
    have := hS.isHermitian.apply j i
    rw [hunc j hj i hij] at this
    simpa using this⟩] at this

/-- The pdf has at most one limit. -/
lemma pdfTendsTo_unique {X : ℕ → Ω → Fin d → ℝ} {E : Ext} {srt : List ℝ → List ℕ} {D : Dist} {bw : ℕ → BwArg}
    {C : Option (Matrix (Fin d) (Fin d) ℝ)} {reflect : Reflect} {x : Fin d → ℝ} {L L' : ℝ}
    (h1 : Spec.PdfTendsTo P X E srt D bw C reflect x L) (h2 : Spec.PdfTendsTo P X E srt D bw C reflect x L') : L = L' := by
  by_contra hne
  have hε : 0 < |L - L'| / 2 := by
    have := abs_pos.mpr (sub_ne_zero.mpr hne)
    linarith
  have hlim := (h1 _ hε).add (h2 _ hε)
  rw [add_zero] at hlim
  have := ge_of_tendsto' (b := (1 : ENNReal)) hlim fun n => by
    refine le_trans ?_ (measure_union_le (μ := P) _ _)
    rw [← measure_univ (μ := P)]
    refine measure_mono fun ω _ => ?_
    by_contra hc
    simp only [Set.mem_union, Set.mem_ofPred_eq, not_or, not_not] at hc
    obtain ⟨⟨k, F, hk, hF, hd1⟩, ⟨k', F', hk', hF', hd2⟩⟩ := hc
    rw [hk] at hk'
    obtain rfl := Except.ok.inj hk'
    have e := (hF [x]).symm.trans (hF' [x])
    have e : F x = F' x := by
      have := congrArg (fun p => p.2.vals) (Except.ok.inj e)
      simpa using this
    rw [e] at hd1
    have := abs_sub_le L (F' x) L'
    rw [abs_sub_comm] at hd1
    linarith
  simp at this

/-- The unit square as boundaries. -/
def squareRows : List ReflRow := [some (some 0, some 1), some (some 0, some 1)]

lemma squareRows_good : Spec.GoodRows 2 squareRows := by
  refine ⟨rfl, ?_, ⟨_, List.mem_cons_self ..⟩⟩
  intro lo hi h
  simp only [squareRows, List.mem_cons, List.not_mem_nil, or_false, or_self, Option.some.injEq, Prod.mk.injEq] at h
  obtain ⟨rfl, rfl⟩ := h
  norm_num

lemma squareRows_allowed : Spec.Allowed (d := 2) squareRows = Set.Icc 0 1 := by
  have hr : ∀ j : Fin 2, squareRows.getD j none = some (some 0, some 1) := by
    intro j
    fin_cases j <;> rfl
  ext z
  simp only [Spec.Allowed, Set.mem_ofPred_eq, hr, Set.mem_Icc, Pi.le_def, ← forall_and]
  refine forall_congr' fun j => ?_
  constructor
  · intro h
    constructor
    · exact not_lt.mp fun hc => h ⟨_, _, rfl, Or.inl ⟨0, rfl, hc⟩⟩
    · exact not_lt.mp fun hc => h ⟨_, _, rfl, Or.inr ⟨1, rfl, hc⟩⟩
  · rintro ⟨h1, h2⟩ ⟨lo, hi, he, ⟨l, hl, hz⟩ | ⟨l, hl, hz⟩⟩
    · cases he
      cases hl
      exact absurd hz (not_lt.mpr h1)
    · cases he
      cases hl
      exact absurd hz (not_lt.mpr h2)

lemma square_within (x : Fin 2 → ℝ) (hx : x ∈ Set.Icc (0 : Fin 2 → ℝ) 1) :
    ContinuousWithinAt ((Set.Icc (0 : Fin 2 → ℝ) 1).indicator (1 : (Fin 2 → ℝ) → ℝ)) (Set.Icc 0 1) x :=
  ContinuousWithinAt.congr (f := fun _ => (1 : ℝ)) continuousWithinAt_const
    (fun y hy => by rw [Set.indicator_of_mem hy]; rfl) (by rw [Set.indicator_of_mem hx]; rfl)

lemma square_touched (x : Fin 2 → ℝ) : Spec.touched squareRows x = Finset.univ.filter fun j => x j = 0 ∨ x j = 1 := by
  have hr : ∀ j : Fin 2, squareRows.getD j none = some (some 0, some 1) := by
    intro j
    fin_cases j <;> rfl
  ext j
  simp only [Spec.touched, hr, Spec.bounds, Finset.mem_filter, Finset.mem_univ, true_and, List.mem_append, Option.mem_toList,
    Option.some.injEq]
  rw [eq_comm, @eq_comm _ 1]

/-- **C125 is false as it stands**: at the corners of a square filled with data the pdf tends to less than the density. -/
theorem C125_refuted : ¬ C125_Claim := by
  intro hclaim
  obtain ⟨Ω, mΩ, P, hP, X, hX, hmom, -⟩ := exists_uniform_data 2
  have h0 : (0 : Fin 2 → ℝ) ∈ Set.Icc (0 : Fin 2 → ℝ) 1 := ⟨le_rfl, zero_le_one⟩
  have hz : ∀ z ∉ Spec.Allowed (d := 2) squareRows, (Set.Icc (0 : Fin 2 → ℝ) 1).indicator (1 : (Fin 2 → ℝ) → ℝ) z = 0 := by
    intro z hz
    rw [squareRows_allowed] at hz
    exact Set.indicator_of_notMem hz _
  have hw : ContinuousWithinAt ((Set.Icc (0 : Fin 2 → ℝ) 1).indicator (1 : (Fin 2 → ℝ) → ℝ)) (Spec.Allowed squareRows) 0 := by
    rw [squareRows_allowed]
    exact square_within 0 h0
  have ha : (0 : Fin 2 → ℝ) ∈ Spec.Allowed squareRows := by rw [squareRows_allowed]; exact h0
  have hb : ∀ n : ℕ, 1 < n → Spec.OneBandwidth 2 n .none (if n = 0 then 1 else ((n : ℝ) * 1) ^ (-1 / (((2 : ℕ) : ℝ) + 4))) := by
    intro n hn
    simp only [if_neg (show n ≠ 0 by omega), mul_one]
    exact ⟨by positivity, Or.inl ⟨rfl, rfl⟩⟩
  obtain ⟨L, hL, hlim⟩ := C125_corner_low two_pos hX (C := none) (by simp) (fun _ => hmom) squareRows_good hz ha hw
    (by rw [Set.indicator_of_mem h0]; exact one_pos) (by rw [square_touched]; simp) .gaussian
  have h1 := hlim ⟨fun M => M⁻¹, fun _ => 0⟩ (fun _ => []) (fun _ => .none) _ (shrinks_power 2 one_pos) hb
  have h2 := hclaim 2 two_pos Ω mΩ P hP X _ hX none (by simp) (fun _ => hmom) squareRows squareRows_good hz 0 ha hw .gaussian
    ⟨fun M => M⁻¹, fun _ => 0⟩ (fun _ => []) (fun _ => .none) _ (shrinks_power 2 one_pos) hb
  exact hL.ne (pdfTendsTo_unique h1 h2)

/-- `KDE(data, reflect=[[0, 1], [0, 1]])` of uniform points in the square: the pdf tends to 1 inside and on the sides. -/
example (E : Ext) (srt : List ℝ → List ℕ) :
    ∃ (Ω : Type) (_ : MeasurableSpace Ω) (P : Measure Ω) (_ : IsProbabilityMeasure P) (X : ℕ → Ω → Fin 2 → ℝ),
      ∀ x ∈ Set.Icc (0 : Fin 2 → ℝ) 1, (x 0 ≠ 0 ∧ x 0 ≠ 1) →
        Spec.PdfTendsTo P X E srt .gaussian (fun _ => .none) none (Reflect.ofChecked (some squareRows)) x 1 := by
  obtain ⟨Ω, mΩ, P, hP, X, hX, hmom, -⟩ := exists_uniform_data 2
  refine ⟨Ω, mΩ, P, hP, X, fun x hx hx0 => ?_⟩
  have h := C125_partial two_pos hX (C := none) (by simp) (fun _ => hmom) squareRows_good (x := x)
    (fun z hz => Set.indicator_of_notMem (squareRows_allowed ▸ hz) _) (squareRows_allowed ▸ hx)
    (squareRows_allowed ▸ square_within x hx) ?_ .gaussian E srt (fun _ => .none) _ (shrinks_power 2 one_pos) ?_
  · rwa [Set.indicator_of_mem hx] at h
  · rw [square_touched, Finset.card_le_one]
    intro a ha b hb
    simp only [Finset.mem_filter, Finset.mem_univ, true_and] at ha hb
    have : ∀ j : Fin 2, x j = 0 ∨ x j = 1 → j = 1 := by
      intro j hj
      fin_cases j
      · exact absurd hj (not_or.mpr hx0)
      · rfl
    rw [this a ha, this b hb]
  · intro n hn
    simp only [if_neg (show n ≠ 0 by omega), mul_one]
    exact ⟨by positivity, Or.inl ⟨rfl, rfl⟩⟩

/-- With the unit matrix as covariance the pdf at the corner tends to 3/4. -/
example (D : Dist) (E : Ext) (srt : List ℝ → List ℕ) :
    ∃ (Ω : Type) (_ : MeasurableSpace Ω) (P : Measure Ω) (_ : IsProbabilityMeasure P) (X : ℕ → Ω → Fin 2 → ℝ),
      Spec.PdfTendsTo P X E srt D (fun _ => .none) (some 1) (Reflect.ofChecked (some squareRows)) 0 (3 / 4) := by
  obtain ⟨Ω, mΩ, P, hP, X, hX, hmom, -⟩ := exists_uniform_data 2
  have h0 : (0 : Fin 2 → ℝ) ∈ Set.Icc (0 : Fin 2 → ℝ) 1 := ⟨le_rfl, zero_le_one⟩
  refine ⟨Ω, mΩ, P, hP, X, ?_⟩
  have h := C125_corner two_pos hX (C := some 1) (by rintro c ⟨⟩; exact PosDef.one) (by simp) squareRows_good (x := 0)
    (fun z hz => Set.indicator_of_notMem (squareRows_allowed ▸ hz) _) (squareRows_allowed ▸ h0)
    (squareRows_allowed ▸ square_within 0 h0) (fun j _ i hij => Matrix.one_apply_ne (Ne.symm hij)) D E srt (fun _ => .none) _
    (shrinks_power 2 one_pos) ?_
  · rw [Set.indicator_of_mem h0, square_touched] at h
    simp only [Pi.zero_apply, true_or, Finset.filter_true, Finset.card_univ, Fintype.card_fin, Pi.one_apply] at h
    norm_num at h
    exact h
  · intro n hn
    simp only [if_neg (show n ≠ 0 by omega), mul_one]
    exact ⟨by positivity, Or.inl ⟨rfl, rfl⟩⟩

/-! ## C126: without boundaries -/

/-- The part of the kernel on one side of a boundary. -/
lemma halfspace_value (hd : 0 < d) (D : Dist) {M : Matrix (Fin d) (Fin d) ℝ} (hM : M.PosDef) {rows : List ReflRow}
    (hrows : Spec.GoodRows d rows) {x : Fin d → ℝ} (hone : (Spec.touched rows x).card = 1) :
    ∫ u in {u | beyondSet rows x u = ∅}, unitKernel D M u = 1 / 2 := by
  obtain ⟨j, hj⟩ := Finset.card_eq_one.mp hone
  have ht : j ∈ Spec.touched rows x := by rw [hj]; exact Finset.mem_singleton_self j
  have hsame : ∫ u in {u | beyondSet rows x u = {j}}, unitKernel D M u = ∫ u in {u | beyondSet rows x u = ∅}, unitKernel D M u := by
    rw [← integral_indicator (measurableSet_beyondSet ..), ← integral_indicator (measurableSet_beyondSet ..),
      ← integral_neg_eq_self]
    have hne : ∀ᵐ u : Fin d → ℝ, u j ≠ 0 := by
      rw [volume_pi]; exact Measure.ae_eval_ne (fun _ : Fin d => (volume : Measure ℝ)) j 0
    refine integral_congr_ae ?_
    filter_upwards [hne] with u hu
    have hk : unitKernel D M (-u) = unitKernel D M u := by
      unfold unitKernel
      have := dist2_smul_vec M (-1) u
      rw [neg_one_smul] at this
      rw [this]
      norm_num
    have hset : beyondSet rows x (-u) = {j} ↔ beyondSet rows x u = ∅ := by
      have hflip := beyondSet_flip hrows ht hu (A := ∅) (Finset.notMem_empty j)
      rw [← hflip]
      have hsub : ∀ v, beyondSet rows x v = insert j ∅ ↔ j ∈ beyondSet rows x v := by
        intro v
        have hs := beyondSet_sub rows x v
        rw [hj] at hs
        constructor
        · intro h
          rw [h]
          exact Finset.mem_insert_self ..
        · intro h
          exact Finset.Subset.antisymm (by simpa using hs) (by simpa using h)
      have e : ({j} : Finset (Fin d)) = insert j ∅ := by simp
      rw [e, hsub, hsub, mem_beyondSet, mem_beyondSet]
      simp only [Spec.Beyond, Pi.sub_apply, mirror_same, Pi.neg_apply, mul_zero, zero_sub]
    classical
    simp only [Set.indicator_apply, Set.mem_ofPred_eq, hset, hk]
  have h := orthant_sum hd D hM rows x (fun _ => True)
  simp only [Finset.filter_true, hj] at h
  have h1 : ∫ u in {_u : Fin d → ℝ | True}, unitKernel D M u = 1 := by
    have : {_u : Fin d → ℝ | True} = Set.univ := by ext; simp
    rw [this, setIntegral_univ, unitKernel_integral hd D hM]
  rw [h1, show ({j} : Finset (Fin d)).powerset = {∅, {j}} from rfl, Finset.sum_pair (by simp), hsame] at h
  linarith

/-- Where a boundary is touched a part of the kernel is lost. -/
lemma inside_lt (hd : 0 < d) (D : Dist) {M : Matrix (Fin d) (Fin d) ℝ} (hM : M.PosDef) {rows : List ReflRow}
    {x : Fin d → ℝ} (h1 : 0 < (Spec.touched rows x).card) :
    ∫ u in {u | beyondSet rows x u = ∅}, unitKernel D M u < 1 := by
  obtain ⟨i, hi⟩ := Finset.card_pos.mp h1
  have hKi : Integrable (unitKernel D M) := by simpa using unitKernel_integrable hd D hM 0
  have htot := integral_add_compl (measurableSet_beyondSet rows x ∅) hKi
  rw [unitKernel_integral hd D hM] at htot
  suffices 0 < ∫ u in {u | beyondSet rows x u = ∅}ᶜ, unitKernel D M u by linarith
  rw [setIntegral_pos_iff_support_of_nonneg_ae (Eventually.of_forall fun u => unitKernel_nonneg hd D hM u) hKi.integrableOn]
  obtain ⟨si, hsi0, hsi⟩ : ∃ s : ℝ, s ≠ 0 ∧ ∀ u : Fin d → ℝ, 0 < s * u i → Spec.Beyond rows x i (x - u) := by
    rcases touched_iff.mp hi with h | h
    · exact ⟨1, one_ne_zero, fun u hu => Or.inl ⟨h, by simp only [Pi.sub_apply]; linarith⟩⟩
    · exact ⟨-1, by norm_num, fun u hu => Or.inr ⟨h, by simp only [Pi.sub_apply]; linarith⟩⟩
  have hcd : Continuous (Spec.dist2 M) := by
    unfold Spec.dist2
    simp only [dotProduct, mulVec]
    fun_prop
  set U := {u : Fin d → ℝ | 0 < si * u i} ∩ {u | Spec.dist2 M u < 1} with hU
  have hopen : IsOpen U := (isOpen_lt continuous_const (by fun_prop)).inter (isOpen_lt hcd continuous_const)
  have hne : U.Nonempty := by
    set v : Fin d → ℝ := Function.update 0 i si with hv
    have hvi : v i = si := by rw [hv, Function.update_self]
    have h0 := dist2_nonneg' hM v
    have ht : 0 < (1 + Spec.dist2 M v)⁻¹ := by positivity
    refine ⟨(1 + Spec.dist2 M v)⁻¹ • v, ?_, ?_⟩
    · simp only [Set.mem_ofPred_eq, Pi.smul_apply, smul_eq_mul, hvi]
      have := mul_self_pos.mpr hsi0
      nlinarith [mul_pos ht this]
    · simp only [Set.mem_ofPred_eq, dist2_smul_vec, inv_pow]
      rw [inv_mul_lt_iff₀ (by positivity)]
      nlinarith
  refine lt_of_lt_of_le (hopen.measure_pos volume hne) (measure_mono fun u hu => ⟨?_, ?_⟩)
  · exact ne_of_gt (div_pos (shape_pos_of_lt D hu.2) (mul_pos (Real.sqrt_pos.mpr hM.det_pos) (D.norm_pos d hd)))
  · intro hc
    have : i ∈ beyondSet rows x u := mem_beyondSet.mpr (hsi u hu.1)
    rw [show beyondSet rows x u = ∅ from hc] at this
    exact absurd this (Finset.notMem_empty i)

/-- The means of the kernels without boundaries. -/
lemma edge_means (hd : 0 < d) (D : Dist) {M : Matrix (Fin d) (Fin d) ℝ} (hM : M.PosDef) {rows : List ReflRow}
    {f : (Fin d → ℝ) → ℝ} (hfi : Integrable f) (hf : ∀ z ∉ Spec.Allowed rows, f z = 0)
    {x : Fin d → ℝ} (hx : x ∈ Spec.Allowed rows) (hfx : ContinuousWithinAt f (Spec.Allowed rows) x) {h : ℕ → ℝ}
    (hh : ∀ n, 0 < h n) (h0 : Tendsto h atTop (𝓝 0)) :
    Tendsto (fun n => ∫ z, unitKernel D ((h n ^ 2) • M) (x - z) * f z) atTop
      (𝓝 (f x * ∫ u in {u | beyondSet rows x u = ∅}, unitKernel D M u)) := by
  have hnear := near_violates hx
  have hA : MeasurableSet {z | ∀ j, ¬ Spec.Beyond rows x j z} := by
    have : {z | ∀ j, ¬ Spec.Beyond rows x j z} = ⋂ j, {z | Spec.Beyond rows x j z}ᶜ := by
      ext z
      simp only [Set.mem_ofPred_eq, Set.mem_iInter, Set.mem_compl_iff]
    rw [this]
    exact MeasurableSet.iInter fun j => (measurableSet_beyond rows x j).compl
  have hiff : ∀ᶠ z in 𝓝 x, z ∈ Spec.Allowed rows ↔ ∀ j, ¬ Spec.Beyond rows x j z := by
    filter_upwards [hnear] with z hz
    exact forall_congr' fun j => not_congr (hz j)
  have h1 : Tendsto f (𝓝[{z | ∀ j, ¬ Spec.Beyond rows x j z}] x) (𝓝 (f x)) := by
    refine hfx.mono_left ?_
    refine le_of_eq (nhdsWithin_eq_iff_eventuallyEq.mpr ?_)
    filter_upwards [hiff] with z hz
    exact propext hz.symm
  have h2 : ∀ᶠ z in 𝓝[{z | ∀ j, ¬ Spec.Beyond rows x j z}ᶜ] x, f z = 0 := by
    rw [eventually_nhdsWithin_iff]
    filter_upwards [hiff] with z hz hc
    exact hf z fun h' => hc (hz.mp h')
  have := cone_mean_tendsto hd D hM hfi hA (fun t ht u => by simp only [Set.mem_ofPred_eq, beyond_smul ht]) h1 h2 hh h0
  have e : {u | x - u ∈ {z | ∀ j, ¬ Spec.Beyond rows x j z}} = {u | beyondSet rows x u = ∅} := by
    ext u
    simp only [Set.mem_ofPred_eq, Finset.eq_empty_iff_forall_notMem, mem_beyondSet]
  rwa [e] at this

lemma cone_inside (rows : List ReflRow) (x : Fin d → ℝ) {t : ℝ} (ht : 0 < t) (u : Fin d → ℝ) :
    beyondSet rows x (t • u) = ∅ ↔ beyondSet rows x u = ∅ := by
  simp only [Finset.eq_empty_iff_forall_notMem, mem_beyondSet, beyond_smul ht]

/-- The limit of the pdf without boundaries. -/
lemma edge_limit (hd : 0 < d) {X : ℕ → Ω → Fin d → ℝ} {f : (Fin d → ℝ) → ℝ} (hX : Spec.DrawnFrom P X f)
    {C : Option (Matrix (Fin d) (Fin d) ℝ)} (hC : ∀ c, C = some c → c.PosDef)
    (hmom : C = none → Integrable fun y => ‖y‖ ^ 2 * f y) {rows : List ReflRow}
    (hf : ∀ z ∉ Spec.Allowed rows, f z = 0) {x : Fin d → ℝ} (hx : x ∈ Spec.Allowed rows)
    (hfx : ContinuousWithinAt f (Spec.Allowed rows) x) (D : Dist) (E : Ext) (srt : List ℝ → List ℕ) (bw : ℕ → BwArg)
    (h : ℕ → ℝ) (hh : Spec.Shrinks d h) (hb : ∀ n : ℕ, 1 < n → Spec.OneBandwidth d n (bw n) (h n)) :
    Spec.PdfTendsTo P X E srt D bw C .none x
      (f x * ∫ u in {u | beyondSet rows x u = ∅}, unitKernel D (Spec.limitCov P X C) u) := by
  intro ε hε
  have hS := limitCov_posDef hX hC hmom
  cases C with
  | some c =>
    refine tendsto_of_tendsto_of_tendsto_of_le_of_le' tendsto_const_nhds (estimate_tendsto_of hd D (hC c rfl) hX hh le_rfl
      (edge_means hd D (hC c rfl) (density_integrable hX) hf hx hfx hh.1 hh.2.1) hε) (Eventually.of_forall fun _ => zero_le) ?_
    filter_upwards [eventually_gt_atTop 1] with n hn
    refine measure_mono fun ω hω => ?_
    by_contra hnot
    simp only [Set.mem_ofPred_eq, not_le] at hnot
    obtain ⟨k, hk, hrep, -⟩ := iid_reports E srt hd D hn (fun i => X i ω) (some c) (by rintro c ⟨⟩; exact hC c rfl) (bw n) (h n)
      (hh.1 n) (bw_one (hb n hn)) (hC c rfl)
    exact hω ⟨k, _, hk, hrep, hnot⟩
  | none =>
    refine consistent_core_of hd hX (hmom rfl) D E srt bw h hh (fun r hr => ?_) (fun n hn => bw_one (hb n hn)) hε
    have := edge_means hd D (hS.smul hr) (density_integrable hX) hf hx hfx hh.1 hh.2.1
    rwa [cone_scale (B := {u | beyondSet rows x u = ∅}) D _ (measurableSet_beyondSet rows x ∅)
      (fun t ht u => cone_inside rows x ht u) hr] at this

/-- **C126.** Let the density `f` of the data vanish outside of a box, and let the KDE be made without `reflect`.  At a
point of one side of the box the pdf tends to half the density. -/
theorem C126_half (hd : 0 < d) {X : ℕ → Ω → Fin d → ℝ} {f : (Fin d → ℝ) → ℝ} (hX : Spec.DrawnFrom P X f)
    {C : Option (Matrix (Fin d) (Fin d) ℝ)} (hC : ∀ c, C = some c → c.PosDef)
    (hmom : C = none → Integrable fun y => ‖y‖ ^ 2 * f y) {box : List ReflRow} (hbox : Spec.GoodRows d box)
    (hf : ∀ z ∉ Spec.Allowed box, f z = 0) {x : Fin d → ℝ} (hx : x ∈ Spec.Allowed box)
    (hfx : ContinuousWithinAt f (Spec.Allowed box) x) (hone : (Spec.touched box x).card = 1) (D : Dist) (E : Ext)
    (srt : List ℝ → List ℕ) (bw : ℕ → BwArg) (h : ℕ → ℝ) (hh : Spec.Shrinks d h)
    (hb : ∀ n : ℕ, 1 < n → Spec.OneBandwidth d n (bw n) (h n)) :
    Spec.PdfTendsTo P X E srt D bw C .none x (f x / 2) := by
  have := edge_limit hd hX hC hmom hf hx hfx D E srt bw h hh hb
  rwa [halfspace_value hd D (limitCov_posDef hX hC hmom) hbox hone, mul_one_div] at this

/-- **C126 at all points of the surface.** Where `f` is positive the pdf tends to a number below the density. -/
theorem C126_low (hd : 0 < d) {X : ℕ → Ω → Fin d → ℝ} {f : (Fin d → ℝ) → ℝ} (hX : Spec.DrawnFrom P X f)
    {C : Option (Matrix (Fin d) (Fin d) ℝ)} (hC : ∀ c, C = some c → c.PosDef)
    (hmom : C = none → Integrable fun y => ‖y‖ ^ 2 * f y) {box : List ReflRow}
    (hf : ∀ z ∉ Spec.Allowed box, f z = 0) {x : Fin d → ℝ} (hx : x ∈ Spec.Allowed box)
    (hfx : ContinuousWithinAt f (Spec.Allowed box) x) (hpos : 0 < f x) (hone : 0 < (Spec.touched box x).card) (D : Dist) :
    ∃ L < f x, ∀ (E : Ext) (srt : List ℝ → List ℕ) (bw : ℕ → BwArg) (h : ℕ → ℝ), Spec.Shrinks d h →
      (∀ n : ℕ, 1 < n → Spec.OneBandwidth d n (bw n) (h n)) → Spec.PdfTendsTo P X E srt D bw C .none x L := by
  refine ⟨_, ?_, fun E srt bw h hh hb => edge_limit hd hX hC hmom hf hx hfx D E srt bw h hh hb⟩
  have := inside_lt hd D (limitCov_posDef hX hC hmom) hone
  calc _ < f x * 1 := mul_lt_mul_of_pos_left this hpos
    _ = f x := mul_one _

/-- **C126 at edges and corners.** If the `m` dimensions on whose sides `x` lies are not coupled to other dimensions by
the covariance, the pdf tends to the density divided by `2 ^ m`. -/
theorem C126_corner (hd : 0 < d) {X : ℕ → Ω → Fin d → ℝ} {f : (Fin d → ℝ) → ℝ} (hX : Spec.DrawnFrom P X f)
    {C : Option (Matrix (Fin d) (Fin d) ℝ)} (hC : ∀ c, C = some c → c.PosDef)
    (hmom : C = none → Integrable fun y => ‖y‖ ^ 2 * f y) {box : List ReflRow} (hbox : Spec.GoodRows d box)
    (hf : ∀ z ∉ Spec.Allowed box, f z = 0) {x : Fin d → ℝ} (hx : x ∈ Spec.Allowed box)
    (hfx : ContinuousWithinAt f (Spec.Allowed box) x)
    (hunc : ∀ j ∈ Spec.touched box x, ∀ i, i ≠ j → Spec.limitCov P X C j i = 0) (D : Dist) (E : Ext)
    (srt : List ℝ → List ℕ) (bw : ℕ → BwArg) (h : ℕ → ℝ) (hh : Spec.Shrinks d h)
    (hb : ∀ n : ℕ, 1 < n → Spec.OneBandwidth d n (bw n) (h n)) :
    Spec.PdfTendsTo P X E srt D bw C .none x (f x / 2 ^ (Spec.touched box x).card) := by
  have := edge_limit hd hX hC hmom hf hx hfx D E srt bw h hh hb
  have hS := limitCov_posDef hX hC hmom
  rwa [orthant_value hd D hS hbox fun j hj i hij => ⟨hunc j hj i hij, by
    have := hS.isHermitian.apply j i
    rw [hunc j hj i hij] at this
    simpa using this⟩, mul_one_div] at this

/-- `KDE(data)` of uniform points in the square: the pdf tends to 1/2 at the middle of a side. -/
example (E : Ext) (srt : List ℝ → List ℕ) :
    ∃ (Ω : Type) (_ : MeasurableSpace Ω) (P : Measure Ω) (_ : IsProbabilityMeasure P) (X : ℕ → Ω → Fin 2 → ℝ),
      Spec.PdfTendsTo P X E srt .gaussian (fun _ => .none) none .none ![1 / 2, 0] (1 / 2) := by
  obtain ⟨Ω, mΩ, P, hP, X, hX, hmom, -⟩ := exists_uniform_data 2
  have hx : (![1 / 2, 0] : Fin 2 → ℝ) ∈ Set.Icc (0 : Fin 2 → ℝ) 1 := by
    constructor <;> intro i <;> fin_cases i <;> norm_num
  refine ⟨Ω, mΩ, P, hP, X, ?_⟩
  have h := C126_half two_pos hX (C := none) (by simp) (fun _ => hmom) squareRows_good (x := ![1 / 2, 0])
    (fun z hz => Set.indicator_of_notMem (squareRows_allowed ▸ hz) _) (squareRows_allowed ▸ hx)
    (squareRows_allowed ▸ square_within _ hx) ?_ .gaussian E srt (fun _ => .none) _ (shrinks_power 2 one_pos) ?_
  · rwa [Set.indicator_of_mem hx] at h
  · rw [square_touched, Finset.card_eq_one]
    refine ⟨1, ?_⟩
    ext j
    fin_cases j <;> norm_num
  · intro n hn
    simp only [if_neg (show n ≠ 0 by omega), mul_one]
    exact ⟨by positivity, Or.inl ⟨rfl, rfl⟩⟩

end Kalepy
