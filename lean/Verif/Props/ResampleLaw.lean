import Mathlib.Analysis.Calculus.Deriv.MeanValue
import Mathlib.Analysis.Calculus.Deriv.Pow
import Mathlib.Analysis.SpecialFunctions.Gamma.Beta
import Mathlib.Analysis.SpecialFunctions.Pow.Real
import Mathlib.MeasureTheory.Measure.Lebesgue.Basic
import Verif.Props.Resample
import Verif.Props.LinAlg

/-!
# Resampling: success (C26), termination (C31), support (C33), triweight table (C63), bootstrap (C66)
-/

namespace Kalepy

open Matrix

variable {d : ℕ}

/-! ## C63: the triweight table -/

lemma triweightCdf_hasDerivAt (x : ℝ) : HasDerivAt triweightCdf (70 / 32 * (1 - x ^ 2) ^ 3) x := by
  have h : HasDerivAt (fun x : ℝ => 70 / 32 * ((-1 / 7) * x ^ 7 + (3 / 5) * x ^ 5 - x ^ 3 + x))
      (70 / 32 * ((-1 / 7) * (7 * x ^ 6) + (3 / 5) * (5 * x ^ 4) - 3 * x ^ 2 + 1)) x := by
    have h7 : HasDerivAt (fun x : ℝ => x ^ 7) (7 * x ^ 6) x := by simpa using hasDerivAt_pow 7 x
    have h5 : HasDerivAt (fun x : ℝ => x ^ 5) (5 * x ^ 4) x := by simpa using hasDerivAt_pow 5 x
    have h3 : HasDerivAt (fun x : ℝ => x ^ 3) (3 * x ^ 2) x := by simpa using hasDerivAt_pow 3 x
    exact ((((h7.const_mul _).add (h5.const_mul _)).sub h3).add (hasDerivAt_id x)).const_mul _
  have e : 70 / 32 * ((-1 / 7) * (7 * x ^ 6) + (3 / 5) * (5 * x ^ 4) - 3 * x ^ 2 + 1)
      = 70 / 32 * (1 - x ^ 2) ^ 3 := by ring
  rw [e] at h
  exact h

lemma triweight_norm_one : Dist.triweight.norm 1 = 32 / 35 := by
  have hpi : 0 < Real.sqrt Real.pi := Real.sqrt_pos.mpr Real.pi_pos
  have g12 : Real.Gamma (1 / 2) = Real.sqrt Real.pi := Real.Gamma_one_half_eq
  have g32 : Real.Gamma (1 / 2 + 1) = 1 / 2 * Real.sqrt Real.pi := by
    rw [Real.Gamma_add_one (by norm_num), g12]
  have g92 : Real.Gamma (3 + 1 + 1 / 2) = 105 / 16 * Real.sqrt Real.pi := by
    rw [show (3 + 1 + 1 / 2 : ℝ) = 1 / 2 + 1 + 1 + 1 + 1 by norm_num, Real.Gamma_add_one (by norm_num),
      Real.Gamma_add_one (by norm_num), Real.Gamma_add_one (by norm_num), g32]
    ring
  have g4 : Real.Gamma (3 + 1) = 6 := by
    have := Real.Gamma_nat_eq_factorial 3
    rw [show ((3 : ℕ) : ℝ) + 1 = 3 + 1 by norm_num] at this
    rw [this]; norm_num [Nat.factorial]
  simp only [Dist.norm, Dist.betaKernelNorm, Dist.nballVol, Dist.spBeta, Nat.cast_one]
  rw [g4, g12, g32, g92, ← Real.sqrt_eq_rpow]
  field_simp
  norm_num

lemma triweightCdf_strictMono : StrictMonoOn triweightCdf (Set.Icc 0 1) := by
  apply strictMonoOn_of_deriv_pos (convex_Icc 0 1)
  · exact fun x _ => (triweightCdf_hasDerivAt x).continuousAt.continuousWithinAt
  · intro x hx
    rw [interior_Icc] at hx
    rw [(triweightCdf_hasDerivAt x).deriv]
    have : 0 < 1 - x ^ 2 := by nlinarith [hx.1, hx.2]
    positivity

lemma triweightCdf_zero : triweightCdf 0 = 0 := by norm_num [triweightCdf]

lemma triweightCdf_one : triweightCdf 1 = 1 := by norm_num [triweightCdf]

/-- **C63.** The cumulative function tabulated for the triweight kernel is a strictly increasing bijection of
`[0, 1]`; its derivative is twice the normalised one-dimensional kernel `(1 - x²)³ / norm(1)`. -/
theorem C63_cdf :
    StrictMonoOn triweightCdf (Set.Icc 0 1) ∧ Set.BijOn triweightCdf (Set.Icc 0 1) (Set.Icc 0 1) ∧
    ∀ x ∈ Set.Icc (0 : ℝ) 1, HasDerivAt triweightCdf
      (2 * (Spec.shape .triweight (x ^ 2) / Dist.triweight.norm 1)) x := by
  refine ⟨triweightCdf_strictMono, ⟨?_, triweightCdf_strictMono.injOn, ?_⟩, ?_⟩
  · intro x hx
    have hm := triweightCdf_strictMono.monotoneOn
    refine ⟨?_, ?_⟩
    · rw [← triweightCdf_zero]; exact hm (by simp) hx hx.1
    · rw [← triweightCdf_one]; exact hm hx (by simp) hx.2
  · have hc : ContinuousOn triweightCdf (Set.Icc 0 1) :=
      fun x _ => (triweightCdf_hasDerivAt x).continuousAt.continuousWithinAt
    have := intermediate_value_Icc (zero_le_one (α := ℝ)) hc
    rwa [triweightCdf_zero, triweightCdf_one] at this
  · intro x hx
    have : x ^ 2 ≤ 1 := by nlinarith [hx.1, hx.2]
    rw [Spec.shape, if_pos this, triweight_norm_one]
    have h := triweightCdf_hasDerivAt x
    have e : 70 / 32 * (1 - x ^ 2) ^ 3 = 2 * ((1 - x ^ 2) ^ 3 / (32 / 35)) := by ring
    rwa [e] at h

lemma triXs_length : triXs.length = 1000 := by rw [triXs, List.length_map, List.length_range]

lemma triXs_getElem (j : ℕ) (h : j < triXs.length) : triXs[j] = (j : ℝ) / 999 := by
  simp only [triXs, List.getElem_map, List.getElem_range]

lemma triYs_eq : triYs = triXs.map triweightCdf := by
  unfold triYs
  apply List.ext_getElem (by simp)
  intro i h1 h2
  rw [List.getElem_set]
  split
  · rename_i hi
    subst hi
    rw [List.getElem_map, triXs_getElem]
    norm_num [triweightCdf]
  · rfl

/-- The table look-up: between two neighbouring nodes the value is the linear interpolation. -/
lemma interp1d_between {xp fp : List ℝ} (hx : xp.Pairwise (· < ·)) (hl : xp.length = fp.length)
    (h2 : 2 ≤ xp.length) {x : ℝ} (h0 : xp[0] ≤ x) (h1 : x ≤ xp[xp.length - 1]) :
    ∃ (j : ℕ) (hj : j + 1 < xp.length) (t : ℝ), xp[j] ≤ x ∧ x ≤ xp[j + 1] ∧ 0 ≤ t ∧ t ≤ 1 ∧
      x = xp[j] + t * (xp[j + 1] - xp[j]) ∧ interp1d xp fp x = .ok (fp[j] + t * (fp[j + 1] - fp[j])) := by
  have hle : xp.Pairwise (· ≤ ·) := hx.imp le_of_lt
  obtain ⟨s1, s2⟩ := searchLeft_spec hle x
  have hs : searchLeft xp x ≤ xp.length - 1 := by
    by_contra hc
    have := s1 (xp.length - 1) (by omega) (by omega)
    linarith
  obtain ⟨j, hj, hje, hlo, hhi⟩ : ∃ (j : ℕ) (hj : j + 1 < xp.length),
      min (max (searchLeft xp x) 1) (xp.length - 1) = j + 1 ∧ xp[j] ≤ x ∧ x ≤ xp[j + 1] := by
    by_cases hz : searchLeft xp x = 0
    · refine ⟨0, by omega, by rw [hz]; omega, h0, ?_⟩
      exact s2 1 (by omega) (by omega)
    · refine ⟨searchLeft xp x - 1, by omega, by omega, ?_, ?_⟩
      · exact (s1 _ (by omega) (by omega)).le
      · exact s2 _ (by omega) (by omega)
  have hlt : xp[j] < xp[j + 1] := List.pairwise_iff_getElem.mp hx j (j + 1) _ hj (by omega)
  have hpos : 0 < xp[j + 1] - xp[j] := sub_pos.mpr hlt
  refine ⟨j, hj, (x - xp[j]) / (xp[j + 1] - xp[j]), hlo, hhi, div_nonneg (by linarith) hpos.le,
    (div_le_one hpos).mpr (by linarith), by field_simp; ring, ?_⟩
  unfold interp1d
  rw [if_neg]
  · simp only [hje, Nat.add_sub_cancel]
    rw [List.getD_eq_getElem fp _ (by omega : j + 1 < fp.length), List.getD_eq_getElem fp _ (by omega : j < fp.length),
      List.getD_eq_getElem xp _ hj, List.getD_eq_getElem xp _ (by omega : j < xp.length)]
    congr 1
    field_simp
    ring
  · rw [List.getD_eq_getElem xp _ (by omega : 0 < xp.length),
      List.getD_eq_getElem xp _ (by omega : xp.length - 1 < xp.length)]
    push Not
    exact ⟨h0, h1⟩

lemma triXs_mem (j : ℕ) (h : j < triXs.length) : triXs[j] ∈ Set.Icc (0 : ℝ) 1 := by
  rw [triXs_getElem]
  rw [triXs_length] at h
  refine ⟨by positivity, ?_⟩
  rw [div_le_one (by norm_num)]
  have : j ≤ 999 := by omega
  exact_mod_cast this

lemma triYs_pairwise : triYs.Pairwise (· < ·) := by
  rw [triYs_eq, List.pairwise_iff_getElem]
  intro i j hi hj hij
  simp only [List.length_map] at hi hj
  simp only [List.getElem_map]
  refine triweightCdf_strictMono (triXs_mem i hi) (triXs_mem j hj) ?_
  rw [triXs_getElem, triXs_getElem]
  have : (i : ℝ) < j := by exact_mod_cast hij
  exact div_lt_div_of_pos_right this (by norm_num)

attribute [local irreducible] triXs triYs in
/-- **C63**, sampling: for every `u ∈ [0, 1]` the table look-up returns a radius in `[0, 1]`, within one table
step of the exact inverse. -/
theorem C63_inverse (u : ℝ) (h0 : 0 ≤ u) (h1 : u ≤ 1) :
    ∃ x, triInverse u = .ok x ∧ 0 ≤ x ∧ x ≤ 1 ∧
      ∀ y ∈ Set.Icc (0 : ℝ) 1, triweightCdf y = u → |x - y| ≤ 1 / 999 := by
  have hlen : triYs.length = triXs.length := by rw [triYs_eq]; simp
  have hlen2 := triXs_length
  have hY : ∀ j (h : j < triYs.length), triYs[j] = triweightCdf (triXs[j]'(by omega)) := by
    intro j h
    simp only [triYs_eq, List.getElem_map]
  obtain ⟨j, hj, t, hlo, hhi, ht0, ht1, hxe, he⟩ := interp1d_between (xp := triYs) (fp := triXs) triYs_pairwise
    (by omega) (by omega) (x := u)
    (by rw [hY, triXs_getElem]; simpa [triweightCdf_zero] using h0)
    (by
      rw [hY, triXs_getElem]
      have : ((triYs.length - 1 : ℕ) : ℝ) / 999 = 1 := by rw [hlen, hlen2]; norm_num
      rw [this, triweightCdf_one]; exact h1)
  have hj' : j + 1 < 1000 := by omega
  have e1 : triXs[j]'(by omega) = (j : ℝ) / 999 := triXs_getElem j _
  have e2 : triXs[j + 1]'(by omega) = ((j + 1 : ℕ) : ℝ) / 999 := triXs_getElem (j + 1) _
  have m1 := triXs_mem j (by omega)
  have m2 := triXs_mem (j + 1) (by omega)
  refine ⟨_, he, ?_, ?_, ?_⟩
  · nlinarith [m1.1, m2.1]
  · nlinarith [m1.2, m2.2]
  · intro y hy hyu
    rw [hY] at hlo hhi
    rw [← hyu] at hlo hhi
    have a1 : triXs[j]'(by omega) ≤ y := (triweightCdf_strictMono.le_iff_le m1 hy).mp hlo
    have a2 : y ≤ triXs[j + 1]'(by omega) := (triweightCdf_strictMono.le_iff_le hy m2).mp hhi
    rw [e1] at a1 ⊢
    rw [e2] at a2 ⊢
    push_cast at a2 ⊢
    have e3 : ((j : ℝ) + 1) / 999 = j / 999 + 1 / 999 := by ring
    rw [e3] at a2 ⊢
    rw [abs_le]
    constructor <;> nlinarith

/-! ## C33: samples of a finite kernel -/

lemma median3_mem {t : ℝ × ℝ × ℝ} (h1 : -1 ≤ t.1 ∧ t.1 ≤ 1) (h2 : -1 ≤ t.2.1 ∧ t.2.1 ≤ 1)
    (h3 : -1 ≤ t.2.2 ∧ t.2.2 ≤ 1) : -1 ≤ median3 t ∧ median3 t ≤ 1 := by
  unfold median3
  constructor
  · exact le_max_of_le_left (le_min h1.1 h2.1)
  · exact max_le (min_le_of_left_le h1.2) (min_le_of_right_le h3.2)

lemma scaled_in_ball (g c : Fin d → ℝ) (hr : rad g ≠ 0) (hc : ∀ i, 0 ≤ c i ∧ c i ≤ 1) :
    ∑ i, (c i * g i / rad g) ^ 2 ≤ 1 := by
  have hs : rad g ^ 2 = ∑ i, g i ^ 2 := Real.sq_sqrt (Finset.sum_nonneg fun i _ => sq_nonneg _)
  have hp : 0 < rad g ^ 2 := by positivity
  calc ∑ i, (c i * g i / rad g) ^ 2 ≤ ∑ i, g i ^ 2 / rad g ^ 2 := by
        refine Finset.sum_le_sum fun i _ => ?_
        rw [div_pow, mul_pow]
        apply div_le_div_of_nonneg_right _ hp.le
        have : c i ^ 2 ≤ 1 := by nlinarith [(hc i).1, (hc i).2]
        nlinarith [sq_nonneg (g i)]
    _ = 1 := by rw [← Finset.sum_div, ← hs, div_self hp.ne']

/-- One unscaled sample of the box or triweight kernel (any dimension) or of the parabola kernel (one
dimension) lies in the unit ball. -/
lemma sample_in_ball {D : Dist} (hD : D = .box ∨ D = .triweight ∨ (D = .parabola ∧ d = 1)) {r : Draw d}
    (hr : r.Valid) {u : Fin d → ℝ} (h : D.sample r = .ok u) : ∑ i, u i ^ 2 ≤ 1 := by
  obtain ⟨v1, v2, v3, _⟩ := hr
  have one : ∀ (u : Fin d → ℝ), d = 1 → (∀ i, -1 ≤ u i ∧ u i ≤ 1) → ∑ i, u i ^ 2 ≤ 1 := by
    rintro u rfl hu
    rw [Fin.sum_univ_one]
    nlinarith [(hu 0).1, (hu 0).2]
  rcases hD with rfl | rfl | ⟨rfl, h1⟩
  · simp only [Dist.sample] at h
    split at h
    · rename_i h1; cases h; exact one _ h1 v2
    · split at h
      · cases h
      · rename_i hrad
        cases h
        refine scaled_in_ball _ _ hrad fun i => ⟨Real.rpow_nonneg (v1 i).1 _, ?_⟩
        exact Real.rpow_le_one (v1 i).1 (v1 i).2.le (by positivity)
  · simp only [Dist.sample] at h
    split at h
    · cases h
    · rename_i hrad
      obtain ⟨n, hn, rfl⟩ := map_ok h
      rw [finSeq_ok] at hn
      refine scaled_in_ball _ _ hrad fun i => ?_
      obtain ⟨x, hx, x0, x1, _⟩ := C63_inverse (r.unif i) (v1 i).1 (v1 i).2.le
      rw [hn i] at hx
      cases hx
      exact ⟨x0, x1⟩
  · simp only [Dist.sample] at h
    cases h
    exact one _ h1 fun i => median3_mem (v3 i).1 (v3 i).2.1 (v3 i).2.2

/-- A coloured vector has the length of the uncoloured one in the metric of the matrix. -/
lemma dist2_coloured {M L : Matrix (Fin d) (Fin d) ℝ} (hM : IsUnit M.det) (hL : L * Lᵀ = M) (u : Fin d → ℝ) :
    Spec.dist2 M (L *ᵥ u) = ∑ i, u i ^ 2 := by
  have hdet : IsUnit L.det := by
    rw [← hL, Matrix.det_mul] at hM
    exact isUnit_of_mul_isUnit_left hM
  have hinv : Lᵀ * M⁻¹ * L = 1 := by
    have hdt : IsUnit (Lᵀ).det := by rwa [Matrix.det_transpose]
    rw [← hL, Matrix.mul_inv_rev, ← Matrix.mul_assoc, Matrix.mul_nonsing_inv _ hdt, Matrix.one_mul,
      Matrix.nonsing_inv_mul _ hdet]
  unfold Spec.dist2
  have : (L *ᵥ u) ⬝ᵥ M⁻¹ *ᵥ (L *ᵥ u) = u ⬝ᵥ (Lᵀ * M⁻¹ * L) *ᵥ u := by
    rw [← Matrix.mulVec_mulVec, ← Matrix.mulVec_mulVec, Matrix.dotProduct_mulVec u, Matrix.vecMul_transpose]
  rw [this, hinv, Matrix.one_mulVec]
  simp [dotProduct, sq]

/-- Property C33 as stated. -/
def C33_Claim : Prop :=
  ∀ (d : ℕ) (E : Ext) (a : KDEArgs d) (k : KDE d), KDE.init E a = .ok k → k.kernel.dist.finite = true →
    (Spec.kernelMatrix k.covariance k.bandwidth).PosDef → k.reflect = none →
    ∀ (size : Option ℕ) (squeeze : Bool) (rnd : ℕ → ℕ → Draw d), (∀ m n, (rnd m n).Valid) →
      ∀ s, k.resample size .none .none squeeze rnd = .ok s →
        ∀ x ∈ s.points, ∃ p ∈ a.dataset,
          Spec.dist2 (Spec.kernelMatrix k.covariance k.bandwidth) (x - p) ≤ 1

/-- **C33**, for the box and the triweight kernel in every dimension and the parabola kernel in one dimension:
every sample lies in the support of the kernel of some data point (of positive weight), for every outcome of the
random generator.  Missing: the parabola kernel in two and more dimensions, where the claim is false
(`C33_refuted`). -/
theorem C33_support_partial {E : Ext} {a : KDEArgs d} {k : KDE d} (h : KDE.init E a = .ok k)
    (hD : k.kernel.dist = .box ∨ k.kernel.dist = .triweight ∨ (k.kernel.dist = .parabola ∧ d = 1))
    (hM : (Spec.kernelMatrix k.covariance k.bandwidth).PosDef) (size : Option ℕ) (keep : KeepArg)
    (hkeep : ∀ i : Fin d, ¬ Spec.Kept keep i) (reflect : Reflect) (squeeze : Bool) (rnd : ℕ → ℕ → Draw d)
    (hrnd : ∀ m n, (rnd m n).Valid) (s : Samples d)
    (hs : k.resample size keep reflect squeeze rnd = .ok s) (hb : Spec.boundaries k reflect = .ok none) :
    ∀ x ∈ s.points, ∃ (j : ℕ) (hj : j < a.dataset.length), 0 < Spec.weightAt k.weights j ∧
      Spec.dist2 (Spec.kernelMatrix k.covariance k.bandwidth) (x - a.dataset[j]) ≤ 1 := by
  obtain ⟨L, hL, hall⟩ := C30_positive_weight h size keep reflect squeeze rnd hrnd s hs hb
  have hsym : (Spec.kernelMatrix k.covariance k.bandwidth).IsSymm := by
    have := hM.isHermitian
    rwa [Matrix.IsHermitian, Matrix.conjTranspose_eq_transpose_of_trivial] at this
  intro x hx
  obtain ⟨n, hn, rfl⟩ := List.getElem_of_mem hx
  obtain ⟨j, hj, hw, u, hu, _, hn2⟩ := hall n hn
  refine ⟨j, hj, hw, ?_⟩
  have e : s.points[n] - a.dataset[j] = L *ᵥ u := by
    funext i
    rw [Pi.sub_apply, hn2 i (hkeep i)]; ring
  rw [e, dist2_coloured hM.det_pos.ne'.isUnit (hL hsym)]
  exact sample_in_ball hD (hrnd 0 n) hu

/-! ## C26: unreflected resampling does return -/

lemma sample_ok (D : Dist) {r : Draw d} (hr : r.Valid) (hg : rad r.gauss ≠ 0) : ∃ u, D.sample r = .ok u := by
  cases D with
  | gaussian => exact ⟨_, rfl⟩
  | box =>
    simp only [Dist.sample, if_neg hg]
    split
    · exact ⟨_, rfl⟩
    · exact ⟨_, rfl⟩
  | parabola => exact ⟨_, rfl⟩
  | triweight =>
    simp only [Dist.sample]
    rw [if_neg hg]
    have : ∀ i, ∃ x, triInverse (r.unif i) = .ok x := fun i => by
      obtain ⟨x, hx, _⟩ := C63_inverse _ (hr.1 i).1 (hr.1 i).2.le
      exact ⟨x, hx⟩
    choose f hf using this
    rw [finSeq_ok.mpr hf]
    exact ⟨_, rfl⟩

lemma choiceDatum_ok {data : List (Fin d → ℝ)} (hne : data ≠ []) {w : Option (List ℝ)}
    (hw : ∀ l, w = some l → l.length = data.length ∧ (∀ x ∈ l, 0 ≤ x) ∧ 0 < l.sum) {u : ℝ} (h0 : 0 ≤ u)
    (h1 : u < 1) : ∃ m, choiceDatum data w u = .ok m := by
  have hj : choiceIndex data.length w u < data.length := by
    have hl : 0 < data.length := List.length_pos_iff.mpr hne
    cases w with
    | none =>
      simp only [choiceIndex]
      rw [Nat.floor_lt (by positivity)]
      have : (0 : ℝ) < data.length := by exact_mod_cast hl
      nlinarith
    | some l =>
      obtain ⟨v1, v2, v3⟩ := hw l rfl
      have := ((choiceIndex_iff l v2 v3 h0 h1 data.length _).mp rfl).1
      omega
  exact ⟨_, by unfold choiceDatum; rw [List.getElem?_eq_getElem hj]⟩

/-- `resample` returns if the noise of every sample exists and the numbers choosing the data are in `[0, 1)`. -/
lemma resample_returns {E : Ext} {a : KDEArgs d} {k : KDE d} (h : KDE.init E a = .ok k)
    (hM : (Spec.kernelMatrix k.covariance k.bandwidth).PosDef) (size : Option ℕ) (keep : KeepArg)
    (hk : ∀ l, keep = .dims l → ∀ q ∈ l, -(d : ℤ) ≤ q ∧ q < d) (reflect : Reflect) (squeeze : Bool)
    (rnd : ℕ → ℕ → Draw d) (hsam : ∀ n, ∃ u, k.kernel.dist.sample (rnd 0 n) = .ok u)
    (hpick : ∀ n, 0 ≤ (rnd 0 n).pick ∧ (rnd 0 n).pick < 1) (hb : Spec.boundaries k reflect = .ok none) :
    ∃ s, k.resample size keep reflect squeeze rnd = .ok s := by
  have hne : k.dataset ≠ [] := by
    obtain ⟨_, _, _, _, _, _, _, _, _, hne, _, _, _, _, _, _, _, _, he⟩ := init_inv h
    rw [he]; exact hne
  have hl : 0 < k.dataset.length := List.length_pos_iff.mpr hne
  rw [resample_eq h, hb]
  simp only [Except.bind]
  suffices hsuff : ∃ l, resampleClear k.kernel.dist k.dataset (size.getD k.dataset.length) k.weights
      k.kernel.matrix keep (rnd 0) = .ok l by
    obtain ⟨l, hl⟩ := hsuff
    rw [hl]; exact ⟨_, rfl⟩
  obtain ⟨U, hU⟩ := cholesky_of_posDef hM
  rw [← (C18_matrix h).1] at hU
  obtain ⟨noise, hnoise⟩ := listSeq_exists (f := fun n => k.kernel.dist.sample (rnd 0 n))
    (l := List.range (size.getD k.dataset.length)) fun n _ => hsam n
  obtain ⟨means, hmeans⟩ := listSeq_exists (f := fun n => choiceDatum k.dataset k.weights (rnd 0 n).pick)
    (l := List.range (size.getD k.dataset.length)) fun n _ =>
      choiceDatum_ok hne (fun l hl => stored_weights h hl) (hpick n).1 (hpick n).2
  obtain ⟨ps, hps⟩ : ∃ ps, keepDims d keep = .ok ps := by
    cases keep with
    | none => exact ⟨_, rfl⟩
    | «true» => exact ⟨_, rfl⟩
    | «false» => exact ⟨_, rfl⟩
    | dims l =>
      refine listSeq_exists fun q hq => ?_
      have hq := hk l rfl q hq
      by_cases h0 : 0 ≤ q
      · exact ⟨⟨q.toNat, by omega⟩, dimIndex_of _ (Or.inl (by simp [h0]))⟩
      · exact ⟨⟨(q + d).toNat, by omega⟩, dimIndex_of _ (Or.inr (by have := hq.1; simp only; omega))⟩
  have hch : choiceOk k.dataset.length (size.getD k.dataset.length) k.weights = true := by
    unfold choiceOk
    cases hw : k.weights with
    | none => simp; left; exact hne
    | some w =>
      obtain ⟨v1, v2, v3⟩ := stored_weights h hw
      simp only [decide_eq_true_eq]
      exact ⟨Or.inl (by omega), v1, v3.ne', fun x hx => div_nonneg (v2 x hx) v3.le⟩
  unfold resampleClear
  simp only [hnoise, addCov, hU, hps, hch, if_true, hmeans]
  exact ⟨_, rfl⟩

/-- **C26**, success: without boundaries, with a positive definite kernel matrix, existing `keep` dimensions and
(almost) every outcome of the random generator, `resample` returns; by `C26_size` it returns `size` samples.
(Excluded outcome: a vector of normal deviates that vanishes.) -/
theorem C26_succeeds {E : Ext} {a : KDEArgs d} {k : KDE d} (h : KDE.init E a = .ok k)
    (hM : (Spec.kernelMatrix k.covariance k.bandwidth).PosDef) (size : Option ℕ) (keep : KeepArg)
    (hk : ∀ l, keep = .dims l → ∀ q ∈ l, -(d : ℤ) ≤ q ∧ q < d) (reflect : Reflect) (squeeze : Bool)
    (rnd : ℕ → ℕ → Draw d) (hrnd : ∀ m n, (rnd m n).Valid ∧ rad (rnd m n).gauss ≠ 0)
    (hb : Spec.boundaries k reflect = .ok none) :
    ∃ s, k.resample size keep reflect squeeze rnd = .ok s ∧ s.points.length = size.getD a.dataset.length := by
  obtain ⟨s, hs⟩ := resample_returns h hM size keep hk reflect squeeze rnd
    (fun n => sample_ok _ (hrnd 0 n).1 (hrnd 0 n).2)
    (fun n => ⟨(hrnd 0 n).1.2.2.2.1, (hrnd 0 n).1.2.2.2.2⟩) hb
  exact ⟨s, hs, C26_size h _ _ _ _ _ _ hs⟩

/-! ## C66: resampling with `keep=True` is the weighted bootstrap -/

/-- **C66.** `resample(keep=True)` without boundaries returns data points only, and the point returned for the
`n`-th sample is the `j`-th exactly when the uniform number of that sample falls into a certain interval of length
`w_j / Σw`; these intervals tile `[0, 1)`, so data points are drawn with probability proportional to weight. -/
theorem C66_bootstrap {E : Ext} {a : KDEArgs d} {k : KDE d} (h : KDE.init E a = .ok k) (w : List ℝ)
    (hw : k.weights = some w) (size : Option ℕ) (reflect : Reflect) (squeeze : Bool)
    (rnd : ℕ → ℕ → Draw d) (hrnd : ∀ m n, (rnd m n).Valid) (s : Samples d)
    (hs : k.resample size .true reflect squeeze rnd = .ok s) (hb : Spec.boundaries k reflect = .ok none)
    (n : ℕ) (hn : n < s.points.length) :
    ∃! j : ℕ, j < w.length ∧ s.points[n]? = a.dataset[j]? ∧
      (rnd 0 n).pick ∈ Set.Ico ((w.take j).sum / w.sum) ((w.take (j + 1)).sum / w.sum) ∧
      MeasureTheory.volume (Set.Ico ((w.take j).sum / w.sum) ((w.take (j + 1)).sum / w.sum))
        = ENNReal.ofReal (w.getD j 0 / w.sum) := by
  have hd : k.dataset = a.dataset := by
    obtain ⟨_, _, _, _, _, _, _, _, _, _, _, _, _, _, _, _, _, _, he⟩ := init_inv h; rw [he]
  rcases resample_inv h hs with ⟨_, h1⟩ | ⟨rows, draws, h0, _⟩
  swap
  · rw [h0] at hb; cases hb
  obtain ⟨_, U, ps, hU, hps, _, hall⟩ := resampleClear_inv h1
  obtain ⟨u, m, hu, hm, e⟩ := hall n hn
  obtain ⟨v1, v2, v3⟩ := stored_weights h hw
  have hmem := choiceDatum_mem hm
  rw [hw] at hmem
  have hz : zeroDims ps (Uᵀ *ᵥ u) = 0 := by
    funext i
    rw [zeroDims, if_pos ((keepDims_spec hps i).mpr trivial)]; rfl
  obtain ⟨q1, q2, q3⟩ := (choiceIndex_iff w v2 v3 (hrnd 0 n).2.2.2.1 (hrnd 0 n).2.2.2.2 k.dataset.length
    _).mp rfl
  refine ⟨choiceIndex k.dataset.length (some w) (rnd 0 n).pick, ⟨q1, ?_, ⟨q2, q3⟩, ?_⟩, ?_⟩
  · rw [← hd, hmem, List.getElem?_eq_getElem hn, e, hz, add_zero]
  · rw [Real.volume_Ico, List.sum_take_succ _ _ q1, List.getD_eq_getElem _ _ q1]
    congr 1; ring
  · rintro j ⟨j1, _, ⟨j2, j3⟩, _⟩
    exact ((choiceIndex_iff w v2 v3 (hrnd 0 n).2.2.2.1 (hrnd 0 n).2.2.2.2 k.dataset.length j).mpr
      ⟨j1, j2, j3⟩).symm

end Kalepy
