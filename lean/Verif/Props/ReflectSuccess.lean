import Verif.Proofs.RejectionBound

/-!
# C162: how often sampling with boundaries fails
-/

namespace Kalepy

open MeasureTheory ProbabilityTheory Matrix

variable {d : ℕ}

/-! ### Specification -/

/-- Specification: the probability that `resample(size, reflect=reflect)` raises an exception. -/
noncomputable def Spec.failProb {Ω : Type} [MeasurableSpace Ω] (k : KDE d) (μ : Measure Ω) (rnd : Ω → ℕ → ℕ → Draw d)
    (size : ℕ) (reflect : Reflect) (squeeze : Bool) : ENNReal :=
  μ {ω | ∃ e, k.resample (some size) .none reflect squeeze (rnd ω) = .error e}

/-- Specification: there is just one boundary, below or above parameter `i`. -/
def Spec.OneBoundary (rows : List ReflRow) (i : Fin d) : Prop :=
  (∀ j : Fin d, j ≠ i → rows.getD j none = none) ∧
    ((∃ lo, rows.getD i none = some (some lo, none)) ∨ ∃ hi, rows.getD i none = some (none, some hi))

/-! ### The bound -/

/-- The acceptance of the candidates as independent events, and failure in terms of them. -/
lemma fail_repr {E : Ext} {a : KDEArgs d} {k : KDE d} (h : KDE.init E a = .ok k) (hd : 0 < d)
    (hM : (Spec.kernelMatrix k.covariance k.bandwidth).PosDef) (reflect : Reflect)
    (rows : List ReflRow) (hb : Spec.boundaries k reflect = .ok (some rows))
    (hin : ∀ x ∈ a.dataset, ∀ i : Fin d, Spec.StrictlyInside (rows.getD i none) (x i))
    {Ω : Type} [MeasurableSpace Ω] (μ : Measure Ω) (rnd : Ω → ℕ → ℕ → Draw d) (hrnd : Spec.RandomNumbers μ rnd) :
    IsProbabilityMeasure μ ∧ ∃ X : ℕ × ℕ → Ω → Prop, (∀ q, Measurable (X q)) ∧ iIndepFun X μ ∧
      (∀ q, μ {ω | ¬ X q ω} = 1 - Spec.oneSample k μ rnd (Spec.insideSet d rows)) ∧
      ∀ (size : ℕ) (squeeze : Bool), k.kernel.chunk ≠ 0 ∨ size = 0 → ∀ᵐ ω ∂μ,
        ((∃ e, k.resample (some size) .none reflect squeeze (rnd ω) = .error e) ↔
          (remLoop d size (chunking size k.kernel.chunk).2 k.kernel.chunk (X · ω) (10 * (chunking size k.kernel.chunk).1)).2 ≠ 0) := by
  have hdat : k.dataset = a.dataset := by
    obtain ⟨_, _, _, _, _, _, _, _, _, _, _, _, _, _, _, _, _, _, he⟩ := init_inv h; rw [he]
  have hin' : ∀ x ∈ k.dataset, x ∈ Spec.insideSet d rows := by rw [hdat]; exact hin
  obtain ⟨L, hL, hrep⟩ := candidates_repr h hd hM
  have hae := hrep μ rnd hrnd
  obtain ⟨P, hP⟩ : ∃ P, P = sampleLaw k.kernel.dist a.dataset k.weights L := ⟨_, rfl⟩
  have hPp : IsProbabilityMeasure P := by
    rw [hP]; exact Measure.isProbabilityMeasure_map (measurable_sampleOf _ _ _ _).aemeasurable
  obtain ⟨Φ, hΦ⟩ : ∃ Φ : DrawTuple d → Fin d → ℝ, Φ = fun t => sampleOf k.kernel.dist a.dataset k.weights L
        (noiseFn k.kernel.dist (noiseTuple t), t.2.2.2.2) := ⟨_, rfl⟩
  have hphi : MeasurePreserving Φ (Spec.drawLaw d) P := by
    rw [hΦ, hP]
    exact (MeasurePreserving.mk (measurable_sampleOf _ _ _ _) rfl).comp (joint_law_all k.kernel.dist)
  have hlaw : ∀ b n, HasLaw (fun ω => Φ (rnd ω b n).tuple) P μ := fun b n => hphi.hasLaw.comp (hrnd.law b n)
  have hprob : IsProbabilityMeasure μ := (hrnd.law 0 0).isProbabilityMeasure
  have hSm := measurable_insideSet (d := d) rows
  -- one sample
  have hone : Spec.oneSample k μ rnd (Spec.insideSet d rows) = P (Spec.insideSet d rows) := by
    have h1 : {ω | Spec.SamplesIn (n := 1) (k.resample (some 1) .none .false true (rnd ω)) fun _ => Spec.insideSet d rows}
        =ᵐ[μ] (fun ω => Φ (rnd ω 0 0).tuple) ⁻¹' Spec.insideSet d rows := by
      filter_upwards [hae] with ω hω
      have hr : k.resample (some 1) .none .false true (rnd ω) = .ok (squeezeSamples true [Φ (rnd ω 0 0).tuple]) := by
        rw [resample_eq h]
        simp only [Spec.boundaries, Except.bind, Option.getD_some, hω.2 0 1, hΦ]
        rfl
      apply propext
      show Spec.SamplesIn _ _ ↔ Φ (rnd ω 0 0).tuple ∈ _
      rw [hr]
      constructor
      · rintro ⟨s, X, e, hX, hA⟩
        rw [← Except.ok.inj e, squeezeSamples_points] at hX
        simp only [List.ofFn_succ, List.ofFn_zero, List.cons.injEq, and_true] at hX
        rw [hX]; exact hA 0
      · intro hA
        exact ⟨_, fun _ => Φ (rnd ω 0 0).tuple, rfl, by rw [squeezeSamples_points]; simp, fun _ => hA⟩
    rw [Spec.oneSample, measure_congr h1, ← (hlaw 0 0).map_eq, Measure.map_apply_of_aemeasurable (hlaw 0 0).aemeasurable hSm]
  -- acceptance, made measurable
  obtain ⟨Y, hY⟩ : ∃ Y : ℕ × ℕ → Ω → DrawTuple d, ∀ q, Measurable (Y q) ∧ (fun ω => (rnd ω q.1 q.2).tuple) =ᵐ[μ] Y q :=
    ⟨fun q => (hrnd.law q.1 q.2).aemeasurable.mk _, fun q =>
      ⟨(hrnd.law q.1 q.2).aemeasurable.measurable_mk, (hrnd.law q.1 q.2).aemeasurable.ae_eq_mk⟩⟩
  have hΦm := hphi.measurable
  have hXm : ∀ q, Measurable fun ω => Φ (Y q ω) ∈ Spec.insideSet d rows := fun q =>
    measurableSet_setOfPred.mp (hΦm.comp (hY q).1 hSm)
  have hind : iIndepFun (fun q ω => Φ (Y q ω) ∈ Spec.insideSet d rows) μ := by
    have h1 := hrnd.indep.congr fun q => (hY q).2
    exact h1.comp (fun _ t => Φ t ∈ Spec.insideSet d rows) fun _ => measurableSet_setOfPred.mp (hΦm hSm)
  have hq : ∀ q, μ {ω | ¬ Φ (Y q ω) ∈ Spec.insideSet d rows} = 1 - P (Spec.insideSet d rows) := by
    intro q
    have h1 : μ {ω | Φ (Y q ω) ∈ Spec.insideSet d rows} = P (Spec.insideSet d rows) := by
      rw [← (hlaw q.1 q.2).map_eq, Measure.map_apply_of_aemeasurable (hlaw q.1 q.2).aemeasurable hSm]
      refine measure_congr ?_
      filter_upwards [(hY q).2] with ω hω
      apply propext
      show Φ (Y q ω) ∈ _ ↔ Φ (rnd ω q.1 q.2).tuple ∈ _
      rw [hω]
    have h2 := prob_compl_eq_one_sub (μ := μ) (s := {ω | Φ (Y q ω) ∈ Spec.insideSet d rows}) (hΦm.comp (hY q).1 hSm)
    rw [h1] at h2
    exact h2
  refine ⟨hprob, _, hXm, hind, fun q => by rw [hone]; exact hq q, fun size squeeze hc => ?_⟩
  have hall : ∀ᵐ ω ∂μ, ∀ q : ℕ × ℕ, (rnd ω q.1 q.2).tuple = Y q ω := ae_all_iff.mpr fun q => (hY q).2
  filter_upwards [hae, hall] with ω hω hωY
  have hne : drawData k.dataset rows ≠ [] := by
    rw [drawData_inside hin']
    obtain ⟨_, _, _, _, _, _, _, _, _, hne, _, _, _, _, _, _, _, _, he⟩ := init_inv h
    rw [he]; exact hne
  obtain ⟨t, h1, h2⟩ := rejectLoop_pick (refl := rows) (size := size) (cs := (chunking size k.kernel.chunk).2) (chunk := k.kernel.chunk)
    (D := k.kernel.dist) (data := drawData k.dataset rows) (w := drawWeights k.dataset k.weights rows) (M := k.kernel.matrix) (rnd := rnd ω)
    (Y := fun q => Φ (rnd ω q.1 q.2).tuple) (p := fun q => Φ (Y q ω) ∈ Spec.insideSet d rows) (B := 10 * (chunking size k.kernel.chunk).1)
    (fun b n => by
      rw [candidates_eq h hin' n (rnd ω b) (hω.1 b), hω.2 b n, hΦ]
      rfl)
    (by
      intro q _ _
      rw [insideBounds_iff, hωY]
      rfl) (10 * (chunking size k.kernel.chunk).1) (chunking size k.kernel.chunk).2 ⟨[], []⟩ [] rfl (chunking_le hc) (by simp)
  have hr : resampleReflect k.kernel k.dataset size rows k.weights .none (rnd ω)
      = if t.good.length < size then .error .runtimeError else .ok (t.good, t.draws) := by
    simp only [resampleReflect, covKeepVars, if_neg hne]
    rw [if_neg (by omega), h1]
  have hrem := pickLoop_rem (d := d) (size := size) (cs := (chunking size k.kernel.chunk).2) (chunk := k.kernel.chunk)
    (p := fun q => Φ (Y q ω) ∈ Spec.insideSet d rows) (10 * (chunking size k.kernel.chunk).1) (chunking size k.kernel.chunk).2 0 []
    (by simp) (Or.inr rfl) (by simp [remLoop])
  rw [zero_add] at hrem
  rw [resample_eq h, hb, ← hrem]
  simp only [Except.bind, Option.getD_some, hr]
  rw [List.length_nil] at h2
  have hl : t.good.length = (pickLoop d (fun q => Φ (Y q ω) ∈ Spec.insideSet d rows) size (chunking size k.kernel.chunk).2 k.kernel.chunk
      (10 * (chunking size k.kernel.chunk).1) (chunking size k.kernel.chunk).2 0 []).length := by rw [h2, List.length_map]
  split_ifs with hlt
  · exact ⟨fun _ => by omega, fun _ => ⟨_, rfl⟩⟩
  · refine ⟨?_, fun h0 => by omega⟩
    rintro ⟨e, he⟩
    cases he

/-- **C162.** With all data strictly inside of the boundaries let `P` be the probability that a sample drawn without boundaries lies
inside of them.  Then sampling with boundaries fails with a probability of at most `size * (1 - P) ^ (1 + 9 g)`, for all `g ≤ 2 ^ d` for
which `g * size` samples are at most a chunk. -/
theorem C162_bound {E : Ext} {a : KDEArgs d} {k : KDE d} (h : KDE.init E a = .ok k) (hd : 0 < d)
    (hM : (Spec.kernelMatrix k.covariance k.bandwidth).PosDef) (reflect : Reflect)
    (rows : List ReflRow) (hb : Spec.boundaries k reflect = .ok (some rows))
    (hin : ∀ x ∈ a.dataset, ∀ i : Fin d, Spec.StrictlyInside (rows.getD i none) (x i))
    {Ω : Type} [MeasurableSpace Ω] (μ : Measure Ω) (rnd : Ω → ℕ → ℕ → Draw d) (hrnd : Spec.RandomNumbers μ rnd)
    (size : ℕ) (squeeze : Bool) {g : ℕ} (hg0 : 0 < g) (hgd : g ≤ 2 ^ d) (hgs : g * size ≤ k.kernel.chunk) :
    Spec.failProb k μ rnd size reflect squeeze ≤ size * (1 - Spec.oneSample k μ rnd (Spec.insideSet d rows)) ^ (1 + 9 * g) := by
  obtain ⟨hprob, X, hXm, hind, hq, hiff⟩ := fail_repr h hd hM reflect rows hb hin μ rnd hrnd
  have hcs : size ≤ k.kernel.chunk := le_trans (Nat.le_mul_of_pos_left _ hg0) hgs
  have hch : chunking size k.kernel.chunk = (1, size) := by rw [chunking, if_neg (by omega)]
  refine le_trans (measure_mono_ae ?_) (missing_bound (d := d) (size := size) (chunk := k.kernel.chunk) hXm hind hq hg0 hgd hgs 9)
  filter_upwards [hiff size squeeze (by omega)] with ω hω he
  have := hω.mp he
  rw [hch] at this
  exact this

/-- **C162 (failures happen).** If a sample drawn without boundaries may lie outside of them, sampling with boundaries fails with positive
probability, however large the region is. -/
theorem C162_can_fail {E : Ext} {a : KDEArgs d} {k : KDE d} (h : KDE.init E a = .ok k) (hd : 0 < d)
    (hM : (Spec.kernelMatrix k.covariance k.bandwidth).PosDef) (hc : k.kernel.chunk ≠ 0) (reflect : Reflect)
    (rows : List ReflRow) (hb : Spec.boundaries k reflect = .ok (some rows))
    (hin : ∀ x ∈ a.dataset, ∀ i : Fin d, Spec.StrictlyInside (rows.getD i none) (x i))
    {Ω : Type} [MeasurableSpace Ω] (μ : Measure Ω) (rnd : Ω → ℕ → ℕ → Draw d) (hrnd : Spec.RandomNumbers μ rnd)
    (size : ℕ) (hs : 0 < size) (squeeze : Bool) (hP : Spec.oneSample k μ rnd (Spec.insideSet d rows) < 1) :
    0 < Spec.failProb k μ rnd size reflect squeeze := by
  obtain ⟨hprob, X, hXm, hind, hq, hiff⟩ := fail_repr h hd hM reflect rows hb hin μ rnd hrnd
  obtain ⟨B, hB⟩ : ∃ B, B = 10 * (chunking size k.kernel.chunk).1 := ⟨_, rfl⟩
  have hpos : 0 < μ (⋂ q ∈ Finset.range B ×ˢ Finset.range k.kernel.chunk, X q ⁻¹' {x : Prop | ¬ x}) := by
    rw [hind.measure_inter_preimage_eq_mul (Finset.range B ×ˢ Finset.range k.kernel.chunk) (sets := fun _ => {x : Prop | ¬ x})
      fun _ _ => MeasurableSet.of_discrete, Finset.prod_congr rfl fun q _ => show μ (X q ⁻¹' {x : Prop | ¬ x}) = _ from hq q,
      Finset.prod_const]
    exact pos_iff_ne_zero.mpr (pow_ne_zero _ (tsub_pos_of_lt hP).ne')
  refine lt_of_lt_of_le hpos (measure_mono_ae ?_)
  filter_upwards [hiff size squeeze (Or.inl hc)] with ω hω hall
  refine hω.mpr ?_
  have hno : ∀ b ≤ B, (remLoop d size (chunking size k.kernel.chunk).2 k.kernel.chunk (X · ω) b).2 = size := by
    intro b hb
    induction b with
    | zero => rfl
    | succ b ih =>
      rw [remLoop_succ]
      simp only [ih (by omega)]
      have hnil : ((List.range (remLoop d size (chunking size k.kernel.chunk).2 k.kernel.chunk (X · ω) b).1).filter
          fun i => @decide (X (b, i) ω) (Classical.propDecidable _)) = [] := by
        rw [List.filter_eq_nil_iff]
        intro i hi
        have h1 := lt_of_lt_of_le (List.mem_range.mp hi) (remLoop_draw (chunking_le (Or.inl hc)) b)
        have h2 : ω ∈ ⋂ q ∈ Finset.range B ×ˢ Finset.range k.kernel.chunk, X q ⁻¹' {x : Prop | ¬ x} := hall
        simp only [Set.mem_iInter] at h2
        have h3 := h2 (b, i) (Finset.mem_product.mpr ⟨Finset.mem_range.mpr (by omega), Finset.mem_range.mpr h1⟩)
        simpa using h3
      rw [hnil]
      simp
  rw [← hB, hno B le_rfl]
  omega

/-- **C162 (many samples).** For sizes of more than a chunk let `N` be the number of chunks.  For all `g ≤ 2 ^ d`, all numbers of samples
`L ≤ size / N` with `g * L` at most a chunk, and all `m < 10 N` rounds in which `g * L` candidates each are expected to contain the other
samples with a margin `ε`, sampling with boundaries fails with a probability of at most
`exp(- 2 m g L ε²) + L (1 - P) ^ (g (10 N - 1 - m))`. -/
theorem C162_many {E : Ext} {a : KDEArgs d} {k : KDE d} (h : KDE.init E a = .ok k) (hd : 0 < d)
    (hM : (Spec.kernelMatrix k.covariance k.bandwidth).PosDef) (hc : k.kernel.chunk ≠ 0) (reflect : Reflect)
    (rows : List ReflRow) (hb : Spec.boundaries k reflect = .ok (some rows))
    (hin : ∀ x ∈ a.dataset, ∀ i : Fin d, Spec.StrictlyInside (rows.getD i none) (x i))
    {Ω : Type} [MeasurableSpace Ω] (μ : Measure Ω) (rnd : Ω → ℕ → ℕ → Draw d) (hrnd : Spec.RandomNumbers μ rnd)
    (size : ℕ) (squeeze : Bool) {g L m : ℕ} (hg0 : 0 < g) (hgd : g ≤ 2 ^ d) (hgL : g * L ≤ k.kernel.chunk)
    (hL : L * Spec.numChunks size k.kernel.chunk ≤ size) (hm : m < 10 * Spec.numChunks size k.kernel.chunk) {ε : ℝ} (hε : 0 ≤ ε)
    (hmargin : size - L ≤ m * (g * L) * ((Spec.oneSample k μ rnd (Spec.insideSet d rows)).toReal - ε)) :
    Spec.failProb k μ rnd size reflect squeeze ≤ ENNReal.ofReal (Real.exp (-2 * (m * (g * L)) * ε ^ 2))
      + L * (1 - Spec.oneSample k μ rnd (Spec.insideSet d rows)) ^ ((10 * Spec.numChunks size k.kernel.chunk - 1 - m) * g) := by
  obtain ⟨hprob, X, hXm, hind, hq, hiff⟩ := fail_repr h hd hM reflect rows hb hin μ rnd hrnd
  obtain ⟨N, hN⟩ : ∃ N, N = Spec.numChunks size k.kernel.chunk := ⟨_, rfl⟩
  have hch := (chunking_spec size k.kernel.chunk (Or.inl hc)).1
  rw [← hN] at hL hm hch ⊢
  have hLcs : L ≤ (chunking size k.kernel.chunk).2 := by
    have hN1 : 0 < N := by rw [hN]; exact lt_of_lt_of_le one_pos (le_max_left _ _)
    unfold chunking at hch ⊢
    split_ifs at hch ⊢ with hlt
    · simp only at hch ⊢
      rw [hch, Nat.le_div_iff_mul_le hN1]
      omega
    · simp only at hch ⊢
      nlinarith
  have hP1 : Spec.oneSample k μ rnd (Spec.insideSet d rows) ≤ 1 := prob_le_one
  have hq1 : 1 - (1 - Spec.oneSample k μ rnd (Spec.insideSet d rows)).toReal
      = (Spec.oneSample k μ rnd (Spec.insideSet d rows)).toReal := by
    rw [ENNReal.toReal_sub_of_le hP1 (by simp), ENNReal.toReal_one]
    ring
  refine le_trans (measure_mono_ae ?_) (missing_bound_many (d := d) (size := size) (cs := (chunking size k.kernel.chunk).2)
    (chunk := k.kernel.chunk) hXm hind hq (chunking_le (Or.inl hc)) hg0 hgd hLcs hgL (m := m) hε (by rw [hq1]; exact hmargin)
    (10 * N - 1 - m))
  filter_upwards [hiff size squeeze (Or.inl hc)] with ω hω he
  have := hω.mp he
  rw [hch, show 10 * N = 1 + m + (10 * N - 1 - m) by omega] at this
  exact this

/-- **C162 (too few candidates).** At most `min(chunk, 2^d size)` candidates are drawn in each of the `10 N` rounds.  If a share `P` of them is
expected to give less than `size` samples, with a margin `ε`, sampling with boundaries succeeds with a probability of at most
`exp(- 20 N min(chunk, 2^d size) ε²)`. -/
theorem C162_fails {E : Ext} {a : KDEArgs d} {k : KDE d} (h : KDE.init E a = .ok k) (hd : 0 < d)
    (hM : (Spec.kernelMatrix k.covariance k.bandwidth).PosDef) (hc : k.kernel.chunk ≠ 0) (reflect : Reflect)
    (rows : List ReflRow) (hb : Spec.boundaries k reflect = .ok (some rows))
    (hin : ∀ x ∈ a.dataset, ∀ i : Fin d, Spec.StrictlyInside (rows.getD i none) (x i))
    {Ω : Type} [MeasurableSpace Ω] (μ : Measure Ω) (rnd : Ω → ℕ → ℕ → Draw d) (hrnd : Spec.RandomNumbers μ rnd)
    (size : ℕ) (squeeze : Bool) {ε : ℝ} (hε : 0 ≤ ε)
    (hs : (10 * Spec.numChunks size k.kernel.chunk : ℕ) * (min k.kernel.chunk (2 ^ d * size) : ℕ)
      * ((Spec.oneSample k μ rnd (Spec.insideSet d rows)).toReal + ε) ≤ size) :
    Spec.successProb k μ rnd size reflect squeeze ≤ ENNReal.ofReal (Real.exp (-2 * ((10 * Spec.numChunks size k.kernel.chunk : ℕ)
      * (min k.kernel.chunk (2 ^ d * size) : ℕ)) * ε ^ 2)) := by
  obtain ⟨hprob, X, hXm, hind, hq, hiff⟩ := fail_repr h hd hM reflect rows hb hin μ rnd hrnd
  have hch := (chunking_spec size k.kernel.chunk (Or.inl hc)).1
  rw [← hch] at hs ⊢
  have hP1 : Spec.oneSample k μ rnd (Spec.insideSet d rows) ≤ 1 := prob_le_one
  have hq1 : 1 - (1 - Spec.oneSample k μ rnd (Spec.insideSet d rows)).toReal
      = (Spec.oneSample k μ rnd (Spec.insideSet d rows)).toReal := by
    rw [ENNReal.toReal_sub_of_le hP1 (by simp), ENNReal.toReal_one]
    ring
  have hcs : (chunking size k.kernel.chunk).2 ≤ size := by
    unfold chunking
    split_ifs with hlt
    · simp only
      have hn : 0 < (size + k.kernel.chunk - 1) / k.kernel.chunk := Nat.div_pos (by omega) (by omega)
      refine Nat.div_le_of_le_mul ?_
      obtain ⟨n, hn'⟩ : ∃ n, n + 1 = (size + k.kernel.chunk - 1) / k.kernel.chunk := ⟨_, Nat.succ_pred_eq_of_pos hn⟩
      rw [← hn', Nat.add_mul]
      have : n ≤ n * size := Nat.le_mul_of_pos_right n (by omega)
      omega
    · exact le_rfl
  have hdraw : ∀ ω b, (remLoop d size (chunking size k.kernel.chunk).2 k.kernel.chunk (X · ω) b).1
      ≤ min k.kernel.chunk (2 ^ d * size) := by
    intro ω b
    refine le_min (remLoop_draw (chunking_le (Or.inl hc)) b) ?_
    cases b with
    | zero => exact hcs.trans (Nat.le_mul_of_pos_left _ (by positivity))
    | succ b =>
      rw [remLoop_next]
      exact (min_le_left _ _).trans (Nat.mul_le_mul_left _ ((min_le_right _ _).trans hcs))
  refine le_trans (measure_mono_ae ?_) (found_bound (d := d) (size := size) (B := 10 * (chunking size k.kernel.chunk).1) hXm hind hq hdraw hε
    (by rw [hq1]; exact hs))
  filter_upwards [hiff size squeeze (Or.inl hc)] with ω hω hok
  obtain ⟨s, hok⟩ : ∃ s, k.resample (some size) .none reflect squeeze (rnd ω) = .ok s := hok
  by_contra hne
  obtain ⟨e, he⟩ := hω.mpr hne
  rw [hok] at he
  cases he

/-- **C162 (large sizes fail).** If less than a tenth of the samples drawn without boundaries lie inside of them, the call fails almost surely
for large numbers of samples: for all multiples of the chunk size it returns with a probability of at most `exp(-20 size (1/10 - P)²)`. -/
theorem C162_large_fails {E : Ext} {a : KDEArgs d} {k : KDE d} (h : KDE.init E a = .ok k) (hd : 0 < d)
    (hM : (Spec.kernelMatrix k.covariance k.bandwidth).PosDef) (hc : k.kernel.chunk ≠ 0) (reflect : Reflect)
    (rows : List ReflRow) (hb : Spec.boundaries k reflect = .ok (some rows))
    (hin : ∀ x ∈ a.dataset, ∀ i : Fin d, Spec.StrictlyInside (rows.getD i none) (x i))
    {Ω : Type} [MeasurableSpace Ω] (μ : Measure Ω) (rnd : Ω → ℕ → ℕ → Draw d) (hrnd : Spec.RandomNumbers μ rnd)
    (n : ℕ) (hn : 0 < n) (squeeze : Bool) (hP : (Spec.oneSample k μ rnd (Spec.insideSet d rows)).toReal ≤ 1 / 10) :
    Spec.successProb k μ rnd (n * k.kernel.chunk) reflect squeeze ≤ ENNReal.ofReal (Real.exp (-20 * (n * k.kernel.chunk)
      * (1 / 10 - (Spec.oneSample k μ rnd (Spec.insideSet d rows)).toReal) ^ 2)) := by
  have hcr : (k.kernel.chunk : ℝ) ≠ 0 := by exact_mod_cast hc
  have hN : Spec.numChunks (n * k.kernel.chunk) k.kernel.chunk = n := by
    rw [Spec.numChunks]
    push_cast
    rw [mul_div_cancel_right₀ _ hcr, Nat.ceil_natCast, max_eq_right hn]
  have hmin : min k.kernel.chunk (2 ^ d * (n * k.kernel.chunk)) = k.kernel.chunk :=
    min_eq_left (Nat.le_mul_of_pos_left _ hn |>.trans (Nat.le_mul_of_pos_left _ (by positivity)))
  have key := C162_fails h hd hM hc reflect rows hb hin μ rnd hrnd (n * k.kernel.chunk) squeeze
    (ε := 1 / 10 - (Spec.oneSample k μ rnd (Spec.insideSet d rows)).toReal) (by linarith) (by
      rw [hN, hmin]
      push_cast
      apply le_of_eq
      ring)
  rw [hN, hmin] at key
  refine key.trans (le_of_eq ?_)
  congr 2
  push_cast
  ring

/-! ### Symmetric kernels and one boundary -/

lemma symLaw_neg : MeasurePreserving (fun x : ℝ => -x) Spec.symLaw Spec.symLaw := by
  refine ⟨measurable_neg, ?_⟩
  ext A hA
  rw [Measure.map_apply measurable_neg hA, Spec.symLaw, Measure.smul_apply, Measure.smul_apply, Measure.restrict_apply (measurable_neg hA),
    Measure.restrict_apply hA]
  congr 1
  have h1 : volume ((fun x : ℝ => -x) ⁻¹' (A ∩ Set.Ioc (-1) 1)) = volume (A ∩ Set.Ioc (-1) 1) :=
    (Measure.measurePreserving_neg volume).measure_preimage (hA.inter measurableSet_Ioc).nullMeasurableSet
  have h2 : (fun x : ℝ => -x) ⁻¹' (A ∩ Set.Ioc (-1) 1) = (fun x : ℝ => -x) ⁻¹' A ∩ Set.Ico (-1) 1 := by
    ext x
    simp only [Set.mem_preimage, Set.mem_inter_iff, Set.mem_Ioc, Set.mem_Ico]
    constructor
    · rintro ⟨h, a, b⟩; exact ⟨h, by linarith, by linarith⟩
    · rintro ⟨h, a, b⟩; exact ⟨h, by linarith, by linarith⟩
  have h3 : volume (A ∩ Set.Ioc (-1) 1) = volume (A ∩ Set.Ico (-1) 1) :=
    measure_congr ((ae_eq_refl A).inter (Ioc_ae_eq_Icc.trans Ico_ae_eq_Icc.symm))
  rw [← h2, h1, h3]

lemma gauss_neg : MeasurePreserving (fun x : ℝ => -x) (gaussianReal 0 1) (gaussianReal 0 1) := by
  refine ⟨measurable_neg, ?_⟩
  have := gaussianReal_map_neg (μ := 0) (v := 1)
  rwa [neg_zero] at this

lemma median3_neg (t : ℝ × ℝ × ℝ) : median3 (-t) = -median3 t := by
  obtain ⟨a, b, c⟩ := t
  simp only [median3, Prod.neg_mk]
  rcases le_total a b with h1 | h1 <;> rcases le_total a c with h2 | h2 <;> rcases le_total b c with h3 | h3 <;>
    simp [max_def, min_def, neg_le_neg_iff] <;> split_ifs <;> linarith

lemma noiseLaw_neg (D : Dist) : MeasurePreserving (fun z : Fin d → ℝ => -z) (noiseLaw D d) (noiseLaw D d) := by
  obtain ⟨N, hN⟩ : ∃ N : NoiseTuple d → NoiseTuple d, N = Prod.map (fun g i => -g i) (Prod.map id (Prod.map (fun g i => -g i)
    (fun g i => Prod.map (fun x => -x) (Prod.map (fun x => -x) (fun x => -x)) (g i)))) := ⟨_, rfl⟩
  have hNp : MeasurePreserving N (noiseTupleLaw d) (noiseTupleLaw d) := by
    rw [hN]
    refine (measurePreserving_pi _ _ fun _ => gauss_neg).prod ((MeasurePreserving.id _).prod
      ((measurePreserving_pi _ _ fun _ => symLaw_neg).prod (measurePreserving_pi _ _ fun _ => ?_)))
    exact symLaw_neg.prod (symLaw_neg.prod symLaw_neg)
  have hrad : ∀ g : Fin d → ℝ, rad (fun i => -g i) = rad g := fun g => by simp [rad]
  have hf : ∀ t, noiseFn D (N t) = -noiseFn D t := by
    intro t
    rw [hN]
    cases D with
    | gaussian => rfl
    | box =>
      simp only [noiseFn]
      split_ifs with h1
      · rfl
      · funext i
        simp only [Prod.map_fst, Prod.map_snd, Pi.neg_apply, hrad, id]
        ring
    | parabola =>
      funext i
      exact median3_neg _
    | triweight =>
      funext i
      simp only [noiseFn, Prod.map_fst, Prod.map_snd, Pi.neg_apply, hrad, id]
      ring
  refine ⟨measurable_neg, ?_⟩
  rw [noiseLaw, Measure.map_map measurable_neg (measurable_noiseFn D)]
  have e : (fun z : Fin d → ℝ => -z) ∘ noiseFn D = noiseFn D ∘ N := by
    funext t
    exact (hf t).symm
  rw [e, ← Measure.map_map (measurable_noiseFn D) hNp.measurable, hNp.map_eq]

/-- A linear form of the noise is not negative with a probability of at least one half. -/
lemma noise_half (D : Dist) (c : Fin d → ℝ) : (2 : ENNReal)⁻¹ ≤ noiseLaw D d {z | 0 ≤ c ⬝ᵥ z} := by
  have hm : Measurable fun z : Fin d → ℝ => c ⬝ᵥ z := by
    unfold dotProduct
    fun_prop
  have hA : MeasurableSet {z : Fin d → ℝ | 0 ≤ c ⬝ᵥ z} := hm measurableSet_Ici
  have h1 : noiseLaw D d {z | c ⬝ᵥ z ≤ 0} = noiseLaw D d {z | 0 ≤ c ⬝ᵥ z} := by
    rw [← (noiseLaw_neg D).measure_preimage hA.nullMeasurableSet]
    congr 1
    ext z
    simp
  have h2 : (1 : ENNReal) ≤ noiseLaw D d {z | 0 ≤ c ⬝ᵥ z} + noiseLaw D d {z | c ⬝ᵥ z ≤ 0} := by
    refine le_trans ?_ (measure_union_le _ _)
    have : {z : Fin d → ℝ | 0 ≤ c ⬝ᵥ z} ∪ {z | c ⬝ᵥ z ≤ 0} = Set.univ := by
      ext z; simpa using le_total _ _
    rw [this, measure_univ]
  rw [h1, ← two_mul] at h2
  rw [ENNReal.inv_le_iff_le_mul (by simp) (by simp)]
  exact h2

/-- **C162 (one boundary).** With one boundary below or above one parameter, at least half of the samples drawn without boundaries lie
inside, and sampling with the boundary fails with a probability of at most `size / 2 ^ (1 + 9 g)`. -/
theorem C162_one_boundary {E : Ext} {a : KDEArgs d} {k : KDE d} (h : KDE.init E a = .ok k) (hd : 0 < d)
    (hM : (Spec.kernelMatrix k.covariance k.bandwidth).PosDef) (reflect : Reflect)
    (rows : List ReflRow) (hb : Spec.boundaries k reflect = .ok (some rows)) {i : Fin d} (hi : Spec.OneBoundary rows i)
    (hin : ∀ x ∈ a.dataset, ∀ i : Fin d, Spec.StrictlyInside (rows.getD i none) (x i))
    {Ω : Type} [MeasurableSpace Ω] (μ : Measure Ω) (rnd : Ω → ℕ → ℕ → Draw d) (hrnd : Spec.RandomNumbers μ rnd)
    (size : ℕ) (squeeze : Bool) :
    (2 : ENNReal)⁻¹ ≤ Spec.oneSample k μ rnd (Spec.insideSet d rows) ∧
    ∀ g : ℕ, 0 < g → g ≤ 2 ^ d → g * size ≤ k.kernel.chunk →
      Spec.failProb k μ rnd size reflect squeeze ≤ size / 2 ^ (1 + 9 * g) := by
  have hdat : k.dataset = a.dataset := by
    obtain ⟨_, _, _, _, _, _, _, _, _, _, _, _, _, _, _, _, _, _, he⟩ := init_inv h; rw [he]
  have hne : a.dataset ≠ [] := by
    obtain ⟨_, _, _, _, _, _, _, _, _, hne, _⟩ := init_inv h; exact hne
  have hw : OkW a.dataset.length k.weights := by
    intro l hl
    rw [← hdat]
    exact stored_weights h hl
  have hSm := measurable_insideSet (d := d) rows
  obtain ⟨L, hL, hlaw⟩ := reflect_law h hd hM
  have hone : Spec.oneSample k μ rnd (Spec.insideSet d rows)
      = sampleLaw k.kernel.dist a.dataset k.weights L (Spec.insideSet d rows) := (hlaw μ rnd hrnd).1 true _ hSm
  have hhalf : (2 : ENNReal)⁻¹ ≤ Spec.oneSample k μ rnd (Spec.insideSet d rows) := by
    rw [hone, sampleLaw, Measure.map_apply (measurable_sampleOf _ _ _ _) hSm]
    -- noise that points inwards
    have key : ∀ c : Fin d → ℝ, (∀ z, 0 ≤ c ⬝ᵥ z → ∀ x ∈ a.dataset, x + L *ᵥ z ∈ Spec.insideSet d rows) →
        (2 : ENNReal)⁻¹ ≤ ((noiseLaw k.kernel.dist d).prod Spec.unitLaw)
          (sampleOf k.kernel.dist a.dataset k.weights L ⁻¹' Spec.insideSet d rows) := by
      intro c hc
      have hsub : {z : Fin d → ℝ | 0 ≤ c ⬝ᵥ z} ×ˢ Set.Ico (0 : ℝ) 1 ⊆
          sampleOf k.kernel.dist a.dataset k.weights L ⁻¹' Spec.insideSet d rows := by
        rintro ⟨z, u⟩ ⟨hz, hu⟩
        obtain ⟨cut, _, hcut⟩ := choice_cuts (List.length_pos_iff.mpr hne) hw
        have hlt := ((hcut u hu.1 hu.2 _).mp rfl).1
        refine hc z hz _ ?_
        rw [List.getD_eq_getElem _ _ hlt]
        exact List.getElem_mem hlt
      refine le_trans ?_ (measure_mono hsub)
      rw [Measure.prod_prod]
      have : Spec.unitLaw (Set.Ico (0 : ℝ) 1) = 1 := by simp [Spec.unitLaw]
      rw [this, mul_one]
      exact noise_half _ c
    have hsplit : ∀ x z, x ∈ a.dataset → (∀ lo hi, rows.getD i none = some (lo, hi) → (∀ l, lo = some l → 0 ≤ (L *ᵥ z) i) ∧
        ∀ l, hi = some l → (L *ᵥ z) i ≤ 0) → x + L *ᵥ z ∈ Spec.insideSet d rows := by
      intro x z hx hz j
      by_cases hj : j = i
      · subst hj
        intro lo hi' e
        obtain ⟨a1, a2⟩ := hin x hx j lo hi' e
        obtain ⟨b1, b2⟩ := hz lo hi' e
        refine ⟨fun l hl => ?_, fun l hl => ?_⟩
        · have := a1 l hl
          have := b1 l hl
          rw [Pi.add_apply]; linarith
        · have := a2 l hl
          have := b2 l hl
          rw [Pi.add_apply]; linarith
      · rw [hi.1 j hj]
        intro lo hi' e
        cases e
    rcases hi.2 with ⟨lo, e⟩ | ⟨up, e⟩
    · refine key (L i) fun z hz x hx => hsplit x z hx ?_
      rintro lo' hi' e'
      rw [e, Option.some.injEq, Prod.mk.injEq] at e'
      obtain ⟨rfl, rfl⟩ := e'
      exact ⟨fun _ _ => hz, by simp⟩
    · refine key (-L i) fun z hz x hx => hsplit x z hx ?_
      rintro lo' hi' e'
      rw [e, Option.some.injEq, Prod.mk.injEq] at e'
      obtain ⟨rfl, rfl⟩ := e'
      refine ⟨by simp, fun _ _ => ?_⟩
      rw [neg_dotProduct] at hz
      show L i ⬝ᵥ z ≤ 0
      linarith
  refine ⟨hhalf, fun g hg0 hgd hgs => (C162_bound h hd hM reflect rows hb hin μ rnd hrnd size squeeze hg0 hgd hgs).trans ?_⟩
  rw [div_eq_mul_inv, ENNReal.inv_pow]
  gcongr
  rw [tsub_le_iff_right]
  calc (1 : ENNReal) = 2⁻¹ + 2⁻¹ := ENNReal.inv_two_add_inv_two.symm
    _ ≤ _ := by gcongr

/-- **C162 (one boundary, many samples).** With one boundary and chunks of `2 L` points, sampling `size` samples in `N ≥ 2` chunks fails with a
probability of at most `exp(-size / 6) + L / 2 ^ (14 N - 2)`. -/
theorem C162_one_boundary_many {E : Ext} {a : KDEArgs d} {k : KDE d} (h : KDE.init E a = .ok k) (hd : 0 < d)
    (hM : (Spec.kernelMatrix k.covariance k.bandwidth).PosDef) (reflect : Reflect)
    (rows : List ReflRow) (hb : Spec.boundaries k reflect = .ok (some rows)) {i : Fin d} (hi : Spec.OneBoundary rows i)
    (hin : ∀ x ∈ a.dataset, ∀ i : Fin d, Spec.StrictlyInside (rows.getD i none) (x i))
    {Ω : Type} [MeasurableSpace Ω] (μ : Measure Ω) (rnd : Ω → ℕ → ℕ → Draw d) (hrnd : Spec.RandomNumbers μ rnd)
    (size L : ℕ) (squeeze : Bool) (hL0 : 0 < L) (hL : k.kernel.chunk = 2 * L) (hs : k.kernel.chunk < size) :
    Spec.failProb k μ rnd size reflect squeeze ≤ ENNReal.ofReal (Real.exp (-(size / 6)))
      + L / 2 ^ (14 * Spec.numChunks size k.kernel.chunk - 2) := by
  have hhalf := (C162_one_boundary h hd hM reflect rows hb hi hin μ rnd hrnd size squeeze).1
  have hprob : IsProbabilityMeasure μ := (hrnd.law 0 0).isProbabilityMeasure
  have hP1 : Spec.oneSample k μ rnd (Spec.insideSet d rows) ≤ 1 := prob_le_one
  have hhalf' : (1 / 2 : ℝ) ≤ (Spec.oneSample k μ rnd (Spec.insideSet d rows)).toReal := by
    have := ENNReal.toReal_mono (ne_top_of_le_ne_top ENNReal.one_ne_top hP1) hhalf
    simpa using this
  have hc : k.kernel.chunk ≠ 0 := by omega
  obtain ⟨N, hN⟩ : ∃ N, N = Spec.numChunks size k.kernel.chunk := ⟨_, rfl⟩
  have hch := (chunking_spec size k.kernel.chunk (Or.inl hc)).1
  rw [chunking, if_pos hs, ← hN, hL] at hch
  simp only at hch
  have hN1 : N * (2 * L) ≤ size + 2 * L - 1 := by rw [← hch]; exact Nat.div_mul_le_self _ _
  have hN2 : size ≤ N * (2 * L) := by
    have := Nat.lt_div_mul_add (a := size + 2 * L - 1) (b := 2 * L) (by omega)
    rw [hch] at this
    omega
  have hN0 : 0 < N := by
    rcases Nat.eq_zero_or_pos N with h0 | h0
    · rw [h0] at hN2; omega
    · exact h0
  have hN2' : (size : ℝ) ≤ N * (2 * L) := by exact_mod_cast hN2
  have hLN : L * N ≤ size := by
    rw [hL] at hs
    have : N * (2 * L) = 2 * (L * N) := by ring
    omega
  have h2d : 2 ≤ 2 ^ d := by
    calc 2 = 2 ^ 1 := rfl
      _ ≤ 2 ^ d := Nat.pow_le_pow_right (by norm_num) hd
  have key := C162_many h hd hM hc reflect rows hb hin μ rnd hrnd size squeeze (g := 2) (L := L) (m := 3 * N) (ε := 1 / 6)
    (by norm_num) h2d hL.ge (by rw [← hN]; exact hLN) (by rw [← hN]; omega) (by norm_num) (by
      have hL0' : (0 : ℝ) ≤ L := Nat.cast_nonneg _
      have hN0' : (0 : ℝ) ≤ N := Nat.cast_nonneg _
      have h1 : (0 : ℝ) ≤ 3 * N * (2 * L) := by positivity
      push_cast
      nlinarith [mul_le_mul_of_nonneg_left hhalf' h1])
  rw [← hN] at key ⊢
  refine key.trans (add_le_add ?_ ?_)
  · refine ENNReal.ofReal_le_ofReal (Real.exp_le_exp.mpr ?_)
    push_cast
    nlinarith
  · rw [show (10 * N - 1 - 3 * N) * 2 = 14 * N - 2 by omega, div_eq_mul_inv, ENNReal.inv_pow]
    gcongr
    rw [tsub_le_iff_right]
    calc (1 : ENNReal) = 2⁻¹ + 2⁻¹ := ENNReal.inv_two_add_inv_two.symm
      _ ≤ _ := by gcongr

/-- Concrete case: two data, box kernel, lower boundary 0; drawing 50 samples fails less than once in ten thousand times. -/
example : ∃ (E : Ext) (a : KDEArgs 1) (k : KDE 1), KDE.init E a = .ok k ∧
    ∀ {Ω : Type} [MeasurableSpace Ω] (μ : Measure Ω) (rnd : Ω → ℕ → ℕ → Draw 1), Spec.RandomNumbers μ rnd →
      Spec.failProb k μ rnd 50 .none true ≤ 50 / 2 ^ 19 := by
  obtain ⟨k, hk, _, hD, hM, hr, hc, _⟩ := unit_init_reflect (d := 1) ⟨fun A => A, id⟩ [![1 / 2], ![3]] (by simp) .box rfl
    [some (some 0, none)] rfl (by simp) ⟨_, List.mem_singleton.mpr rfl⟩
  refine ⟨_, _, k, hk, fun μ rnd hrnd => ?_⟩
  have := (C162_one_boundary (i := 0) hk one_pos (by rw [hM]; exact PosDef.one) .none [some (some 0, none)]
    (by simp [Spec.boundaries, hr]) ⟨fun j hj => absurd (Subsingleton.elim j 0) hj, Or.inl ⟨0, rfl⟩⟩ ?_ μ rnd hrnd 50 true).2 2
    (by norm_num) (by norm_num) (by rw [hc]; norm_num)
  · simpa using this
  · intro x hx i
    obtain rfl := Subsingleton.elim i 0
    intro lo hi e
    simp only [List.getD_cons_zero, Fin.val_zero, Option.some.injEq, Prod.mk.injEq] at e
    obtain ⟨rfl, rfl⟩ := e
    simp only [List.mem_cons, List.not_mem_nil, or_false] at hx
    rcases hx with rfl | rfl
    · exact ⟨by rintro l ⟨⟩; norm_num, by rintro l ⟨⟩⟩
    · exact ⟨by rintro l ⟨⟩; norm_num, by rintro l ⟨⟩⟩

/-- Concrete case: the same data, a million samples. -/
example : ∃ (E : Ext) (a : KDEArgs 1) (k : KDE 1), KDE.init E a = .ok k ∧
    ∀ {Ω : Type} [MeasurableSpace Ω] (μ : Measure Ω) (rnd : Ω → ℕ → ℕ → Draw 1), Spec.RandomNumbers μ rnd →
      Spec.failProb k μ rnd 1000000 .none true ≤ ENNReal.ofReal (Real.exp (-((1000000 : ℕ) / 6))) + (50000 : ℕ) / 2 ^ 138 := by
  obtain ⟨k, hk, _, hD, hM, hr, hc, _⟩ := unit_init_reflect (d := 1) ⟨fun A => A, id⟩ [![1 / 2], ![3]] (by simp) .box rfl
    [some (some 0, none)] rfl (by simp) ⟨_, List.mem_singleton.mpr rfl⟩
  refine ⟨_, _, k, hk, fun μ rnd hrnd => ?_⟩
  have := C162_one_boundary_many (i := 0) hk one_pos (by rw [hM]; exact PosDef.one) .none [some (some 0, none)]
    (by simp [Spec.boundaries, hr]) ⟨fun j hj => absurd (Subsingleton.elim j 0) hj, Or.inl ⟨0, rfl⟩⟩ ?_ μ rnd hrnd 1000000 50000 true
    (by norm_num) hc (by rw [hc]; norm_num)
  · have hN : Spec.numChunks 1000000 k.kernel.chunk = 10 := by
      have := (chunking_spec 1000000 k.kernel.chunk (by left; rw [hc]; norm_num)).1
      rw [← this, hc]
      rfl
    rw [hN] at this
    exact this
  · intro x hx i
    obtain rfl := Subsingleton.elim i 0
    intro lo hi e
    simp only [List.getD_cons_zero, Fin.val_zero, Option.some.injEq, Prod.mk.injEq] at e
    obtain ⟨rfl, rfl⟩ := e
    simp only [List.mem_cons, List.not_mem_nil, or_false] at hx
    rcases hx with rfl | rfl
    · exact ⟨by rintro l ⟨⟩; norm_num, by rintro l ⟨⟩⟩
    · exact ⟨by rintro l ⟨⟩; norm_num, by rintro l ⟨⟩⟩

end Kalepy
