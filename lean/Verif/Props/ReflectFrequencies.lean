import Verif.Props.ReflectSuccess
import Verif.Props.Frequencies

/-!
# C163: frequencies of samples drawn with boundaries
-/

namespace Kalepy

open MeasureTheory ProbabilityTheory Matrix

variable {d : ℕ}

/-- From probabilities of boxes to Hoeffding's bound: `R ω X` says that a call returned the points `X`. -/
lemma fraction_bound_boxes {Ω V : Type*} [MeasurableSpace Ω] [MeasurableSpace V] {μ : Measure Ω} {Q : Measure V} [IsProbabilityMeasure Q]
    {n : ℕ} {R : Ω → (Fin n → V) → Prop} {S : ENNReal}
    (hR : ∀ A : Fin n → Set V, (∀ j, MeasurableSet (A j)) → μ {ω | ∃ X, R ω X ∧ ∀ j, X j ∈ A j} = S * ∏ j, Q (A j))
    {A : Set V} (hA : MeasurableSet A) {ε : ℝ} (hε : 0 < ε) :
    μ {ω | ∃ X, R ω X ∧ ε ≤ |Spec.fraction (List.ofFn X) A - Q.real A|} ≤ S * ENNReal.ofReal (2 * Real.exp (-2 * n * ε ^ 2)) := by
  classical
  let box : Finset (Fin n) → Fin n → Set V := fun T j => if j ∈ T then A else Aᶜ
  have hbox : ∀ T j, MeasurableSet (box T j) := fun T j => by
    simp only [box]
    split_ifs
    · exact hA
    · exact hA.compl
  let pat : (Fin n → V) → Finset (Fin n) := fun X => Finset.univ.filter fun j => X j ∈ A
  have hpat : ∀ X j, X j ∈ box (pat X) j := fun X j => by
    simp only [box, pat, Finset.mem_filter, Finset.mem_univ, true_and]
    split_ifs with h
    · exact h
    · exact h
  have hpat' : ∀ X T, (∀ j, X j ∈ box T j) → pat X = T := by
    intro X T h
    ext j
    have := h j
    simp only [box] at this
    simp only [pat, Finset.mem_filter, Finset.mem_univ, true_and]
    split_ifs at this with hj
    · exact ⟨fun _ => hj, fun _ => this⟩
    · exact ⟨fun h => absurd h this, fun h => absurd h hj⟩
  let bad : Finset (Finset (Fin n)) := Finset.univ.filter fun T => ε ≤ |(T.card : ℝ) / n - Q.real A|
  have hfrac : ∀ X : Fin n → V, Spec.fraction (List.ofFn X) A = (pat X).card / n := by
    intro X
    rw [Spec.fraction, List.length_ofFn, countP_ofFn, Finset.card_filter]
    push_cast
    congr 1
    exact Finset.sum_congr rfl fun j _ => by simp
  have h1 : {ω | ∃ X, R ω X ∧ ε ≤ |Spec.fraction (List.ofFn X) A - Q.real A|} ⊆ ⋃ T ∈ bad, {ω | ∃ X, R ω X ∧ ∀ j, X j ∈ box T j} := by
    rintro ω ⟨X, hX, hb⟩
    rw [hfrac] at hb
    exact Set.mem_biUnion (x := pat X) (Finset.mem_filter.mpr ⟨Finset.mem_univ _, hb⟩) ⟨X, hX, hpat X⟩
  have h2 : (∑ T ∈ bad, ∏ j, Q (box T j)) = (Measure.pi fun _ : Fin n => Q) (⋃ T ∈ bad, Set.univ.pi (box T)) := by
    rw [measure_biUnion_finset ?_ fun T _ => MeasurableSet.univ_pi (hbox T)]
    · exact Finset.sum_congr rfl fun T _ => (Measure.pi_pi _ _).symm
    · intro T _ T' _ hne
      refine Set.disjoint_left.mpr fun X hX hX' => hne ?_
      rw [← hpat' X T fun j => hX j (Set.mem_univ j), hpat' X T' fun j => hX' j (Set.mem_univ j)]
  have h3 : (Measure.pi fun _ : Fin n => Q) (⋃ T ∈ bad, Set.univ.pi (box T)) ≤ ENNReal.ofReal (2 * Real.exp (-2 * n * ε ^ 2)) := by
    have hlaw : ∀ j : Fin n, HasLaw (fun X : Fin n → V => X j) Q (Measure.pi fun _ : Fin n => Q) := fun j =>
      ⟨(measurePreserving_eval (fun _ : Fin n => Q) j).measurable.aemeasurable, (measurePreserving_eval (fun _ : Fin n => Q) j).map_eq⟩
    have hind : iIndepFun (fun (j : Fin n) (X : Fin n → V) => X j) (Measure.pi fun _ : Fin n => Q) :=
      iIndepFun_pi (X := fun (_ : Fin n) (x : V) => x) fun _ => aemeasurable_id
    have := fraction_bound_list hlaw hind hA (good := fun X l => l = List.ofFn X)
      (Filter.Eventually.of_forall fun X => ⟨_, rfl, List.Perm.refl _⟩) hε
    rw [← ofReal_measureReal (measure_ne_top (Measure.pi fun _ : Fin n => Q) _)]
    refine ENNReal.ofReal_le_ofReal (le_trans (measureReal_mono ?_) this)
    intro X hX
    simp only [Set.mem_iUnion] at hX
    obtain ⟨T, hT, hX⟩ := hX
    have hT' := (Finset.mem_filter.mp hT).2
    have e := hpat' X T fun j => hX j (Set.mem_univ j)
    rintro ⟨l, rfl, hl⟩
    rw [hfrac, e] at hl
    exact absurd hl (not_lt.mpr hT')
  calc _ ≤ _ := measure_mono h1
    _ ≤ ∑ T ∈ bad, μ {ω | ∃ X, R ω X ∧ ∀ j, X j ∈ box T j} := measure_biUnion_finset_le _ _
    _ = S * ∑ T ∈ bad, ∏ j, Q (box T j) := by
        rw [Finset.mul_sum]
        exact Finset.sum_congr rfl fun T _ => hR _ (hbox T)
    _ ≤ _ := by
        rw [h2]
        gcongr

/-! ### Specification -/

/-- Specification: the share of the region `A` in the samples drawn without boundaries that lie inside of the boundaries. -/
noncomputable def Spec.insideShare {Ω : Type} [MeasurableSpace Ω] (k : KDE d) (μ : Measure Ω) (rnd : Ω → ℕ → ℕ → Draw d)
    (rows : List ReflRow) (A : Set (Fin d → ℝ)) : ℝ :=
  (Spec.oneSample k μ rnd (A ∩ Spec.insideSet d rows) / Spec.oneSample k μ rnd (Spec.insideSet d rows)).toReal

/-! ### The theorems -/

/-- **C163.** With all data strictly inside of the boundaries: given that `resample` returns, the fraction of the samples in a region
differs by `ε` or more from the region's share with a probability of at most `2 exp(-2 size ε²)`. -/
theorem C163_frequencies {E : Ext} {a : KDEArgs d} {k : KDE d} (h : KDE.init E a = .ok k) (hd : 0 < d)
    (hM : (Spec.kernelMatrix k.covariance k.bandwidth).PosDef) (reflect : Reflect)
    (rows : List ReflRow) (hb : Spec.boundaries k reflect = .ok (some rows))
    (hin : ∀ x ∈ a.dataset, ∀ i : Fin d, Spec.StrictlyInside (rows.getD i none) (x i))
    {Ω : Type} [MeasurableSpace Ω] (μ : Measure Ω) (rnd : Ω → ℕ → ℕ → Draw d) (hrnd : Spec.RandomNumbers μ rnd)
    (size : ℕ) (squeeze : Bool) (A : Set (Fin d → ℝ)) (hA : MeasurableSet A) {ε : ℝ} (hε : 0 < ε) :
    μ {ω | ∃ s, k.resample (some size) .none reflect squeeze (rnd ω) = .ok s ∧
        ε ≤ |Spec.fractionIn s A - Spec.insideShare k μ rnd rows A|}
      ≤ Spec.successProb k μ rnd size reflect squeeze * ENNReal.ofReal (2 * Real.exp (-2 * size * ε ^ 2)) := by
  have hdat : k.dataset = a.dataset := by
    obtain ⟨_, _, _, _, _, _, _, _, _, _, _, _, _, _, _, _, _, _, he⟩ := init_inv h; rw [he]
  have hne : a.dataset ≠ [] := by
    obtain ⟨_, _, _, _, _, _, _, _, _, hne, _⟩ := init_inv h; exact hne
  have hw : OkW a.dataset.length k.weights := by
    intro l hl
    rw [← hdat]
    exact stored_weights h hl
  have hSm := measurable_insideSet (d := d) rows
  obtain ⟨L, hL, hlaw⟩ := reflect_law h hd hM
  obtain ⟨h1, h2⟩ := hlaw μ rnd hrnd
  obtain ⟨h3, h4⟩ := h2 reflect rows hb (by rw [hdat]; exact hin) size squeeze
  obtain ⟨P, hP⟩ : ∃ P, P = sampleLaw k.kernel.dist a.dataset k.weights L := ⟨_, rfl⟩
  have hPp : IsProbabilityMeasure P := by
    rw [hP]; exact Measure.isProbabilityMeasure_map (measurable_sampleOf _ _ _ _).aemeasurable
  have hpos := sampleLaw_pos k.kernel.dist hne hw L (isOpen_insideSet (d := d) rows) hin
  have hone : ∀ A, MeasurableSet A → Spec.oneSample k μ rnd A = P A := fun A hA => hP ▸ h1 true A hA
  rw [← hP] at h3 hpos
  have hQ : IsProbabilityMeasure (P[|Spec.insideSet d rows]) := cond_isProbabilityMeasure hpos
  have hQA : ∀ A, MeasurableSet A → (P[|Spec.insideSet d rows]) A = P (A ∩ Spec.insideSet d rows) / P (Spec.insideSet d rows) := by
    intro A _
    rw [cond_apply hSm, Set.inter_comm, mul_comm]
    rfl
  have hsh : Spec.insideShare k μ rnd rows A = (P[|Spec.insideSet d rows]).real A := by
    rw [Spec.insideShare, hone _ hSm, hone _ (hA.inter hSm), Measure.real, hQA A hA]
  have hlen : ∀ ω s, k.resample (some size) .none reflect squeeze (rnd ω) = .ok s → s.points.length = size := by
    intro ω s hs
    exact C26_size h (some size) .none reflect squeeze (rnd ω) s hs
  have key := fraction_bound_boxes (μ := μ) (Q := P[|Spec.insideSet d rows]) (n := size)
    (R := fun ω X => ∃ s, k.resample (some size) .none reflect squeeze (rnd ω) = .ok s ∧ s.points = List.ofFn X)
    (S := Spec.successProb k μ rnd size reflect squeeze) (fun B hB => by
      rw [Finset.prod_congr rfl fun j _ => hQA (B j) (hB j)]
      rw [Spec.successProb, ← h3 B hB]
      congr 1
      ext ω
      constructor
      · rintro ⟨X, ⟨s, e1, e2⟩, e3⟩; exact ⟨s, X, e1, e2, e3⟩
      · rintro ⟨s, X, e1, e2, e3⟩; exact ⟨X, ⟨s, e1, e2⟩, e3⟩) hA hε
  refine le_trans (measure_mono ?_) key
  rintro ω ⟨s, hs, hge⟩
  obtain ⟨X, hX⟩ : ∃ X : Fin size → Fin d → ℝ, s.points = List.ofFn X := by
    have hl := hlen ω s hs
    subst hl
    exact ⟨s.points.get, (List.ofFn_get _).symm⟩
  refine ⟨X, ⟨s, hs, hX⟩, ?_⟩
  rw [← hX, ← hsh]
  exact hge

/-- **C163 (with failures).** The probability that `resample` raises, or returns samples whose fraction in the region is off by `ε` or more. -/
theorem C163_total {E : Ext} {a : KDEArgs d} {k : KDE d} (h : KDE.init E a = .ok k) (hd : 0 < d)
    (hM : (Spec.kernelMatrix k.covariance k.bandwidth).PosDef) (reflect : Reflect)
    (rows : List ReflRow) (hb : Spec.boundaries k reflect = .ok (some rows))
    (hin : ∀ x ∈ a.dataset, ∀ i : Fin d, Spec.StrictlyInside (rows.getD i none) (x i))
    {Ω : Type} [MeasurableSpace Ω] (μ : Measure Ω) (rnd : Ω → ℕ → ℕ → Draw d) (hrnd : Spec.RandomNumbers μ rnd)
    (size : ℕ) (squeeze : Bool) (A : Set (Fin d → ℝ)) (hA : MeasurableSet A) {ε : ℝ} (hε : 0 < ε) :
    μ {ω | ¬ ∃ s, k.resample (some size) .none reflect squeeze (rnd ω) = .ok s ∧
        |Spec.fractionIn s A - Spec.insideShare k μ rnd rows A| < ε}
      ≤ Spec.failProb k μ rnd size reflect squeeze + ENNReal.ofReal (2 * Real.exp (-2 * size * ε ^ 2)) := by
  have hprob : IsProbabilityMeasure μ := (hrnd.law 0 0).isProbabilityMeasure
  have hsub : {ω | ¬ ∃ s, k.resample (some size) .none reflect squeeze (rnd ω) = .ok s ∧
        |Spec.fractionIn s A - Spec.insideShare k μ rnd rows A| < ε}
      ⊆ {ω | ∃ e, k.resample (some size) .none reflect squeeze (rnd ω) = .error e} ∪
        {ω | ∃ s, k.resample (some size) .none reflect squeeze (rnd ω) = .ok s ∧
          ε ≤ |Spec.fractionIn s A - Spec.insideShare k μ rnd rows A|} := by
    intro ω hω
    cases hr : k.resample (some size) .none reflect squeeze (rnd ω) with
    | error e => exact Or.inl ⟨e, hr⟩
    | ok s =>
      refine Or.inr ⟨s, hr, ?_⟩
      by_contra hlt
      exact hω ⟨s, hr, not_le.mp hlt⟩
  refine (measure_mono hsub).trans ((measure_union_le _ _).trans (add_le_add le_rfl ?_))
  refine (C163_frequencies h hd hM reflect rows hb hin μ rnd hrnd size squeeze A hA hε).trans ?_
  exact mul_le_of_le_one_left' prob_le_one

/-- **C163 (one boundary).** With one boundary the fractions of many samples approach the shares: the probability that `resample` raises or that
the fraction of the samples in a region is off by `ε` or more goes to zero. -/
theorem C163_consistent {E : Ext} {a : KDEArgs d} {k : KDE d} (h : KDE.init E a = .ok k) (hd : 0 < d)
    (hM : (Spec.kernelMatrix k.covariance k.bandwidth).PosDef) (reflect : Reflect)
    (rows : List ReflRow) (hb : Spec.boundaries k reflect = .ok (some rows)) {i : Fin d} (hi : Spec.OneBoundary rows i)
    (hin : ∀ x ∈ a.dataset, ∀ i : Fin d, Spec.StrictlyInside (rows.getD i none) (x i))
    {Ω : Type} [MeasurableSpace Ω] (μ : Measure Ω) (rnd : Ω → ℕ → ℕ → Draw d) (hrnd : Spec.RandomNumbers μ rnd)
    (squeeze : Bool) (A : Set (Fin d → ℝ)) (hA : MeasurableSet A) {ε : ℝ} (hε : 0 < ε)
    (L : ℕ) (hL0 : 0 < L) (hL : k.kernel.chunk = 2 * L) :
    Filter.Tendsto (fun size : ℕ => μ {ω | ¬ ∃ s, k.resample (some size) .none reflect squeeze (rnd ω) = .ok s ∧
        |Spec.fractionIn s A - Spec.insideShare k μ rnd rows A| < ε}) Filter.atTop (nhds 0) := by
  have hN : ∀ size : ℕ, size / (2 * L) ≤ Spec.numChunks size k.kernel.chunk := by
    intro size
    have := Nat.le_ceil ((size : ℝ) / (2 * L : ℕ))
    rw [Spec.numChunks, hL]
    refine le_trans ?_ (le_max_right _ _)
    have h1 : ((size / (2 * L) : ℕ) : ℝ) ≤ (size : ℝ) / (2 * L : ℕ) := Nat.cast_div_le
    exact_mod_cast h1.trans this
  have hpow : Filter.Tendsto (fun n : ℕ => ((2 : ENNReal)⁻¹) ^ n) Filter.atTop (nhds 0) :=
    ENNReal.tendsto_pow_atTop_nhds_zero_of_lt_one (by simp)
  have hNt : Filter.Tendsto (fun size : ℕ => 14 * Spec.numChunks size k.kernel.chunk - 2) Filter.atTop Filter.atTop := by
    refine Filter.tendsto_atTop.mpr fun b => ?_
    filter_upwards [Filter.eventually_ge_atTop ((b + 2) * (2 * L))] with size hs
    have h1 : b + 2 ≤ size / (2 * L) := (Nat.le_div_iff_mul_le (by omega)).mpr hs
    have h2 := hN size
    omega
  have t1 : Filter.Tendsto (fun size : ℕ => ENNReal.ofReal (Real.exp (-((size : ℝ) / 6)))) Filter.atTop (nhds 0) := by
    rw [← ENNReal.ofReal_zero]
    refine ENNReal.tendsto_ofReal (Real.tendsto_exp_atBot.comp (Filter.tendsto_neg_atTop_atBot.comp ?_))
    exact tendsto_natCast_atTop_atTop.atTop_div_const (by norm_num)
  have t2 : Filter.Tendsto (fun size : ℕ => (L : ENNReal) / 2 ^ (14 * Spec.numChunks size k.kernel.chunk - 2)) Filter.atTop (nhds 0) := by
    have := ENNReal.Tendsto.const_mul (a := (L : ENNReal)) (hpow.comp hNt) (Or.inr (ENNReal.natCast_ne_top L))
    rw [mul_zero] at this
    refine this.congr fun size => ?_
    simp only [Function.comp_apply, div_eq_mul_inv, ENNReal.inv_pow]
  have t3 : Filter.Tendsto (fun size : ℕ => ENNReal.ofReal (2 * Real.exp (-2 * size * ε ^ 2))) Filter.atTop (nhds 0) := by
    rw [← ENNReal.ofReal_zero]
    refine ENNReal.tendsto_ofReal ?_
    rw [← mul_zero (2 : ℝ)]
    refine Filter.Tendsto.const_mul _ (Real.tendsto_exp_atBot.comp ?_)
    have := (tendsto_natCast_atTop_atTop (R := ℝ)).atTop_mul_const (show (0 : ℝ) < 2 * ε ^ 2 by positivity)
    refine (Filter.tendsto_neg_atTop_atBot.comp this).congr fun size => ?_
    simp only [Function.comp_apply]
    ring
  have t := (t1.add t2).add t3
  simp only [add_zero] at t
  refine tendsto_of_tendsto_of_tendsto_of_le_of_le' tendsto_const_nhds t (Filter.Eventually.of_forall fun _ => zero_le) ?_
  filter_upwards [Filter.eventually_gt_atTop k.kernel.chunk] with size hs
  refine (C163_total h hd hM reflect rows hb hin μ rnd hrnd size squeeze A hA hε).trans ?_
  gcongr
  exact C162_one_boundary_many h hd hM reflect rows hb hi hin μ rnd hrnd size L squeeze hL0 hL hs

/-- **C163**, for the kernels whose samples follow the density: the shares are those of the probability density `F` returned by `pdf` of the KDE
constructed in the same way without boundaries. -/
theorem C163_density {E : Ext} {a : KDEArgs d} {k k' : KDE d} (h : KDE.init E a = .ok k)
    (h' : KDE.init E { a with reflect := .none } = .ok k') (srt : List ℝ → List ℕ) (hd : 0 < d)
    (hM : (Spec.kernelMatrix k.covariance k.bandwidth).PosDef) (hD : Spec.ExactSampler k.kernel.dist d) (hc : k.kernel.chunk ≠ 0) :
    ∃ F : (Fin d → ℝ) → ℝ,
      (∀ pts : List (Fin d → ℝ), (k'.pdf E srt (some (.rows (Spec.rowsOf pts))) .none .none false).1
        = .ok (.rows (Spec.rowsOf pts), ⟨[pts.length], pts.map F⟩)) ∧
      ∀ (reflect : Reflect) (rows : List ReflRow), Spec.boundaries k reflect = .ok (some rows) →
      (∀ x ∈ a.dataset, ∀ i : Fin d, Spec.StrictlyInside (rows.getD i none) (x i)) →
      ∀ {Ω : Type} [MeasurableSpace Ω] (μ : Measure Ω) (rnd : Ω → ℕ → ℕ → Draw d), Spec.RandomNumbers μ rnd →
      ∀ (size : ℕ) (squeeze : Bool) (A : Set (Fin d → ℝ)), MeasurableSet A → ∀ ε > 0,
        μ {ω | ∃ s, k.resample (some size) .none reflect squeeze (rnd ω) = .ok s ∧
            ε ≤ |Spec.fractionIn s A - ((∫⁻ x in A ∩ Spec.insideSet d rows, ENNReal.ofReal (F x))
              / ∫⁻ x in Spec.insideSet d rows, ENNReal.ofReal (F x)).toReal|}
          ≤ Spec.successProb k μ rnd size reflect squeeze * ENNReal.ofReal (2 * Real.exp (-2 * size * ε ^ 2)) := by
  obtain ⟨F, hF, hlaw⟩ := C111_density h h' srt hd hM hD
  refine ⟨F, hF, fun reflect rows hb hin {Ω} _ μ rnd hrnd size squeeze A hA ε hε => ?_⟩
  have hprob : IsProbabilityMeasure μ := (hrnd.law 0 0).isProbabilityMeasure
  have h1 := hlaw reflect rows hb hin μ rnd hrnd 1 squeeze (fun _ => A) fun _ => hA
  obtain ⟨hpos, _, h2⟩ := C111_law h hd hM hc reflect rows hb hin μ rnd hrnd 1 squeeze
  rw [h2 (fun _ => A) fun _ => hA] at h1
  have hfin : Spec.successProb k μ rnd 1 reflect squeeze ≠ ⊤ := measure_ne_top _ _
  have h3 := (ENNReal.mul_right_inj hpos.ne' hfin).mp h1
  simp only [Finset.univ_unique, Finset.prod_singleton] at h3
  have := C163_frequencies h hd hM reflect rows hb hin μ rnd hrnd size squeeze A hA hε
  rw [Spec.insideShare, h3] at this
  exact this

/-! ### Concrete cases -/

/-- The probabilities of one sample, for the kernels whose samples follow the density. -/
lemma oneSample_density {E : Ext} {a : KDEArgs d} {k : KDE d} (h : KDE.init E a = .ok k) (hd : 0 < d)
    (hM : (Spec.kernelMatrix k.covariance k.bandwidth).PosDef) (hD : Spec.ExactSampler k.kernel.dist d)
    {Ω : Type} [MeasurableSpace Ω] (μ : Measure Ω) (rnd : Ω → ℕ → ℕ → Draw d) (hrnd : Spec.RandomNumbers μ rnd)
    (B : Set (Fin d → ℝ)) (hB : MeasurableSet B) :
    Spec.oneSample k μ rnd B = ∫⁻ x in B, ENNReal.ofReal (Spec.kernelSum k.kernel.dist (Spec.kernelMatrix k.covariance k.bandwidth)
            (Spec.weighted a.dataset k.weights) x
          / (Real.sqrt (Spec.kernelMatrix k.covariance k.bandwidth).det * k.kernel.dist.norm d)
          / ((Spec.weighted a.dataset k.weights).map Prod.snd).sum) := by
  have hdat : k.dataset = a.dataset := by
    obtain ⟨_, _, _, _, _, _, _, _, _, _, _, _, _, _, _, _, _, _, he⟩ := init_inv h; rw [he]
  have hne : a.dataset ≠ [] := by
    obtain ⟨_, _, _, _, _, _, _, _, _, hne, _⟩ := init_inv h; exact hne
  have hw : OkW a.dataset.length k.weights := by
    intro l hl
    rw [← hdat]
    exact stored_weights h hl
  have hsf : SFinite (volume.withDensity (noiseDensity k.kernel.dist d)) := inferInstance
  obtain ⟨L, hL, hlaw⟩ := reflect_law h hd hM
  have hnl : (noiseLaw k.kernel.dist d).prod Spec.unitLaw
      = (volume.withDensity (noiseDensity k.kernel.dist d)).prod Spec.unitLaw := by
    rw [← (joint_law_all k.kernel.dist).map_eq, ← (joint_law hD).map_eq]
    congr 1
    funext t
    congr 1
    rcases hD with h1 | ⟨h1, h2 | h2⟩
    · rw [h1]; rfl
    · rw [h2]; simp only [noiseFn, if_pos h1]; rfl
    · rw [h2]; rfl
  rw [Spec.oneSample, (hlaw μ rnd hrnd).1 true B hB, sampleLaw, hnl, (sample_law k.kernel.dist hd hne hw hM hL).map_eq,
    withDensity_apply _ hB]

/-- Concrete case of `C162_large_fails`: one datum between two boundaries that are a twentieth as far apart as the box kernel is wide. A million samples
are never obtained. -/
example : ∃ (E : Ext) (a : KDEArgs 1) (k : KDE 1), KDE.init E a = .ok k ∧
    ∀ {Ω : Type} [MeasurableSpace Ω] (μ : Measure Ω) (rnd : Ω → ℕ → ℕ → Draw 1), Spec.RandomNumbers μ rnd →
      Spec.successProb k μ rnd 1000000 .none true ≤ ENNReal.ofReal (Real.exp (-50000)) := by
  obtain ⟨k, hk, hw, hD, hM, hr, hc, _⟩ := unit_init_reflect (d := 1) ⟨fun A => A, id⟩ [![1 / 20]] (by simp) .box rfl
    [some (some 0, some (1 / 10))] rfl (by rintro lo hi h; simp at h; rw [h.1, h.2]; norm_num) ⟨_, List.mem_singleton.mpr rfl⟩
  refine ⟨_, _, k, hk, fun μ rnd hrnd => ?_⟩
  have hP : (Spec.oneSample k μ rnd (Spec.insideSet 1 [some (some 0, some (1 / 10))])).toReal ≤ 1 / 20 := by
    rw [oneSample_density hk one_pos (by rw [hM]; exact PosDef.one) (by rw [hD]; exact Or.inr ⟨rfl, Or.inl rfl⟩) μ rnd hrnd _
      (measurable_insideSet _), hM, hD, hw]
    refine ENNReal.toReal_le_of_le_ofReal (by norm_num) ?_
    have hn : Dist.box.norm 1 = 2 := nballVol_one
    have hle : ∀ x : Fin 1 → ℝ, ENNReal.ofReal (Spec.kernelSum .box 1 (Spec.weighted [![1 / 20]] none) x
        / (Real.sqrt (1 : Matrix (Fin 1) (Fin 1) ℝ).det * Dist.box.norm 1) / ((Spec.weighted [![(1 / 20 : ℝ)]] none).map Prod.snd).sum)
        ≤ ENNReal.ofReal (1 / 2) := by
      intro x
      refine ENNReal.ofReal_le_ofReal ?_
      rw [hn]
      simp only [Spec.kernelSum, Spec.weighted, Spec.shape, List.map_cons, List.map_nil, List.sum_cons, List.sum_nil, det_one, Real.sqrt_one]
      split_ifs <;> norm_num
    have hv : volume (Spec.insideSet 1 [some (some 0, some (1 / 10))]) ≤ ENNReal.ofReal (1 / 10) := by
      have : Spec.insideSet 1 [some (some 0, some (1 / 10))] ⊆ Set.univ.pi fun _ : Fin 1 => Set.Ioo (0 : ℝ) (1 / 10) := by
        intro x hx i _
        obtain rfl := Subsingleton.elim i 0
        obtain ⟨h1, h2⟩ := hx 0 _ _ rfl
        exact ⟨h1 _ rfl, h2 _ rfl⟩
      refine (measure_mono this).trans ?_
      rw [volume_pi_pi]
      simp
    calc _ ≤ ∫⁻ _ in Spec.insideSet 1 [some (some 0, some (1 / 10))], ENNReal.ofReal (1 / 2) := lintegral_mono hle
      _ = ENNReal.ofReal (1 / 2) * volume (Spec.insideSet 1 [some (some 0, some (1 / 10))]) := by rw [setLIntegral_const]
      _ ≤ ENNReal.ofReal (1 / 2) * ENNReal.ofReal (1 / 10) := by gcongr
      _ = _ := by rw [← ENNReal.ofReal_mul (by norm_num)]; norm_num
  have key := C162_large_fails hk one_pos (by rw [hM]; exact PosDef.one) (by rw [hc]; norm_num) .none [some (some 0, some (1 / 10))]
    (by simp [Spec.boundaries, hr]) ?_ μ rnd hrnd 10 (by norm_num) true (hP.trans (by norm_num))
  · rw [hc] at key
    refine key.trans (ENNReal.ofReal_le_ofReal (Real.exp_le_exp.mpr ?_))
    push_cast
    nlinarith
  · intro x hx i
    obtain rfl := Subsingleton.elim i 0
    intro lo hi e
    simp only [List.getD_cons_zero, Fin.val_zero, Option.some.injEq, Prod.mk.injEq] at e
    obtain ⟨rfl, rfl⟩ := e
    simp only [List.mem_cons, List.not_mem_nil, or_false] at hx
    subst hx
    exact ⟨by rintro l ⟨⟩; norm_num, by rintro l ⟨⟩; norm_num⟩

/-- Concrete case of `C163_frequencies` and `C163_consistent`: two data, box kernel, lower boundary 0. -/
example : ∃ (E : Ext) (a : KDEArgs 1) (k : KDE 1), KDE.init E a = .ok k ∧
    ∀ {Ω : Type} [MeasurableSpace Ω] (μ : Measure Ω) (rnd : Ω → ℕ → ℕ → Draw 1), Spec.RandomNumbers μ rnd →
      Filter.Tendsto (fun size : ℕ => μ {ω | ¬ ∃ s, k.resample (some size) .none .none true (rnd ω) = .ok s ∧
        |Spec.fractionIn s {x | x 0 ≤ 1} - Spec.insideShare k μ rnd [some (some 0, none)] {x | x 0 ≤ 1}| < 1 / 100})
        Filter.atTop (nhds 0) := by
  obtain ⟨k, hk, _, hD, hM, hr, hc, _⟩ := unit_init_reflect (d := 1) ⟨fun A => A, id⟩ [![1 / 2], ![3]] (by simp) .box rfl
    [some (some 0, none)] rfl (by simp) ⟨_, List.mem_singleton.mpr rfl⟩
  refine ⟨_, _, k, hk, fun μ rnd hrnd => ?_⟩
  refine C163_consistent (i := 0) hk one_pos (by rw [hM]; exact PosDef.one) .none [some (some 0, none)]
    (by simp [Spec.boundaries, hr]) ⟨fun j hj => absurd (Subsingleton.elim j 0) hj, Or.inl ⟨0, rfl⟩⟩ ?_ μ rnd hrnd true _
    (measurable_pi_apply (0 : Fin 1) measurableSet_Iic) (by norm_num) 50000 (by norm_num) hc
  intro x hx i
  obtain rfl := Subsingleton.elim i 0
  intro lo hi e
  simp only [List.getD_cons_zero, Fin.val_zero, Option.some.injEq, Prod.mk.injEq] at e
  obtain ⟨rfl, rfl⟩ := e
  simp only [List.mem_cons, List.not_mem_nil, or_false] at hx
  rcases hx with rfl | rfl
  · exact ⟨by rintro l ⟨⟩; norm_num, by rintro l ⟨⟩⟩
  · exact ⟨by rintro l ⟨⟩; norm_num, by rintro l ⟨⟩⟩

end Kalepy
