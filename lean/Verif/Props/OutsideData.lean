import Verif.Props.KeepLaw
import Verif.Props.ReflectLaw
import Mathlib.Data.List.Perm.Basic

/-!
# C172: resampling with boundaries when data lie outside of them
-/

namespace Kalepy

open MeasureTheory ProbabilityTheory Matrix

variable {d : ℕ}

/-! ## Specification -/

/-- The boundaries in one dimension. -/
def Spec.walls : ReflRow → List ℝ
  | none => []
  | some (lo, hi) => lo.toList ++ hi.toList

/-- A point and its mirror images at the single boundaries. -/
def Spec.images (rows : List ReflRow) (x : Fin d → ℝ) : List (Fin d → ℝ) :=
  x :: (List.finRange d).flatMap fun i : Fin d => (Spec.walls (rows.getD i none)).map fun b => Function.update x i (2 * b - x i)

open Classical in
/-- The centres of kernels: data and mirror images of data that lie strictly inside of the boundaries, with the weight of the
datum. -/
noncomputable def Spec.centres (rows : List ReflRow) (pts : List ((Fin d → ℝ) × ℝ)) : List ((Fin d → ℝ) × ℝ) :=
  (pts.flatMap fun p => (Spec.images rows p.1).map fun c => (c, p.2)).filter fun p => p.1 ∈ Spec.insideSet d rows

/-- Total weight. -/
def Spec.totalWeight (pts : List ((Fin d → ℝ) × ℝ)) : ℝ := (pts.map Prod.snd).sum

/-- The probability of `A` if one of the centres is chosen in proportion to the weights and noise of law `N` is added. -/
noncomputable def Spec.mixture (N : Measure (Fin d → ℝ)) (pts : List ((Fin d → ℝ) × ℝ)) (A : Set (Fin d → ℝ)) : ENNReal :=
  (pts.map fun p => ENNReal.ofReal (p.2 / Spec.totalWeight pts) * N {z | p.1 + z ∈ A}).sum

/-! ## The centres used by the code -/

/-- The maps that make the images. -/
def imageMaps (rows : List ReflRow) : List ((Fin d → ℝ) → Fin d → ℝ) :=
  id :: (List.finRange d).flatMap fun i : Fin d => (Spec.walls (rows.getD i none)).map fun b x => Function.update x i (2 * b - x i)

lemma images_eq (rows : List ReflRow) (x : Fin d → ℝ) : Spec.images rows x = (imageMaps rows).map fun f => f x := by
  simp [Spec.images, imageMaps, List.map_flatMap, Function.comp_def]

lemma mirrorDim_eq (data : List (Fin d → ℝ)) (i : Fin d) (r : ReflRow) : mirrorDim data i r
    = ((Spec.walls r).map fun b (x : Fin d → ℝ) => Function.update x i (2 * b - x i)).flatMap fun f => data.map f := by
  have h : ∀ (loc : ℝ) (x : Fin d → ℝ), Function.update x i (loc - (x i - loc)) = Function.update x i (2 * loc - x i) := by
    intro loc x
    congr 1
    ring
  rcases r with _ | ⟨_ | lo, _ | hi⟩ <;> simp [mirrorDim, Spec.walls, mirrorData, h]

lemma reflectData_eq (data : List (Fin d → ℝ)) (rows : List ReflRow) :
    reflectData data rows = (imageMaps rows).flatMap fun f => data.map f := by
  unfold reflectData imageMaps
  simp only [mirrorDim_eq, List.flatMap_cons, List.map_id]
  rw [List.flatMap_assoc]

lemma imageMaps_length (rows : List ReflRow) : (imageMaps (d := d) rows).length = numMirrors (d := d) rows + 1 := by
  unfold imageMaps numMirrors
  simp only [List.length_cons, List.length_flatMap, List.length_map]
  congr 2
  refine List.map_congr_left fun i _ => ?_
  rcases rows.getD i none with _ | ⟨_ | lo, _ | hi⟩ <;> simp [Spec.walls]

lemma zip_imageBlocks {α β : Type*} (F : List (α → α)) (data : List α) (w : List β) (h : data.length = w.length) :
    (F.flatMap fun f => data.map f).zip (List.replicate F.length w).flatten
      = F.flatMap fun f => (data.zip w).map fun p => (f p.1, p.2) := by
  induction F with
  | nil => simp
  | cons f F ih =>
    rw [List.flatMap_cons, List.length_cons, List.replicate_succ, List.flatten_cons, List.zip_append (by simp [h]), ih, List.flatMap_cons]
    congr 1
    rw [List.zip_map_left]
    rfl

lemma blocks_perm {α β γ : Type*} (F : List α) (l : List β) (g : α → β → γ) :
    (F.flatMap fun f => l.map (g f)).Perm (l.flatMap fun p => F.map fun f => g f p) := by
  induction F with
  | nil => simp
  | cons f F ih =>
    rw [List.flatMap_cons]
    have h1 := List.flatMap_append_perm l (fun p => [g f p]) (fun p => F.map fun f => g f p)
    simp only [List.singleton_append] at h1
    refine ((List.Perm.append_left _ ih).trans ?_).trans h1
    rw [show (l.flatMap fun p => [g f p]) = l.map (g f) from by rw [List.map_eq_flatMap]]

lemma zip_filter {α β : Type*} (p : α → Bool) (A : List α) (B : List β) (h : A.length = B.length) :
    (A.filter p).zip (((A.zip B).filter fun q => p q.1).map Prod.snd) = (A.zip B).filter fun q => p q.1 := by
  induction A generalizing B with
  | nil => simp
  | cons a A ih =>
    cases B with
    | nil => simp at h
    | cons b B =>
      simp only [List.length_cons, Nat.add_right_cancel_iff] at h
      simp only [List.zip_cons_cons, List.filter_cons]
      by_cases hp : p a <;> simp [hp, ih B h]

open Classical in
lemma filter_inside (rows : List ReflRow) (l : List ((Fin d → ℝ) × ℝ)) :
    (l.filter fun p => insideBounds rows p.1) = l.filter fun p => p.1 ∈ Spec.insideSet d rows := by
  refine List.filter_congr fun p _ => ?_
  rw [Bool.eq_iff_iff, insideBounds_iff, decide_eq_true_iff]
  rfl

lemma blocks_images (rows : List ReflRow) (pts : List ((Fin d → ℝ) × ℝ)) :
    (((imageMaps rows).flatMap fun f => pts.map fun p => (f p.1, p.2)).filter fun p => insideBounds rows p.1).Perm
      (Spec.centres rows pts) := by
  rw [filter_inside]
  unfold Spec.centres
  refine List.Perm.filter _ ?_
  have := blocks_perm (imageMaps rows) pts fun f p => (f p.1, p.2)
  simpa only [images_eq, List.map_map, Function.comp_def] using this

/-- The data drawn from, with their weights, are the centres up to order and a common factor of the weights. -/
lemma draw_perm (data : List (Fin d → ℝ)) (w : Option (List ℝ)) (rows : List ReflRow) (hw : OkW data.length w) :
    ∃ c, (Spec.weighted (drawData data rows) (drawWeights data w rows)).Perm
        ((Spec.centres rows (Spec.weighted data w)).map fun p => (p.1, p.2 / c)) ∧
      (∀ l, drawWeights data w rows = some l → l.length = (drawData data rows).length ∧
        (∃ c1 > 0, c = c1 * (Spec.totalWeight (Spec.centres rows (Spec.weighted data w)) / c1))) ∧ (w = none → c = 1) := by
  cases w with
  | none =>
    refine ⟨1, ?_, by rintro l ⟨⟩, fun _ => rfl⟩
    have h1 := blocks_images rows (Spec.weighted data none)
    simp only [div_one, Prod.mk.eta, List.map_id']
    refine List.Perm.trans (List.Perm.of_eq ?_) h1
    simp only [Spec.weighted, drawWeights, Option.map_none, drawData, truncateData, reflectData_eq]
    rw [show (fun f : (Fin d → ℝ) → Fin d → ℝ => (data.map fun a => (a, (1 : ℝ))).map fun p => (f p.1, p.2))
      = fun f => (data.map f).map fun a => (a, (1 : ℝ)) from by funext f; simp [Function.comp_def], ← List.map_flatMap, List.filter_map]
    rfl
  | some l =>
    obtain ⟨v1, v2, v3⟩ := hw l rfl
    obtain ⟨l', hl'⟩ : ∃ l', l' = l ++ (List.replicate (numMirrors (d := d) rows) l).flatten := ⟨_, rfl⟩
    have hl2 : l' = (List.replicate (imageMaps (d := d) rows).length l).flatten := by
      rw [hl', imageMaps_length, List.replicate_succ, List.flatten_cons]
    have hlen : (reflectData data rows).length = l'.length := by
      rw [hl2, reflectData_eq]
      simp [v1]
    have hsum : 0 < l'.sum := by
      rw [hl', List.sum_append]
      have : 0 ≤ (List.replicate (numMirrors (d := d) rows) l).flatten.sum := by
        refine List.sum_nonneg fun x hx => ?_
        obtain ⟨t, ht, hx⟩ := List.mem_flatten.mp hx
        rw [List.eq_of_mem_replicate ht] at hx
        exact v2 x hx
      linarith
    have hZ : ((reflectData data rows).zip l') = (imageMaps rows).flatMap fun f => (data.zip l).map fun p => (f p.1, p.2) := by
      rw [hl2, reflectData_eq, zip_imageBlocks _ _ _ v1.symm]
    have hP : (((reflectData data rows).zip l').filter fun p => insideBounds rows p.1).Perm
        (Spec.centres rows (Spec.weighted data (some l))) := by
      rw [hZ]
      exact blocks_images rows _
    have hzc : (((reflectData data rows).zip (l'.map (· / l'.sum))).filter fun p => insideBounds rows p.1)
        = (((reflectData data rows).zip l').filter fun p => insideBounds rows p.1).map fun p => (p.1, p.2 / l'.sum) := by
      rw [List.zip_map_right, List.filter_map]
      rfl
    have hc2 : ((((reflectData data rows).zip l').filter fun p => insideBounds rows p.1).map fun p => p.2 / l'.sum).sum
        = Spec.totalWeight (Spec.centres rows (Spec.weighted data (some l))) / l'.sum := by
      rw [Spec.totalWeight, ← (hP.map Prod.snd).sum_eq]
      generalize (((reflectData data rows).zip l').filter fun p => insideBounds rows p.1) = m
      induction m with
      | nil => simp
      | cons p m ih => simp only [List.map_cons, List.sum_cons, ih]; ring
    have hdw : drawWeights data (some l) rows = some ((((reflectData data rows).zip l').filter fun p => insideBounds rows p.1).map
        fun p => p.2 / (l'.sum * (Spec.totalWeight (Spec.centres rows (Spec.weighted data (some l))) / l'.sum))) := by
      simp only [drawWeights, Option.map_some, truncateWeights, reflectWeights, ← hl', hzc, List.map_map, Function.comp_def, hc2]
      congr 1
      refine List.map_congr_left fun p _ => ?_
      rw [div_div]
    refine ⟨l'.sum * (Spec.totalWeight (Spec.centres rows (Spec.weighted data (some l))) / l'.sum), ?_, ?_, by rintro ⟨⟩⟩
    · rw [hdw]
      refine List.Perm.trans (List.Perm.of_eq ?_) (hP.map _)
      simp only [Spec.weighted, drawData, truncateData]
      have := zip_filter (fun x => insideBounds rows x) (reflectData data rows) l' hlen
      conv_rhs => rw [← this]
      generalize l'.sum * (Spec.totalWeight (Spec.centres rows (data.zip l)) / l'.sum) = c
      rw [show (fun p : (Fin d → ℝ) × ℝ => p.2 / c) = (fun v => v / c) ∘ Prod.snd from rfl, ← List.map_map, List.zip_map_right]
      rfl
    · intro t ht
      rw [hdw, Option.some.injEq] at ht
      refine ⟨?_, l'.sum, hsum, rfl⟩
      rw [← ht, List.length_map, ← zip_filter (fun x => insideBounds rows x) (reflectData data rows) l' hlen, drawData, truncateData]
      have h5 := congrArg List.length (zip_filter (fun x => insideBounds rows x) (reflectData data rows) l' hlen)
      have h6 : ((reflectData data rows).filter fun x => insideBounds rows x)
          = (((reflectData data rows).zip l').filter fun q => insideBounds rows q.1).map Prod.fst := by
        conv_lhs => rw [← List.map_fst_zip (l₁ := reflectData data rows) (l₂ := l') hlen.le]
        rw [List.filter_map]
        rfl
      rw [h5, h6, List.length_map]

/-! ## Law of a candidate -/

lemma mixture_perm (N : Measure (Fin d → ℝ)) {p q : List ((Fin d → ℝ) × ℝ)} (h : p.Perm q) (A : Set (Fin d → ℝ)) :
    Spec.mixture N p A = Spec.mixture N q A := by
  have ht : Spec.totalWeight p = Spec.totalWeight q := (h.map _).sum_eq
  rw [Spec.mixture, Spec.mixture, ht]
  exact (h.map _).sum_eq

lemma mixture_scale (N : Measure (Fin d → ℝ)) (p : List ((Fin d → ℝ) × ℝ)) {c : ℝ} (hc : c ≠ 0) (A : Set (Fin d → ℝ)) :
    Spec.mixture N (p.map fun q => (q.1, q.2 / c)) A = Spec.mixture N p A := by
  have ht : Spec.totalWeight (p.map fun q => (q.1, q.2 / c)) = Spec.totalWeight p / c := by
    unfold Spec.totalWeight
    induction p with
    | nil => simp
    | cons a p ih => simp only [List.map_cons, List.sum_cons, ih]; ring
  rw [Spec.mixture, Spec.mixture, ht, List.map_map]
  congr 1
  refine List.map_congr_left fun q _ => ?_
  simp only [Function.comp_def]
  rw [div_div_div_cancel_right₀ hc]

lemma sampleLaw_mixture (D : Dist) {data : List (Fin d → ℝ)} (hne : data ≠ []) {w : Option (List ℝ)} (hw : OkW data.length w)
    (L : Matrix (Fin d) (Fin d) ℝ) {A : Set (Fin d → ℝ)} (hA : MeasurableSet A) :
    sampleLaw D data w L A = Spec.mixture ((noiseLaw D d).map fun z => L *ᵥ z) (Spec.weighted data w) A := by
  have hn : 0 < data.length := List.length_pos_iff.mpr hne
  have hLm : Measurable fun z : Fin d → ℝ => L *ᵥ z := (LinearMap.continuous_of_finiteDimensional (toLin' L)).measurable
  have hmS := measurable_sampleOf D data w L hA
  have h2 : ∀ u, noiseLaw D d ((fun z => (z, u)) ⁻¹' (sampleOf D data w L ⁻¹' A))
      = ((noiseLaw D d).map fun z => L *ᵥ z) {z | data.getD (choiceIndex data.length w u) 0 + z ∈ A} := by
    intro u
    have hB : MeasurableSet {z | data.getD (choiceIndex data.length w u) 0 + z ∈ A} := measurable_const_add _ hA
    rw [Measure.map_apply hLm hB]
    rfl
  rw [sampleLaw, Measure.map_apply (measurable_sampleOf _ _ _ _) hA, Measure.prod_apply_symm hmS, lintegral_congr h2,
    lintegral_choice hn hw fun j => ((noiseLaw D d).map fun z => L *ᵥ z) {z | data.getD j 0 + z ∈ A}, totW_eq data hw,
    Spec.mixture, Spec.totalWeight]
  generalize ((Spec.weighted data w).map Prod.snd).sum = W
  rw [weighted_range data hw, List.map_map]
  rfl

lemma clear_repr {D : Dist} {data : List (Fin d → ℝ)} (hne : data ≠ []) {w : Option (List ℝ)} (hw : OkW data.length w)
    {M U : Matrix (Fin d) (Fin d) ℝ} (hU : cholesky M = some U) (n : ℕ) {r : ℕ → Draw d}
    (hsam : ∀ i, D.sample (r i) = .ok (noiseFn D (noiseTuple (r i).tuple)))
    (hpick : ∀ i, 0 ≤ (r i).pick ∧ (r i).pick < 1) :
    resampleClear D data n w M .none r = .ok ((List.range n).map fun i => sampleOf D data w Uᵀ
      (noiseFn D (noiseTuple (r i).tuple), (r i).pick)) := by
  obtain ⟨s, hs⟩ : ∃ s, resampleClear D data n w M .none r = .ok s := by
    obtain ⟨noise, hnoise⟩ := listSeq_exists (f := fun i => D.sample (r i)) (l := List.range n) fun i _ => ⟨_, hsam i⟩
    obtain ⟨means, hmeans⟩ := listSeq_exists (f := fun i => choiceDatum data w (r i).pick)
      (l := List.range n) fun i _ => choiceDatum_ok hne hw (hpick i).1 (hpick i).2
    have hl : 0 < data.length := List.length_pos_iff.mpr hne
    have hch : choiceOk data.length n w = true := by
      unfold choiceOk
      cases w with
      | none => simp; left; exact hne
      | some l =>
        obtain ⟨v1, v2, v3⟩ := hw l rfl
        simp only [decide_eq_true_eq]
        exact ⟨Or.inl (by omega), v1, v3.ne', fun x hx => div_nonneg (v2 x hx) v3.le⟩
    unfold resampleClear
    simp only [hnoise, addCov, hU, keepDims, hch, if_true, hmeans]
    exact ⟨_, rfl⟩
  rw [hs]
  congr 1
  obtain ⟨hlen, V, ps, hV, hps, _, hall⟩ := resampleClear_inv hs
  rw [hU, Option.some.injEq] at hV
  subst hV
  simp only [keepDims, Except.ok.injEq] at hps
  subst hps
  refine List.ext_getElem (by simp [hlen]) fun i hi _ => ?_
  obtain ⟨u, m, hu, hm, e⟩ := hall i hi
  rw [hsam, Except.ok.injEq] at hu
  subst hu
  have hmem := choiceDatum_mem hm
  rw [e, List.getElem_map, List.getElem_range]
  have hz : zeroDims ([] : List (Fin d)) (Uᵀ *ᵥ noiseFn D (noiseTuple (r i).tuple)) = Uᵀ *ᵥ noiseFn D (noiseTuple (r i).tuple) := by
    funext i
    simp [zeroDims]
  rw [hz, sampleOf, List.getD_eq_getElem?_getD, hmem]
  rfl

/-! ## Law of the samples -/

/-- Candidates of law `P`: the samples are independent and follow `P` conditioned on the inside. -/
lemma reflect_law_of {k : Kernel d} {data : List (Fin d → ℝ)} {rows : List ReflRow} {w : Option (List ℝ)} (hc : k.chunk ≠ 0)
    (hne : drawData data rows ≠ []) {Φ : DrawTuple d → Fin d → ℝ} {P : Measure (Fin d → ℝ)} [IsProbabilityMeasure P]
    (hphi : MeasurePreserving Φ (Spec.drawLaw d) P)
    {Ω : Type} [MeasurableSpace Ω] (μ : Measure Ω) (rnd : Ω → ℕ → ℕ → Draw d) (hrnd : Spec.RandomNumbers μ rnd)
    (hae : ∀ᵐ ω ∂μ, ∀ b n, resampleClear k.dist (drawData data rows) n (drawWeights data w rows) k.matrix .none (rnd ω b)
      = .ok ((List.range n).map fun i => Φ (rnd ω b i).tuple)) (size : ℕ) (squeeze : Bool) :
    (∀ A : Fin size → Set (Fin d → ℝ), (∀ j, MeasurableSet (A j)) →
      μ {ω | Spec.SamplesIn ((resampleReflect k data size rows w .none (rnd ω)).map fun r => squeezeSamples squeeze r.1) A}
        = μ {ω | Spec.SamplesIn (n := size) ((resampleReflect k data size rows w .none (rnd ω)).map fun r =>
            squeezeSamples squeeze r.1) fun _ => Set.univ}
          * ∏ j, P (A j ∩ Spec.insideSet d rows) / P (Spec.insideSet d rows)) ∧
    (P (Spec.insideSet d rows) ≠ 0 →
      μ {ω | Spec.SamplesIn (n := size) ((resampleReflect k data size rows w .none (rnd ω)).map fun r =>
            squeezeSamples squeeze r.1) fun _ => Set.univ} ≠ 0) := by
  have hlaw : ∀ b n, HasLaw (fun ω => Φ (rnd ω b n).tuple) P μ := fun b n => hphi.hasLaw.comp (hrnd.law b n)
  have hprob : IsProbabilityMeasure μ := (hrnd.law 0 0).isProbabilityMeasure
  have hc' : k.chunk ≠ 0 ∨ size = 0 := Or.inl hc
  have hev : ∀ A : Fin size → Set (Fin d → ℝ), (∀ j, MeasurableSet (A j)) →
      μ {ω | Spec.SamplesIn ((resampleReflect k data size rows w .none (rnd ω)).map fun r => squeezeSamples squeeze r.1) A}
        = Measure.pi (fun _ : Fin (10 * (chunking size k.chunk).1) × Fin k.chunk => P)
          (pickedSet (Spec.insideSet d rows) (fun ε => (picks d size k.chunk ε).length = size) (pickPos hc') A) := by
    intro A hA
    have hms := measurableSet_picked (measurable_insideSet (d := d) rows)
      (Good := fun ε => (picks d size k.chunk ε).length = size) (pickPos_injective hc') hA
    have hpi : μ.map (fun ω (i : Fin (10 * (chunking size k.chunk).1) × Fin k.chunk) =>
        Φ (rnd ω i.1 i.2).tuple) = Measure.pi fun _ => P := by
      have h1 := hrnd.indep.precomp (g := fun i : Fin (10 * (chunking size k.chunk).1) × Fin k.chunk =>
        ((i.1 : ℕ), (i.2 : ℕ))) fun i j hij => Prod.ext (Fin.ext (Prod.ext_iff.mp hij).1) (Fin.ext (Prod.ext_iff.mp hij).2)
      have h2 := h1.comp (fun _ => Φ) fun _ => hphi.measurable
      have h3 := iIndepFun.map_fun_eq_pi_map (fun i => (hlaw _ _).aemeasurable) h2
      refine h3.trans ?_
      congr 1
      funext i
      exact (hlaw _ _).map_eq
    rw [← hpi, Measure.map_apply_of_aemeasurable (aemeasurable_pi_lambda _ fun i => (hlaw _ _).aemeasurable) hms]
    refine measure_congr ?_
    filter_upwards [hae] with ω hω
    apply propext
    show Spec.SamplesIn _ _ ↔ _ ∈ pickedSet _ _ _ _
    exact reflect_picked (Y := fun q => Φ (rnd ω q.1 q.2).tuple) hc' hne (fun b n => hω b n) squeeze A
  refine ⟨fun A hA => ?_, fun hS => ?_⟩
  · rw [hev A hA, hev _ fun _ => MeasurableSet.univ]
    exact pi_picked P (measurable_insideSet rows) (pickPos_injective hc') (pickPos_accepted hc') hA
  · rw [hev _ fun _ => MeasurableSet.univ]
    have hsub : (Set.univ.pi fun _ => Spec.insideSet d rows) ⊆
        pickedSet (Spec.insideSet d rows) (fun ε => (picks d size k.chunk ε).length = size) (pickPos hc')
          fun _ => Set.univ := by
      intro y hy
      simp only [pickedSet, Set.mem_iUnion, Set.mem_ofPred_eq]
      exact ⟨⟨fun _ => True, picks_all hc'⟩, fun i => ⟨fun _ => trivial, fun _ => hy i trivial⟩, fun _ => trivial⟩
    refine fun hz => ?_
    have := measure_mono_null hsub hz
    rw [Measure.pi_pi, Finset.prod_const] at this
    exact pow_ne_zero _ hS this

lemma weighted_nonneg {data : List (Fin d → ℝ)} {w : Option (List ℝ)} (hw : OkW data.length w) :
    ∀ p ∈ Spec.weighted data w, 0 ≤ p.2 := by
  intro p hp
  cases w with
  | none =>
    obtain ⟨x, _, rfl⟩ := List.mem_map.mp hp
    exact zero_le_one
  | some l => exact (hw l rfl).2.1 _ (List.of_mem_zip hp).2

lemma centres_nonneg {rows : List ReflRow} {pts : List ((Fin d → ℝ) × ℝ)} (h : ∀ p ∈ pts, 0 ≤ p.2) :
    ∀ p ∈ Spec.centres rows pts, 0 ≤ p.2 := by
  intro p hp
  simp only [Spec.centres, List.mem_filter, List.mem_flatMap, List.mem_map] at hp
  obtain ⟨⟨q, hq, c, _, rfl⟩, _⟩ := hp
  exact h q hq

lemma weighted_length {data : List (Fin d → ℝ)} {w : Option (List ℝ)} (hw : ∀ l, w = some l → l.length = data.length) :
    (Spec.weighted data w).length = data.length := by
  cases w with
  | none => simp [Spec.weighted]
  | some l => simp [Spec.weighted, hw l rfl]

/-- What is drawn from if the centres have weight. -/
lemma draw_ok {data : List (Fin d → ℝ)} {w : Option (List ℝ)} {rows : List ReflRow} (hw : OkW data.length w)
    (hW : 0 < Spec.totalWeight (Spec.centres rows (Spec.weighted data w))) :
    drawData data rows ≠ [] ∧ OkW (drawData data rows).length (drawWeights data w rows) ∧
      ∀ N A, Spec.mixture N (Spec.weighted (drawData data rows) (drawWeights data w rows)) A
        = Spec.mixture N (Spec.centres rows (Spec.weighted data w)) A := by
  obtain ⟨c, hperm, hlen, hnone⟩ := draw_perm data w rows hw
  have hc : 0 < c := by
    cases w with
    | none => rw [hnone rfl]; exact one_pos
    | some l =>
      obtain ⟨_, c1, h1, h2⟩ := hlen _ rfl
      rw [h2]
      positivity
  have hl := hperm.length_eq
  rw [weighted_length fun l hl => (hlen l hl).1, List.length_map] at hl
  refine ⟨?_, fun l hdl => ⟨(hlen l hdl).1, ?_, ?_⟩, fun N A => ?_⟩
  · intro h0
    rw [h0, List.length_nil, eq_comm, List.length_eq_zero_iff] at hl
    rw [hl] at hW
    simp [Spec.totalWeight] at hW
  · intro x hx
    have h1 := hperm.map Prod.snd
    rw [hdl, Spec.weighted, List.map_snd_zip (hlen l hdl).1.le, List.map_map] at h1
    obtain ⟨p, hp, rfl⟩ := List.mem_map.mp (h1.mem_iff.mp hx)
    exact div_nonneg (centres_nonneg (weighted_nonneg hw) p hp) hc.le
  · have h1 := (hperm.map Prod.snd).sum_eq
    rw [hdl, Spec.weighted, List.map_snd_zip (hlen l hdl).1.le, List.map_map] at h1
    rw [h1, show (Prod.snd ∘ fun p : (Fin d → ℝ) × ℝ => (p.1, p.2 / c)) = (fun v => v / c) ∘ Prod.snd from rfl, ← List.map_map,
      show (fun v : ℝ => v / c) = fun v => v * c⁻¹ from by funext v; rw [div_eq_mul_inv], List.sum_map_mul_right, List.map_id']
    exact mul_pos hW (inv_pos.mpr hc)
  · rw [mixture_perm N hperm, mixture_scale N _ hc.ne']

/-! ## C172 -/

/-- **C172.** Resampling with boundaries, wherever the data lie: replace the data set by the *centres*, i.e. those data and
mirror images of data at one boundary that lie strictly inside, each with the weight of its datum.  If they have a positive total
weight, `resample` returns with positive probability, and the samples it then returns are independent, each distributed
as a centre chosen in proportion to the weights plus noise, conditioned on lying inside.  The noise has the law `N` that it has
without boundaries, which for kernels that are sampled exactly is the normalised kernel. -/
theorem C172_law {E : Ext} {a : KDEArgs d} {k : KDE d} (h : KDE.init E a = .ok k) (hd : 0 < d)
    (hM : (Spec.kernelMatrix k.covariance k.bandwidth).PosDef) (hc : k.kernel.chunk ≠ 0) :
    ∃ N : Measure (Fin d → ℝ), IsProbabilityMeasure N ∧
      (Spec.ExactSampler k.kernel.dist d → ∀ A, MeasurableSet A → N A = ∫⁻ z in A, ENNReal.ofReal
        (Spec.shape k.kernel.dist (Spec.dist2 (Spec.kernelMatrix k.covariance k.bandwidth) z)
          / (Real.sqrt (Spec.kernelMatrix k.covariance k.bandwidth).det * k.kernel.dist.norm d))) ∧
      ∀ {Ω : Type} [MeasurableSpace Ω] (μ : Measure Ω) (rnd : Ω → ℕ → ℕ → Draw d), Spec.RandomNumbers μ rnd →
      (∀ A, MeasurableSet A → Spec.oneSample k μ rnd A = Spec.mixture N (Spec.weighted a.dataset k.weights) A) ∧
      ∀ (reflect : Reflect) (rows : List ReflRow), Spec.boundaries k reflect = .ok (some rows) →
        0 < Spec.totalWeight (Spec.centres rows (Spec.weighted a.dataset k.weights)) → ∀ (size : ℕ) (squeeze : Bool),
        0 < Spec.successProb k μ rnd size reflect squeeze ∧
        0 < Spec.mixture N (Spec.centres rows (Spec.weighted a.dataset k.weights)) (Spec.insideSet d rows) ∧
        ∀ A : Fin size → Set (Fin d → ℝ), (∀ j, MeasurableSet (A j)) →
          μ {ω | Spec.SamplesIn (k.resample (some size) .none reflect squeeze (rnd ω)) A}
            = Spec.successProb k μ rnd size reflect squeeze
              * ∏ j, Spec.mixture N (Spec.centres rows (Spec.weighted a.dataset k.weights)) (A j ∩ Spec.insideSet d rows)
                / Spec.mixture N (Spec.centres rows (Spec.weighted a.dataset k.weights)) (Spec.insideSet d rows) := by
  have hdat : k.dataset = a.dataset := by
    obtain ⟨_, _, _, _, _, _, _, _, _, _, _, _, _, _, _, _, _, _, he⟩ := init_inv h; rw [he]
  have hne : a.dataset ≠ [] := by
    obtain ⟨_, _, _, _, _, _, _, _, _, hne, _⟩ := init_inv h; exact hne
  have hw : OkW a.dataset.length k.weights := by
    intro l hl
    rw [← hdat]
    exact stored_weights h hl
  have hK := (C18_matrix h).1
  obtain ⟨U, hU⟩ := cholesky_of_posDef hM
  have hL : Uᵀ * Uᵀᵀ = Spec.kernelMatrix k.covariance k.bandwidth := by
    rw [transpose_transpose]
    exact cholesky_mul hM.isHermitian hU
  have hUm : Measurable fun z : Fin d → ℝ => Uᵀ *ᵥ z :=
    (LinearMap.continuous_of_finiteDimensional (toLin' Uᵀ)).measurable
  have hUk : cholesky k.kernel.matrix = some U := by rw [hK, hU]
  refine ⟨(noiseLaw k.kernel.dist d).map fun z => Uᵀ *ᵥ z, Measure.isProbabilityMeasure_map hUm.aemeasurable, ?_, ?_⟩
  · intro hD A hA
    have hnl : noiseLaw k.kernel.dist d = volume.withDensity (noiseDensity k.kernel.dist d) := by
      have h1 : (noiseLaw k.kernel.dist d).prod Spec.unitLaw
          = (volume.withDensity (noiseDensity k.kernel.dist d)).prod Spec.unitLaw := by
        rw [← (joint_law_all k.kernel.dist).map_eq, ← (joint_law hD).map_eq]
        congr 1
        funext t
        congr 1
        rcases hD with h1 | ⟨h1, h2 | h2⟩
        · rw [h1]; rfl
        · rw [h2]; simp only [noiseFn, if_pos h1]; rfl
        · rw [h2]; rfl
      have h2 := congrArg (Measure.map Prod.fst) h1
      rwa [Measure.map_fst_prod, Measure.map_fst_prod, measure_univ, one_smul, one_smul] at h2
    rw [Measure.map_apply hUm hA, hnl]
    have := noise_coloured k.kernel.dist hM hL 0 hA
    simp only [zero_add, sub_zero] at this
    exact this
  · intro Ω _ μ rnd hrnd
    have hprob : IsProbabilityMeasure μ := (hrnd.law 0 0).isProbabilityMeasure
    have hgood : ∀ b n, ∀ᵐ ω ∂μ, rad (rnd ω b n).gauss ≠ 0 ∧ (∀ i, 0 ≤ (rnd ω b n).unif i ∧ (rnd ω b n).unif i < 1) ∧
        0 ≤ (rnd ω b n).pick ∧ (rnd ω b n).pick < 1 := by
      intro b n
      have h3 := ae_good hd
      have h4 := hrnd.law b n
      rw [← h4.map_eq] at h3
      exact ae_of_ae_map h4.aemeasurable h3
    have hall := ae_all_iff.mpr fun b => ae_all_iff.mpr (hgood b)
    have hpres : ∀ (data : List (Fin d → ℝ)) (w : Option (List ℝ)), MeasurePreserving (fun t : DrawTuple d =>
        sampleOf k.kernel.dist data w Uᵀ (noiseFn k.kernel.dist (noiseTuple t), t.2.2.2.2)) (Spec.drawLaw d)
        (sampleLaw k.kernel.dist data w Uᵀ) := fun data w =>
      (MeasurePreserving.mk (measurable_sampleOf _ _ _ _) rfl).comp (joint_law_all k.kernel.dist)
    refine ⟨fun A hA => ?_, fun reflect rows hb hW size squeeze => ?_⟩
    · rw [← sampleLaw_mixture k.kernel.dist hne hw Uᵀ hA]
      have hlaw := (hpres a.dataset k.weights).hasLaw.comp (hrnd.law 0 0)
      rw [← hlaw.map_eq, Measure.map_apply_of_aemeasurable hlaw.aemeasurable hA, Spec.oneSample]
      refine measure_congr ?_
      filter_upwards [hall] with ω hω
      have hr := clear_repr hne hw hUk 1 (r := rnd ω 0) (fun i => sample_noiseFn k.kernel.dist (hω 0 i).2.1 (hω 0 i).1)
        fun i => (hω 0 i).2.2
      have hr2 : k.resample (some 1) .none .false true (rnd ω) = .ok (squeezeSamples true [sampleOf k.kernel.dist a.dataset k.weights Uᵀ
          (noiseFn k.kernel.dist (noiseTuple (rnd ω 0 0).tuple), (rnd ω 0 0).pick)]) := by
        rw [resample_eq h]
        simp only [Spec.boundaries, Except.bind, Option.getD_some, hdat, hr]
        rfl
      apply propext
      show Spec.SamplesIn _ _ ↔ sampleOf k.kernel.dist a.dataset k.weights Uᵀ
          (noiseFn k.kernel.dist (noiseTuple (rnd ω 0 0).tuple), (rnd ω 0 0).pick) ∈ A
      rw [hr2]
      constructor
      · rintro ⟨s, X, e, hX, hA⟩
        rw [← Except.ok.inj e, squeezeSamples_points] at hX
        simp only [List.ofFn_succ, List.ofFn_zero, List.cons.injEq, and_true] at hX
        rw [hX]; exact hA 0
      · intro hA
        exact ⟨_, fun _ => _, rfl, by rw [squeezeSamples_points]; simp, fun _ => hA⟩
    · obtain ⟨hne', hw', hmix⟩ := draw_ok hw hW
      have hPp : IsProbabilityMeasure (sampleLaw k.kernel.dist (drawData a.dataset rows) (drawWeights a.dataset k.weights rows) Uᵀ) :=
        Measure.isProbabilityMeasure_map (measurable_sampleOf _ _ _ _).aemeasurable
      have hP : ∀ A, MeasurableSet A → sampleLaw k.kernel.dist (drawData a.dataset rows) (drawWeights a.dataset k.weights rows) Uᵀ A
          = Spec.mixture ((noiseLaw k.kernel.dist d).map fun z => Uᵀ *ᵥ z) (Spec.centres rows (Spec.weighted a.dataset k.weights)) A := by
        intro A hA
        rw [sampleLaw_mixture k.kernel.dist hne' hw' Uᵀ hA, hmix]
      have hSm := measurable_insideSet (d := d) rows
      have hpos := sampleLaw_pos k.kernel.dist hne' hw' Uᵀ (isOpen_insideSet (d := d) rows) (by
        intro x hx
        simp only [drawData, truncateData, List.mem_filter] at hx
        exact (insideBounds_iff rows x).mp hx.2)
      obtain ⟨h3, h4⟩ := reflect_law_of (k := k.kernel) (data := a.dataset) (w := k.weights) hc hne'
        (hpres (drawData a.dataset rows) (drawWeights a.dataset k.weights rows)) μ rnd hrnd (by
          filter_upwards [hall] with ω hω b n
          exact clear_repr hne' hw' hUk n (fun i => sample_noiseFn k.kernel.dist (hω b i).2.1 (hω b i).1)
            fun i => (hω b i).2.2) size squeeze
      have hres : ∀ ω, k.resample (some size) .none reflect squeeze (rnd ω)
          = (resampleReflect k.kernel a.dataset size rows k.weights .none (rnd ω)).map fun r => squeezeSamples squeeze r.1 := by
        intro ω
        rw [resample_eq h, hb, hdat]
        simp only [Except.bind, Option.getD_some]
        cases resampleReflect k.kernel a.dataset size rows k.weights .none (rnd ω) <;> rfl
      have hsucc : ∀ ω, (∃ s, k.resample (some size) .none reflect squeeze (rnd ω) = .ok s) ↔
          Spec.SamplesIn (n := size) (k.resample (some size) .none reflect squeeze (rnd ω)) fun _ => Set.univ := by
        intro ω
        constructor
        · rintro ⟨s, hs⟩
          have hl := C26_size h _ _ _ _ _ _ hs
          simp only [Option.getD_some] at hl
          exact ⟨s, fun j => s.points[(j : ℕ)]'(by rw [hl]; exact j.2), hs,
            List.ext_getElem (by simp [hl]) fun n _ _ => by simp, fun _ => trivial⟩
        · rintro ⟨s, _, hs, _⟩
          exact ⟨s, hs⟩
      simp only [hres] at hsucc
      rw [Spec.successProb]
      simp only [hres, hsucc]
      refine ⟨pos_iff_ne_zero.mpr (h4 hpos), by rw [← hP _ hSm]; exact pos_iff_ne_zero.mpr hpos, fun A hA => ?_⟩
      rw [h3 A hA, hP _ hSm]
      congr 1
      exact Finset.prod_congr rfl fun j _ => by rw [hP _ ((hA j).inter hSm)]

/-- **C172**, nothing left to draw from: if no datum and no mirror image with positive weight lies strictly inside of the boundaries,
every call that asks for samples raises `ValueError`, whatever the random numbers are.
(Excluded outcome: a vector of normal deviates that vanishes.) -/
theorem C172_empty {E : Ext} {a : KDEArgs d} {k : KDE d} (h : KDE.init E a = .ok k)
    (hM : (Spec.kernelMatrix k.covariance k.bandwidth).PosDef) (hc : k.kernel.chunk ≠ 0) (reflect : Reflect)
    (rows : List ReflRow) (hb : Spec.boundaries k reflect = .ok (some rows))
    (hW : ∀ p ∈ Spec.centres rows (Spec.weighted a.dataset k.weights), p.2 = 0) (size : ℕ) (hs : 0 < size) (squeeze : Bool)
    (rnd : ℕ → ℕ → Draw d) (hrnd : ∀ m n, (rnd m n).Valid ∧ rad (rnd m n).gauss ≠ 0) :
    k.resample (some size) .none reflect squeeze rnd = .error .valueError := by
  have hdat : k.dataset = a.dataset := by
    obtain ⟨_, _, _, _, _, _, _, _, _, _, _, _, _, _, _, _, _, _, he⟩ := init_inv h; rw [he]
  have hw : OkW a.dataset.length k.weights := by
    intro l hl
    rw [← hdat]
    exact stored_weights h hl
  obtain ⟨U, hU⟩ := cholesky_of_posDef hM
  rw [← (C18_matrix h).1] at hU
  suffices hsuff : resampleReflect k.kernel a.dataset size rows k.weights .none rnd = .error .valueError by
    rw [resample_eq h, hb, hdat]
    simp only [Except.bind, Option.getD_some, hsuff]
    rfl
  simp only [resampleReflect, covKeepVars]
  by_cases h0 : drawData a.dataset rows = []
  · rw [if_pos h0]
  rw [if_neg h0, if_neg (by tauto)]
  obtain ⟨c, hperm, hlen, _⟩ := draw_perm a.dataset k.weights rows hw
  have hz : ∀ p ∈ Spec.weighted (drawData a.dataset rows) (drawWeights a.dataset k.weights rows), p.2 = 0 := by
    intro p hp
    obtain ⟨q, hq, rfl⟩ := List.mem_map.mp (hperm.mem_iff.mp hp)
    simp [hW q hq]
  have hch : ∀ n, choiceOk (drawData a.dataset rows).length n (drawWeights a.dataset k.weights rows) = false := by
    intro n
    cases hdw : drawWeights a.dataset k.weights rows with
    | none =>
      obtain ⟨x, hx⟩ := List.exists_mem_of_ne_nil _ h0
      have := hz (x, 1) (by rw [hdw]; exact List.mem_map.mpr ⟨x, hx, rfl⟩)
      norm_num at this
    | some l =>
      have hl := (hlen l hdw).1
      have hsum : l.sum = 0 := by
        refine List.sum_eq_zero fun x hx => ?_
        rw [← List.map_snd_zip (l₁ := drawData a.dataset rows) (l₂ := l) hl.le] at hx
        obtain ⟨p, hp, rfl⟩ := List.mem_map.mp hx
        exact hz p (by rw [hdw]; exact hp)
      simp [choiceOk, hsum]
  have hn : 0 < (chunking size k.kernel.chunk).1 := by
    unfold chunking
    split
    · exact Nat.div_pos (by omega) (by omega)
    · exact one_pos
  obtain ⟨f, hf⟩ : ∃ f, 10 * (chunking size k.kernel.chunk).1 = f + 1 := ⟨10 * (chunking size k.kernel.chunk).1 - 1, by omega⟩
  obtain ⟨noise, hnoise⟩ := listSeq_exists (f := fun n => k.kernel.dist.sample (rnd 0 n))
    (l := List.range (chunking size k.kernel.chunk).2) fun n _ => sample_ok _ (hrnd 0 n).1 (hrnd 0 n).2
  rw [hf, rejectLoop, if_neg (by simp; omega)]
  simp only [List.length_nil, resampleClear, hnoise, addCov, hU, keepDims, hch, Bool.false_eq_true, if_false]

/-! ## What the centres are -/

lemma mirror_wall {r : ReflRow} {b x : ℝ} (hb : b ∈ Spec.walls r) (hx : Spec.StrictlyInside r x) : ¬ Spec.StrictlyInside r (2 * b - x) := by
  rcases r with _ | ⟨lo, hi⟩
  · simp [Spec.walls] at hb
  intro h
  obtain ⟨h1, h2⟩ := hx lo hi rfl
  obtain ⟨h3, h4⟩ := h lo hi rfl
  simp only [Spec.walls, List.mem_append, Option.mem_toList] at hb
  rcases hb with hb | hb
  · have := h1 b hb
    have := h3 b hb
    linarith
  · have := h2 b hb
    have := h4 b hb
    linarith

/-- **C172**, data inside: they are the centres themselves (then `C172_law` says what `C111_law` says). -/
theorem C172_inside (rows : List ReflRow) (pts : List ((Fin d → ℝ) × ℝ)) (hin : ∀ p ∈ pts, p.1 ∈ Spec.insideSet d rows) :
    Spec.centres rows pts = pts := by
  classical
  unfold Spec.centres
  induction pts with
  | nil => simp
  | cons p pts ih =>
    have hp := hin p (by simp)
    rw [List.flatMap_cons, List.filter_append]
    have h1 := ih fun q hq => hin q (List.mem_cons_of_mem _ hq)
    have h2 : (((Spec.images rows p.1).map fun c => (c, p.2)).filter fun p => p.1 ∈ Spec.insideSet d rows) = [p] := by
      rw [Spec.images, List.map_cons, List.filter_cons, if_pos (by simpa using hp)]
      congr 1
      rw [List.filter_eq_nil_iff]
      intro q hq
      simp only [List.mem_map, List.mem_flatMap] at hq
      obtain ⟨c, ⟨i, _, b, hb, rfl⟩, rfl⟩ := hq
      simp only [decide_eq_true_eq]
      intro h
      have := h i
      simp only [Function.update_self] at this
      exact mirror_wall hb (hp i) this
    rw [h2]
    exact congrArg (p :: ·) h1

/-- **C172**, a datum outside in two dimensions (or on boundaries): neither it nor any of its images is a centre, it is dropped. -/
theorem C172_dropped (rows : List ReflRow) (x : Fin d → ℝ) (v : ℝ) (i j : Fin d) (hij : i ≠ j)
    (hi : ¬ Spec.StrictlyInside (rows.getD i none) (x i)) (hj : ¬ Spec.StrictlyInside (rows.getD j none) (x j)) :
    Spec.centres rows [(x, v)] = [] := by
  classical
  unfold Spec.centres
  rw [List.filter_eq_nil_iff]
  intro q hq
  simp only [List.flatMap_cons, List.flatMap_nil, List.append_nil, List.mem_map, Spec.images, List.mem_cons, List.mem_flatMap] at hq
  simp only [decide_eq_true_eq]
  intro h
  obtain ⟨c, rfl | ⟨l, _, b, _, rfl⟩, rfl⟩ := hq
  · exact hi (h i)
  · by_cases hl : l = i
    · subst hl
      have := h j
      simp only [Function.update_of_ne hij.symm] at this
      exact hj this
    · have := h i
      simp only [Function.update_of_ne (Ne.symm hl)] at this
      exact hi this

/-- **C172**, a datum outside in exactly one dimension: what is left of it are its images at the boundaries of this dimension
that lie inside (with one boundary: its mirror image). -/
theorem C172_mirrored (rows : List ReflRow) (x : Fin d → ℝ) (v : ℝ) (i : Fin d)
    (hi : ¬ Spec.StrictlyInside (rows.getD i none) (x i)) (hj : ∀ j ≠ i, Spec.StrictlyInside (rows.getD j none) (x j))
    (p : (Fin d → ℝ) × ℝ) :
    p ∈ Spec.centres rows [(x, v)] ↔ ∃ b ∈ Spec.walls (rows.getD i none), Spec.StrictlyInside (rows.getD i none) (2 * b - x i) ∧
      p = (Function.update x i (2 * b - x i), v) := by
  classical
  unfold Spec.centres
  simp only [List.flatMap_cons, List.flatMap_nil, List.append_nil, List.mem_filter, List.mem_map, Spec.images, List.mem_cons,
    List.mem_flatMap, decide_eq_true_eq]
  constructor
  · rintro ⟨⟨c, rfl | ⟨l, _, b, hb, rfl⟩, rfl⟩, h⟩
    · exact absurd (h i) hi
    · by_cases hl : l = i
      · subst hl
        have := h l
        simp only [Function.update_self] at this
        exact ⟨b, hb, this, rfl⟩
      · have := h i
        simp only [Function.update_of_ne (Ne.symm hl)] at this
        exact absurd this hi
  · rintro ⟨b, hb, hs, rfl⟩
    refine ⟨⟨_, Or.inr ⟨i, List.mem_finRange i, b, hb, rfl⟩, rfl⟩, fun j => ?_⟩
    by_cases hji : j = i
    · subst hji
      simpa using hs
    · simp only [Function.update_of_ne hji]
      exact hj j hji

/-- Concrete case of the hypotheses of `C172_law`: data on both sides of the lower boundary 0, box kernel.  The datum `-2` is replaced
by its mirror image `2`. -/
example : ∃ (E : Ext) (a : KDEArgs 1) (k : KDE 1), KDE.init E a = .ok k ∧ (Spec.kernelMatrix k.covariance k.bandwidth).PosDef ∧
    k.kernel.chunk ≠ 0 ∧ Spec.ExactSampler k.kernel.dist 1 ∧ Spec.boundaries k .none = .ok (some [some (some 0, none)]) ∧
    Spec.centres [some (some 0, none)] (Spec.weighted a.dataset k.weights) = [(![2], 1), (![3], 1)] ∧
    0 < Spec.totalWeight (Spec.centres [some (some 0, none)] (Spec.weighted a.dataset k.weights)) ∧
    ∃ (Ω : Type) (_ : MeasurableSpace Ω) (μ : Measure Ω) (rnd : Ω → ℕ → ℕ → Draw 1), Spec.RandomNumbers μ rnd := by
  obtain ⟨k, hk, hwn, hD, hM, hr, hc, _⟩ := unit_init_reflect (d := 1) ⟨fun A => A, id⟩ [![-2], ![3]] (by simp) .box rfl
    [some (some 0, none)] rfl (by simp) ⟨_, List.mem_singleton.mpr rfl⟩
  have hcen : Spec.centres [some (some 0, none)] (Spec.weighted [![-2], ![3]] k.weights) = [((![2] : Fin 1 → ℝ), (1 : ℝ)), (![3], 1)] := by
    have hin : ∀ x : Fin 1 → ℝ, x ∈ Spec.insideSet 1 [some (some 0, none)] ↔ 0 < x 0 := by
      intro x
      simp [Spec.insideSet, Spec.StrictlyInside]
    rw [hwn]
    simp [Spec.centres, Spec.weighted, Spec.images, Spec.walls, hin, List.finRange_succ]
    funext i
    simp [Subsingleton.elim i 0]
  refine ⟨_, _, k, hk, by rw [hM]; exact PosDef.one, by rw [hc]; norm_num, by rw [hD]; exact Or.inr ⟨rfl, Or.inl rfl⟩,
    by simp [Spec.boundaries, hr], hcen, ?_, _, _, _, _, exists_randomNumbers 1⟩
  rw [hcen]
  norm_num [Spec.totalWeight]

/-- Concrete case of the hypotheses of `C172_empty`: the interval from 0 to 1 and a datum at 5, whose mirror images -5 and -3 are outside too. -/
example : ∃ (E : Ext) (a : KDEArgs 1) (k : KDE 1), KDE.init E a = .ok k ∧ (Spec.kernelMatrix k.covariance k.bandwidth).PosDef ∧
    k.kernel.chunk ≠ 0 ∧ Spec.boundaries k .none = .ok (some [some (some 0, some 1)]) ∧
    Spec.centres [some (some 0, some 1)] (Spec.weighted a.dataset k.weights) = [] := by
  obtain ⟨k, hk, hwn, hD, hM, hr, hc, _⟩ := unit_init_reflect (d := 1) ⟨fun A => A, id⟩ [![5]] (by simp) .box rfl
    [some (some 0, some 1)] rfl (by simp) ⟨_, List.mem_singleton.mpr rfl⟩
  refine ⟨_, _, k, hk, by rw [hM]; exact PosDef.one, by rw [hc]; norm_num, by simp [Spec.boundaries, hr], ?_⟩
  have hin : ∀ x : Fin 1 → ℝ, x ∈ Spec.insideSet 1 [some (some 0, some 1)] ↔ 0 < x 0 ∧ x 0 < 1 := by
    intro x
    simp [Spec.insideSet, Spec.StrictlyInside]
  rw [hwn]
  simp [Spec.centres, Spec.weighted, Spec.images, Spec.walls, hin, List.finRange_succ]
  norm_num

/-- Concrete case of `C172_dropped`: the quadrant and a datum with two negative coordinates. -/
example : Spec.centres (d := 2) [some (some 0, none), some (some 0, none)] [(![-1, -1], 1)] = [] :=
  C172_dropped _ _ _ 0 1 (by simp) (by simp [Spec.StrictlyInside]) (by simp [Spec.StrictlyInside])

end Kalepy
