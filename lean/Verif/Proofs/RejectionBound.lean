import Mathlib.Probability.Moments.SubGaussian
import Verif.Props.ReflectLaw

/-!
# How often rejection sampling gives up

Every missing sample gets a group of `g` candidates in each round of the loop, so the expected number of missing samples falls by
the factor `(1 - p) ^ g` per round, if `p` is the probability that a candidate is accepted.
-/

namespace Kalepy

open MeasureTheory ProbabilityTheory

/-- Number of candidates of the next round and number of missing samples after `b` rounds. -/
noncomputable def remLoop (d size cs chunk : ℕ) (p : ℕ × ℕ → Prop) : ℕ → ℕ × ℕ
  | 0 => (cs, size)
  | b + 1 =>
    let s := remLoop d size cs chunk p b
    let r := s.2 - ((List.range s.1).filter fun i => @decide (p (b, i)) (Classical.propDecidable _)).length
    (min (2 ^ d * min r cs) chunk, r)

variable {d size cs chunk : ℕ} {p p' : ℕ × ℕ → Prop}

lemma remLoop_succ (b : ℕ) : remLoop d size cs chunk p (b + 1)
    = (min (2 ^ d * min ((remLoop d size cs chunk p b).2 - ((List.range (remLoop d size cs chunk p b).1).filter
          fun i => @decide (p (b, i)) (Classical.propDecidable _)).length) cs) chunk,
        (remLoop d size cs chunk p b).2 - ((List.range (remLoop d size cs chunk p b).1).filter
          fun i => @decide (p (b, i)) (Classical.propDecidable _)).length) := rfl

lemma remLoop_le (b : ℕ) : (remLoop d size cs chunk p b).2 ≤ size := by
  induction b with
  | zero => exact le_rfl
  | succ b ih => rw [remLoop_succ]; exact (Nat.sub_le _ _).trans ih

lemma remLoop_draw (hcs : cs ≤ chunk) (b : ℕ) : (remLoop d size cs chunk p b).1 ≤ chunk := by
  cases b with
  | zero => exact hcs
  | succ b => rw [remLoop_succ]; exact min_le_right _ _

lemma remLoop_zero {b : ℕ} (h : (remLoop d size cs chunk p b).2 = 0) (f : ℕ) : (remLoop d size cs chunk p (b + f)).2 = 0 := by
  induction f with
  | zero => exact h
  | succ f ih => rw [← add_assoc, remLoop_succ]; simp only [ih, Nat.zero_sub]

lemma remLoop_next (b : ℕ) : (remLoop d size cs chunk p (b + 1)).1
    = min (2 ^ d * min (remLoop d size cs chunk p (b + 1)).2 cs) chunk := by rw [remLoop_succ]

lemma pickLoop_rem : ∀ (fuel draw b : ℕ) (g : List (ℕ × ℕ)), g.length ≤ size →
    (size ≤ g.length ∨ draw = (remLoop d size cs chunk p b).1) → (remLoop d size cs chunk p b).2 = size - g.length →
      size - (pickLoop d p size cs chunk fuel draw b g).length = (remLoop d size cs chunk p (b + fuel)).2 := by
  intro fuel
  induction fuel with
  | zero => intro draw b g _ _ h; rw [pickLoop, add_zero, h]
  | succ f ih =>
    intro draw b g hg hdraw hrem
    rw [pickLoop]
    by_cases hc : size ≤ g.length
    · rw [if_pos hc, remLoop_zero (by rw [hrem]; omega)]
      omega
    · rw [if_neg hc]
      obtain ⟨e, rfl⟩ : ∃ h : ¬ size ≤ g.length, draw = (remLoop d size cs chunk p b).1 := ⟨hc, hdraw.resolve_left hc⟩
      have hl : (((List.range (remLoop d size cs chunk p b).1).map fun i => (b, i)).filter
            fun q => @decide (p q) (Classical.propDecidable _)).length
          = ((List.range (remLoop d size cs chunk p b).1).filter fun i => @decide (p (b, i)) (Classical.propDecidable _)).length := by
        rw [List.filter_map, List.length_map]
        rfl
      have hr : (remLoop d size cs chunk p (b + 1)).2 = size - (g ++ (((List.range (remLoop d size cs chunk p b).1).map
          fun i => (b, i)).filter fun q => @decide (p q) (Classical.propDecidable _)).take (size - g.length)).length := by
        rw [remLoop_succ, List.length_append, List.length_take, hl]
        simp only [hrem]
        omega
      have := ih (nextDraw d size (g ++ (((List.range (remLoop d size cs chunk p b).1).map
          fun i => (b, i)).filter fun q => @decide (p q) (Classical.propDecidable _)).take (size - g.length)).length cs chunk)
        (b + 1) (g ++ (((List.range (remLoop d size cs chunk p b).1).map
          fun i => (b, i)).filter fun q => @decide (p q) (Classical.propDecidable _)).take (size - g.length)) (by
            rw [List.length_append, List.length_take]; omega) (Or.inr (by rw [remLoop_next, nextDraw, hr])) hr
      rw [show b + 1 + f = b + (f + 1) by omega] at this
      exact this

/-- Only the earlier rounds count. -/
lemma remLoop_congr (hcs : cs ≤ chunk) {b : ℕ} (h : ∀ q : ℕ × ℕ, q.1 < b → q.2 < chunk → (p q ↔ p' q)) :
    remLoop d size cs chunk p b = remLoop d size cs chunk p' b := by
  induction b with
  | zero => rfl
  | succ b ih =>
    have h1 := ih fun q a c => h q (by omega) c
    rw [remLoop_succ, remLoop_succ, h1]
    have h2 : ((List.range (remLoop d size cs chunk p' b).1).filter fun i => @decide (p (b, i)) (Classical.propDecidable _))
        = (List.range (remLoop d size cs chunk p' b).1).filter fun i => @decide (p' (b, i)) (Classical.propDecidable _) := by
      refine List.filter_congr fun i hi => ?_
      have := List.mem_range.mp hi
      have h3 := h (b, i) (by simp) (lt_of_lt_of_le this (remLoop_draw hcs b))
      rw [Bool.eq_iff_iff]
      simpa using h3
    rw [h2]

open Classical in
/-- Each missing sample with an accepted candidate in its group is found. -/
lemma remLoop_step {b g : ℕ} (hg : g * (remLoop d size cs chunk p b).2 ≤ (remLoop d size cs chunk p b).1) (hg0 : 0 < g) :
    (remLoop d size cs chunk p (b + 1)).2
      ≤ ((Finset.range size).filter fun i => i < (remLoop d size cs chunk p b).2 ∧ ∀ c < g, ¬ p (b, g * i + c)).card := by
  rw [remLoop_succ]
  obtain ⟨n, hn⟩ : ∃ n, n = (remLoop d size cs chunk p b).1 := ⟨_, rfl⟩
  obtain ⟨r, hr⟩ : ∃ r, r = (remLoop d size cs chunk p b).2 := ⟨_, rfl⟩
  have hle : r ≤ size := hr ▸ remLoop_le b
  rw [← hn, ← hr] at hg
  rw [← hn, ← hr]
  have e1 : ((List.range n).filter fun i => @decide (p (b, i)) (Classical.propDecidable _)).length
      = ((Finset.range n).filter fun i => p (b, i)).card := by
    rw [Finset.card_def]
    simp only [Finset.filter_val, Finset.range_val, Multiset.range, Multiset.filter_coe, Multiset.coe_card]
  have e2 : ((Finset.range size).filter fun i => i < r ∧ ∀ c < g, ¬ p (b, g * i + c))
      = (Finset.range r).filter fun i => ∀ c < g, ¬ p (b, g * i + c) := by
    ext i
    simp only [Finset.mem_filter, Finset.mem_range]
    constructor
    · rintro ⟨_, h1, h2⟩; exact ⟨h1, h2⟩
    · rintro ⟨h1, h2⟩; exact ⟨by omega, h1, h2⟩
  have e3 := Finset.card_filter_add_card_filter_not (s := Finset.range r) (fun i => ∀ c < g, ¬ p (b, g * i + c))
  rw [Finset.card_range] at e3
  have e4 : ((Finset.range r).filter fun i => ¬ ∀ c < g, ¬ p (b, g * i + c)).card ≤ ((Finset.range n).filter fun i => p (b, i)).card := by
    refine le_trans (Finset.card_le_card ?_) (Finset.card_image_le (f := fun j => j / g))
    intro i hi
    simp only [Finset.mem_filter, Finset.mem_range, not_forall, not_not] at hi
    obtain ⟨h1, c, hc, hp⟩ := hi
    refine Finset.mem_image.mpr ⟨g * i + c, ?_, ?_⟩
    · simp only [Finset.mem_filter, Finset.mem_range]
      refine ⟨lt_of_lt_of_le ?_ hg, hp⟩
      have : g * (i + 1) ≤ g * r := Nat.mul_le_mul_left _ h1
      rw [Nat.mul_add] at this
      omega
    · rw [Nat.mul_add_div hg0, Nat.div_eq_of_lt hc, add_zero]
  rw [e2]
  show r - _ ≤ _
  rw [e1]
  omega

/-- One round lowers the expected number of missing samples by the factor `q ^ g`, also if just those cases are counted in which at most
`L` samples were missing in an earlier round `m`. -/
lemma expected_step_from {Ω : Type*} [MeasurableSpace Ω] {μ : Measure Ω} [IsProbabilityMeasure μ] {X : ℕ × ℕ → Ω → Prop}
    (hX : ∀ q, Measurable (X q)) (hind : iIndepFun X μ) {q : ENNReal} (hq : ∀ i, μ {ω | ¬ X i ω} = q) (hcs : cs ≤ chunk)
    {b g m L : ℕ} (hg0 : 0 < g) (hm : m ≤ b)
    (hg : ∀ ω, (remLoop d size cs chunk (X · ω) m).2 ≤ L → g * (remLoop d size cs chunk (X · ω) b).2 ≤ (remLoop d size cs chunk (X · ω) b).1) :
    (∑ i ∈ Finset.range size, μ {ω | i < (remLoop d size cs chunk (X · ω) (b + 1)).2 ∧ (remLoop d size cs chunk (X · ω) m).2 ≤ L})
      ≤ q ^ g * ∑ i ∈ Finset.range size,
          μ {ω | i < (remLoop d size cs chunk (X · ω) b).2 ∧ (remLoop d size cs chunk (X · ω) m).2 ≤ L} := by
  classical
  -- the past and the present round
  let past : Finset (ℕ × ℕ) := Finset.range b ×ˢ Finset.range chunk
  have hpast : ∀ b', b' ≤ b → ∃ R : (past → Prop) → ℕ × ℕ, ∀ ω, remLoop d size cs chunk (X · ω) b' = R fun i => X i ω := by
    intro b' hb'
    refine ⟨fun e => remLoop d size cs chunk (fun q => ∃ h : q ∈ past, e ⟨q, h⟩) b', fun ω => ?_⟩
    refine remLoop_congr hcs fun q h1 h2 => ?_
    constructor
    · intro h
      exact ⟨Finset.mem_product.mpr ⟨Finset.mem_range.mpr (by omega), Finset.mem_range.mpr h2⟩, h⟩
    · rintro ⟨_, h⟩; exact h
  have hmeas : ∀ b i, MeasurableSet {ω | i < (remLoop d size cs chunk (X · ω) b).2} := by
    intro b i
    let all : Finset (ℕ × ℕ) := Finset.range b ×ˢ Finset.range chunk
    have h1 : ∀ ω, remLoop d size cs chunk (X · ω) b
        = remLoop d size cs chunk (fun q => ∃ h : q ∈ all, (fun i : all => X i ω) ⟨q, h⟩) b := fun ω =>
      remLoop_congr hcs fun q h1 h2 => ⟨fun h =>
        ⟨Finset.mem_product.mpr ⟨Finset.mem_range.mpr (by omega), Finset.mem_range.mpr h2⟩, h⟩, fun h => h.2⟩
    have h2 : Measurable fun ω (i : all) => X i ω := measurable_pi_lambda _ fun i => hX i
    have h3 : MeasurableSet {e : all → Prop | i < (remLoop d size cs chunk (fun q => ∃ h : q ∈ all, e ⟨q, h⟩) b).2} :=
      MeasurableSet.of_discrete
    have := h2 h3
    convert this using 1
    ext ω
    simp only [Set.mem_ofPred_eq, Set.mem_preimage, h1]
  have hfew : MeasurableSet {ω | (remLoop d size cs chunk (X · ω) m).2 ≤ L} := by
    have := (hmeas m L).compl
    convert this using 1
    ext ω
    simp
  have hnone : ∀ i, MeasurableSet {ω | ∀ c < g, ¬ X (b, g * i + c) ω} := by
    intro i
    have : {ω | ∀ c < g, ¬ X (b, g * i + c) ω} = ⋂ c ∈ Finset.range g, {ω | X (b, g * i + c) ω}ᶜ := by
      ext ω; simp
    rw [this]
    exact Finset.measurableSet_biInter _ fun c _ => (measurableSet_setOfPred.mpr (hX _)).compl
  -- the events are independent
  have hindep : ∀ i, μ {ω | (i < (remLoop d size cs chunk (X · ω) b).2 ∧ (remLoop d size cs chunk (X · ω) m).2 ≤ L) ∧ ∀ c < g, ¬ X (b, g * i + c) ω}
      = q ^ g * μ {ω | i < (remLoop d size cs chunk (X · ω) b).2 ∧ (remLoop d size cs chunk (X · ω) m).2 ≤ L} := by
    intro i
    obtain ⟨R, hR⟩ := hpast b le_rfl
    obtain ⟨R', hR'⟩ := hpast m hm
    let now : Finset (ℕ × ℕ) := (Finset.range g).image fun c => (b, g * i + c)
    have hdis : Disjoint past now := by
      rw [Finset.disjoint_left]
      rintro ⟨x, y⟩ h1 h2
      obtain ⟨c, _, hc⟩ := Finset.mem_image.mp h2
      have := (Finset.mem_product.mp h1).1
      rw [Finset.mem_range] at this
      have := (Prod.ext_iff.mp hc).1
      simp only at *
      omega
    have h1 := hind.indepFun_finset past now hdis hX
    have h2 := h1.measure_inter_preimage_eq_mul {e | i < (R e).2 ∧ (R' e).2 ≤ L} {e | ∀ j, ¬ e j} MeasurableSet.of_discrete MeasurableSet.of_discrete
    have e1 : (fun ω (i : past) => X i ω) ⁻¹' {e | i < (R e).2 ∧ (R' e).2 ≤ L}
        = {ω | i < (remLoop d size cs chunk (X · ω) b).2 ∧ (remLoop d size cs chunk (X · ω) m).2 ≤ L} := by
      ext ω
      simp only [Set.mem_preimage, Set.mem_ofPred_eq, hR, hR']
    have e2 : (fun ω (i : now) => X i ω) ⁻¹' {e | ∀ j, ¬ e j} = {ω | ∀ c < g, ¬ X (b, g * i + c) ω} := by
      ext ω
      simp only [Set.mem_preimage, Set.mem_ofPred_eq, Subtype.forall]
      constructor
      · intro h c hc
        exact h _ (Finset.mem_image.mpr ⟨c, Finset.mem_range.mpr hc, rfl⟩)
      · intro h j hj
        obtain ⟨c, hc, rfl⟩ := Finset.mem_image.mp hj
        exact h c (Finset.mem_range.mp hc)
    rw [e1, e2] at h2
    have e3 : μ {ω | ∀ c < g, ¬ X (b, g * i + c) ω} = q ^ g := by
      have h3 := hind.precomp (g := fun c : ℕ => (b, g * i + c)) fun x y hxy => by
        have := (Prod.ext_iff.mp hxy).2
        simp only at this
        omega
      have h4 := h3.measure_inter_preimage_eq_mul (Finset.range g) (sets := fun _ => {x : Prop | ¬ x})
        fun _ _ => MeasurableSet.of_discrete
      have e4 : {ω | ∀ c < g, ¬ X (b, g * i + c) ω}
          = ⋂ c ∈ Finset.range g, (X (b, g * i + c)) ⁻¹' {x : Prop | ¬ x} := by
        ext ω; simp
      rw [e4, h4, Finset.prod_congr rfl fun c _ => show μ ((X (b, g * i + c)) ⁻¹' {x : Prop | ¬ x}) = q from hq _, Finset.prod_const,
        Finset.card_range]
    rw [e3] at h2
    exact h2.trans (mul_comm _ _)
  -- expectations
  have hI : ∀ Q : ℕ → Ω → Prop, (∀ i, MeasurableSet {ω | Q i ω}) → (∑ i ∈ Finset.range size, μ {ω | Q i ω})
      = ∫⁻ ω, (((Finset.range size).filter fun i => Q i ω).card : ENNReal) ∂μ := by
    intro Q hA
    have : ∀ ω, (((Finset.range size).filter fun i => Q i ω).card : ENNReal)
        = ∑ i ∈ Finset.range size, {ω | Q i ω}.indicator 1 ω := by
      intro ω
      rw [Finset.card_filter]
      push_cast
      refine Finset.sum_congr rfl fun i _ => ?_
      simp [Set.indicator_apply]
    simp only [this]
    rw [lintegral_finsetSum _ fun i _ => measurable_one.indicator (hA i)]
    exact Finset.sum_congr rfl fun i _ => (lintegral_indicator_one (hA i)).symm
  calc (∑ i ∈ Finset.range size, μ {ω | i < (remLoop d size cs chunk (X · ω) (b + 1)).2 ∧ (remLoop d size cs chunk (X · ω) m).2 ≤ L})
      = ∫⁻ ω, (((Finset.range size).filter fun i => i < (remLoop d size cs chunk (X · ω) (b + 1)).2
          ∧ (remLoop d size cs chunk (X · ω) m).2 ≤ L).card : ENNReal) ∂μ := by
        have := hI (fun i ω => i < (remLoop d size cs chunk (X · ω) (b + 1)).2 ∧ (remLoop d size cs chunk (X · ω) m).2 ≤ L)
          fun i => (hmeas (b + 1) i).inter hfew
        convert this
    _ ≤ ∫⁻ ω, (((Finset.range size).filter fun i => (i < (remLoop d size cs chunk (X · ω) b).2
          ∧ (remLoop d size cs chunk (X · ω) m).2 ≤ L) ∧ ∀ c < g, ¬ X (b, g * i + c) ω).card : ENNReal) ∂μ := by
        refine lintegral_mono fun ω => ?_
        by_cases hC : (remLoop d size cs chunk (X · ω) m).2 ≤ L
        · simp only [hC, and_true]
          refine Nat.cast_le.mpr (le_trans (le_of_eq ?_) (remLoop_step (p := (X · ω)) (hg ω hC) hg0))
          have : ((Finset.range size).filter fun i => i < (remLoop d size cs chunk (X · ω) (b + 1)).2)
              = Finset.range (remLoop d size cs chunk (X · ω) (b + 1)).2 := by
            ext i
            have := remLoop_le (d := d) (size := size) (cs := cs) (chunk := chunk) (p := (X · ω)) (b + 1)
            simp only [Finset.mem_filter, Finset.mem_range]
            omega
          rw [this, Finset.card_range]
        · simp [hC]
    _ = ∑ i ∈ Finset.range size, μ {ω | (i < (remLoop d size cs chunk (X · ω) b).2
          ∧ (remLoop d size cs chunk (X · ω) m).2 ≤ L) ∧ ∀ c < g, ¬ X (b, g * i + c) ω} := by
        have := (hI (fun i ω => (i < (remLoop d size cs chunk (X · ω) b).2 ∧ (remLoop d size cs chunk (X · ω) m).2 ≤ L)
            ∧ ∀ c < g, ¬ X (b, g * i + c) ω)
          fun i => ((hmeas b i).inter hfew).inter (hnone i)).symm
        convert this
    _ = _ := by
        rw [Finset.mul_sum]
        exact Finset.sum_congr rfl fun i _ => hindep i

/-- One round lowers the expected number of missing samples by the factor `q ^ g`. -/
lemma expected_step {Ω : Type*} [MeasurableSpace Ω] {μ : Measure Ω} [IsProbabilityMeasure μ] {X : ℕ × ℕ → Ω → Prop}
    (hX : ∀ q, Measurable (X q)) (hind : iIndepFun X μ) {q : ENNReal} (hq : ∀ i, μ {ω | ¬ X i ω} = q) (hcs : cs ≤ chunk)
    {b g : ℕ} (hg0 : 0 < g)
    (hg : ∀ ω, g * (remLoop d size cs chunk (X · ω) b).2 ≤ (remLoop d size cs chunk (X · ω) b).1) :
    (∑ i ∈ Finset.range size, μ {ω | i < (remLoop d size cs chunk (X · ω) (b + 1)).2})
      ≤ q ^ g * ∑ i ∈ Finset.range size, μ {ω | i < (remLoop d size cs chunk (X · ω) b).2} := by
  have := expected_step_from (d := d) (size := size) (m := 0) (L := size) hX hind hq hcs hg0 (Nat.zero_le b) fun ω _ => hg ω
  have e : ∀ ω, (remLoop d size cs chunk (X · ω) 0).2 ≤ size := fun ω => remLoop_le 0
  simpa only [e, and_true] using this

/-- The probability that samples are still missing after `1 + f` rounds. -/
lemma missing_bound {Ω : Type*} [MeasurableSpace Ω] {μ : Measure Ω} [IsProbabilityMeasure μ] {X : ℕ × ℕ → Ω → Prop}
    (hX : ∀ q, Measurable (X q)) (hind : iIndepFun X μ) {q : ENNReal} (hq : ∀ i, μ {ω | ¬ X i ω} = q)
    {g : ℕ} (hg0 : 0 < g) (hgd : g ≤ 2 ^ d) (hgs : g * size ≤ chunk) (f : ℕ) :
    μ {ω | (remLoop d size size chunk (X · ω) (1 + f)).2 ≠ 0} ≤ size * q ^ (1 + f * g) := by
  have hcs : size ≤ chunk := le_trans (Nat.le_mul_of_pos_left _ hg0) hgs
  have h0 : (∑ i ∈ Finset.range size, μ {ω | i < (remLoop d size size chunk (X · ω) 0).2}) ≤ size := by
    refine (Finset.sum_le_card_nsmul _ _ 1 fun i _ => prob_le_one).trans ?_
    simp
  have h1 := expected_step (d := d) (size := size) (b := 0) (g := 1) hX hind hq hcs one_pos fun ω => by simp [remLoop]
  have h2 : ∀ f, (∑ i ∈ Finset.range size, μ {ω | i < (remLoop d size size chunk (X · ω) (1 + f)).2}) ≤ size * q ^ (1 + f * g) := by
    intro f
    induction f with
    | zero =>
      refine h1.trans ?_
      rw [zero_mul, add_zero, mul_comm]
      gcongr
    | succ f ih =>
      have h3 := expected_step (d := d) (size := size) (b := 1 + f) (g := g) hX hind hq hcs hg0 fun ω => by
        rw [add_comm 1 f, remLoop_next]
        have hr := remLoop_le (d := d) (size := size) (cs := size) (chunk := chunk) (p := (X · ω)) (f + 1)
        rw [min_eq_left hr]
        exact le_min (Nat.mul_le_mul_right _ hgd) ((Nat.mul_le_mul_left _ hr).trans hgs)
      rw [← add_assoc]
      refine h3.trans ?_
      calc q ^ g * ∑ i ∈ Finset.range size, μ {ω | i < (remLoop d size size chunk (X · ω) (1 + f)).2}
          ≤ q ^ g * (size * q ^ (1 + f * g)) := by gcongr
        _ = size * q ^ (1 + (f + 1) * g) := by
            rw [show 1 + (f + 1) * g = g + (1 + f * g) by ring, pow_add]
            ring
  by_cases hs : size = 0
  · subst hs
    have : {ω | (remLoop d 0 0 chunk (X · ω) (1 + f)).2 ≠ 0} = ∅ := by
      ext ω
      have := remLoop_le (d := d) (size := 0) (cs := 0) (chunk := chunk) (p := (X · ω)) (1 + f)
      simp only [Set.mem_ofPred_eq, Set.mem_empty_iff_false, iff_false, not_not]
      omega
    rw [this]
    simp
  · refine le_trans ?_ (h2 f)
    have : {ω | (remLoop d size size chunk (X · ω) (1 + f)).2 ≠ 0} = {ω | 0 < (remLoop d size size chunk (X · ω) (1 + f)).2} := by
      ext ω; simp [Nat.pos_iff_ne_zero]
    rw [this]
    exact Finset.single_le_sum (f := fun i => μ {ω | i < (remLoop d size size chunk (X · ω) (1 + f)).2}) (fun _ _ => zero_le)
      (Finset.mem_range.mpr (Nat.pos_of_ne_zero hs))

/-! ### Many samples -/

open Classical in
/-- While more than `L` samples are missing, every round after the first one draws at least `g * L` candidates. -/
lemma remLoop_many {g L : ℕ} (hgd : g ≤ 2 ^ d) (hL : L ≤ cs) (hgL : g * L ≤ chunk) (m : ℕ)
    (h : L < (remLoop d size cs chunk p (m + 1)).2) :
    (remLoop d size cs chunk p (m + 1)).2 + ((Finset.range m ×ˢ Finset.range (g * L)).filter fun q => p (q.1 + 1, q.2)).card
      ≤ size := by
  induction m with
  | zero => simpa using remLoop_le 1
  | succ m ih =>
    obtain ⟨r, hr⟩ : ∃ r, r = (remLoop d size cs chunk p (m + 1)).2 := ⟨_, rfl⟩
    obtain ⟨n, hn⟩ : ∃ n, n = (remLoop d size cs chunk p (m + 1)).1 := ⟨_, rfl⟩
    rw [remLoop_succ (m + 1), ← hn, ← hr] at h ⊢
    simp only at h ⊢
    have e1 : ((List.range n).filter fun i => @decide (p (m + 1, i)) (Classical.propDecidable _)).length
        = ((Finset.range n).filter fun i => p (m + 1, i)).card := by
      rw [Finset.card_def]
      simp only [Finset.filter_val, Finset.range_val, Multiset.range, Multiset.filter_coe, Multiset.coe_card]
    rw [e1] at h ⊢
    have hrL : L < r := by omega
    have hnL : g * L ≤ n := by
      rw [hn, remLoop_next, ← hr]
      exact le_min (Nat.mul_le_mul hgd (le_min hrL.le hL)) hgL
    have h1 := ih (by rw [← hr]; exact hrL)
    rw [← hr] at h1
    have h2 : ((Finset.range (g * L)).filter fun i => p (m + 1, i)).card ≤ ((Finset.range n).filter fun i => p (m + 1, i)).card :=
      Finset.card_le_card (Finset.filter_subset_filter _ (Finset.range_mono hnL))
    have h3 : ((Finset.range (m + 1) ×ˢ Finset.range (g * L)).filter fun q => p (q.1 + 1, q.2)).card
        = ((Finset.range m ×ˢ Finset.range (g * L)).filter fun q => p (q.1 + 1, q.2)).card
          + ((Finset.range (g * L)).filter fun i => p (m + 1, i)).card := by
      simp only [Finset.card_filter, Finset.sum_product, Finset.sum_range_succ]
    omega

open Classical in
/-- Hoeffding's bound for independent events of the same probability. -/
lemma hoeffding_events {Ω ι : Type*} [MeasurableSpace Ω] {μ : Measure Ω} [IsProbabilityMeasure μ] {X : ι → Ω → Prop}
    (hX : ∀ q, Measurable (X q)) (hind : iIndepFun X μ) {q : ENNReal} (hq : ∀ i, μ {ω | ¬ X i ω} = q) (s : Finset ι)
    {ε : ℝ} (hε : 0 ≤ ε) :
    μ {ω | s.card * ε ≤ ∑ i ∈ s, ((if ¬ X i ω then 1 else 0) - q.toReal)} ≤ ENNReal.ofReal (Real.exp (-2 * s.card * ε ^ 2)) := by
  have hm : ∀ i, Measurable fun ω => if ¬ X i ω then (1 : ℝ) else 0 := fun i =>
    Measurable.ite (measurableSet_setOfPred.mpr (hX i)).compl measurable_const measurable_const
  have hint : ∀ i, ∫ ω, (if ¬ X i ω then (1 : ℝ) else 0) ∂μ = q.toReal := by
    intro i
    have h1 : (fun ω => if ¬ X i ω then (1 : ℝ) else 0) = {ω | ¬ X i ω}.indicator 1 := by
      funext ω; simp [Set.indicator_apply]
    rw [h1]
    have h2 := integral_indicator_one (μ := μ) (s := {ω | ¬ X i ω}) (measurableSet_setOfPred.mpr (hX i)).compl
    rw [Measure.real, hq] at h2
    exact h2
  have hsub : ∀ i ∈ s, HasSubgaussianMGF (fun ω => (if ¬ X i ω then (1 : ℝ) else 0) - q.toReal)
      ((‖(1:ℝ) - 0‖₊ / 2) ^ 2) μ := by
    intro i _
    have := hasSubgaussianMGF_of_mem_Icc (μ := μ) (a := 0) (b := 1) (hm i).aemeasurable
      (Filter.Eventually.of_forall fun ω => by split_ifs <;> simp)
    simp only [hint] at this
    exact this
  have hind' : iIndepFun (fun i ω => (if ¬ X i ω then (1 : ℝ) else 0) - q.toReal) μ :=
    hind.comp (fun _ x => (if ¬ x then (1 : ℝ) else 0) - q.toReal) fun _ => measurable_of_countable _
  have h1 := HasSubgaussianMGF.measure_sum_ge_le_of_iIndepFun (ε := s.card * ε) hind' hsub (by positivity)
  rw [← ofReal_measureReal]
  refine ENNReal.ofReal_le_ofReal (h1.trans (le_of_eq ?_))
  congr 1
  rcases Nat.eq_zero_or_pos s.card with h0 | hn
  · simp [h0]
  · have : (0:ℝ) < s.card := by exact_mod_cast hn
    simp only [sub_zero, nnnorm_one, Finset.sum_const, nsmul_eq_mul, NNReal.coe_mul,
      NNReal.coe_natCast, NNReal.coe_pow, NNReal.coe_div, NNReal.coe_one, NNReal.coe_ofNat]
    field_simp

/-- The probability that samples are still missing after `1 + m + f` rounds, in two phases: `m` rounds until at most `L` samples are
missing, and `f` rounds for the others. -/
lemma missing_bound_many {Ω : Type*} [MeasurableSpace Ω] {μ : Measure Ω} [IsProbabilityMeasure μ] {X : ℕ × ℕ → Ω → Prop}
    (hX : ∀ q, Measurable (X q)) (hind : iIndepFun X μ) {q : ENNReal} (hq : ∀ i, μ {ω | ¬ X i ω} = q) (hcs : cs ≤ chunk)
    {g L : ℕ} (hg0 : 0 < g) (hgd : g ≤ 2 ^ d) (hL : L ≤ cs) (hgL : g * L ≤ chunk) {m : ℕ} {ε : ℝ} (hε : 0 ≤ ε)
    (hm : size - L ≤ m * (g * L) * (1 - q.toReal - ε)) (f : ℕ) :
    μ {ω | (remLoop d size cs chunk (X · ω) (1 + m + f)).2 ≠ 0}
      ≤ ENNReal.ofReal (Real.exp (-2 * (m * (g * L)) * ε ^ 2)) + L * q ^ (f * g) := by
  classical
  -- the first phase
  have hA : μ {ω | L < (remLoop d size cs chunk (X · ω) (m + 1)).2} ≤ ENNReal.ofReal (Real.exp (-2 * (m * (g * L)) * ε ^ 2)) := by
    have hinj : Function.Injective fun q : ℕ × ℕ => (q.1 + 1, q.2) := fun a b h => by
      simp only [Prod.mk.injEq, add_left_inj] at h
      exact Prod.ext h.1 h.2
    have h1 := hoeffding_events (fun q : ℕ × ℕ => hX (q.1 + 1, q.2)) (hind.precomp hinj) (fun i => hq _)
      (Finset.range m ×ˢ Finset.range (g * L)) hε
    have hcard : ((Finset.range m ×ˢ Finset.range (g * L)).card : ℝ) = m * (g * L) := by
      rw [Finset.card_product, Finset.card_range, Finset.card_range]
      push_cast
      ring
    rw [hcard] at h1
    refine le_trans (measure_mono ?_) h1
    intro ω hω
    have h2 := remLoop_many (p := (X · ω)) hgd hL hgL m hω
    have h3 : L < (remLoop d size cs chunk (X · ω) (m + 1)).2 := hω
    have h4 : ((Finset.range m ×ˢ Finset.range (g * L)).filter fun q => X (q.1 + 1, q.2) ω).card + L ≤ size := by omega
    have h5 : (((Finset.range m ×ˢ Finset.range (g * L)).filter fun q => X (q.1 + 1, q.2) ω).card : ℝ) + L ≤ size := by
      exact_mod_cast h4
    show (m * (g * L) : ℝ) * ε ≤ _
    have h6 : ∑ i ∈ Finset.range m ×ˢ Finset.range (g * L), ((if ¬ X (i.1 + 1, i.2) ω then (1:ℝ) else 0) - q.toReal)
        = m * (g * L) * (1 - q.toReal) - ((Finset.range m ×ˢ Finset.range (g * L)).filter fun q => X (q.1 + 1, q.2) ω).card := by
      have h7 : ∀ i : ℕ × ℕ, ((if ¬ X (i.1 + 1, i.2) ω then (1:ℝ) else 0) - q.toReal)
          = (1 - q.toReal) - if X (i.1 + 1, i.2) ω then 1 else 0 := by
        intro i
        split_ifs <;> simp_all
      rw [Finset.sum_congr rfl fun i _ => h7 i, Finset.sum_sub_distrib, Finset.sum_const, nsmul_eq_mul, hcard, Finset.card_filter]
      push_cast
      rfl
    rw [h6]
    nlinarith
  -- the second phase
  have hB : ∀ f, (∑ i ∈ Finset.range size, μ {ω | i < (remLoop d size cs chunk (X · ω) (1 + m + f)).2
      ∧ (remLoop d size cs chunk (X · ω) (1 + m)).2 ≤ L}) ≤ L * q ^ (f * g) := by
    intro f
    induction f with
    | zero =>
      rw [zero_mul, pow_zero, mul_one, add_zero]
      have : ∀ i ∈ Finset.range size, μ {ω | i < (remLoop d size cs chunk (X · ω) (1 + m)).2
          ∧ (remLoop d size cs chunk (X · ω) (1 + m)).2 ≤ L} ≤ if i < L then 1 else 0 := by
        intro i _
        split_ifs with hi
        · exact prob_le_one
        · refine le_of_eq ?_
          rw [← measure_empty (μ := μ)]
          congr 1
          ext ω
          simp only [Set.mem_ofPred_eq, Set.mem_empty_iff_false, iff_false, not_and]
          omega
      refine (Finset.sum_le_sum this).trans ?_
      rw [← Finset.sum_filter, Finset.sum_const, nsmul_eq_mul, mul_one]
      refine Nat.cast_le.mpr (le_trans (Finset.card_le_card (t := Finset.range L) ?_) (by simp))
      intro i hi
      simp only [Finset.mem_filter, Finset.mem_range] at hi ⊢
      exact hi.2
    | succ f ih =>
      have h3 := expected_step_from (d := d) (size := size) (b := 1 + m + f) (g := g) (m := 1 + m) (L := L) hX hind hq hcs hg0
        (Nat.le_add_right _ _) fun ω hω => by
          have hmono : ∀ f, (remLoop d size cs chunk (X · ω) (1 + m + f)).2 ≤ L := by
            intro f
            induction f with
            | zero => exact hω
            | succ f ih => rw [← add_assoc, remLoop_succ]; exact (Nat.sub_le _ _).trans ih
          have hr := hmono f
          rw [show 1 + m + f = (m + f) + 1 by omega] at hr ⊢
          rw [remLoop_next, min_eq_left (hr.trans hL)]
          exact le_min (Nat.mul_le_mul_right _ hgd) ((Nat.mul_le_mul_left _ hr).trans hgL)
      rw [← add_assoc]
      refine h3.trans ?_
      calc _ ≤ q ^ g * (L * q ^ (f * g)) := by gcongr
        _ = L * q ^ ((f + 1) * g) := by
            rw [show (f + 1) * g = g + f * g by ring, pow_add]
            ring
  have hsplit : {ω | (remLoop d size cs chunk (X · ω) (1 + m + f)).2 ≠ 0} ⊆ {ω | L < (remLoop d size cs chunk (X · ω) (m + 1)).2} ∪
      {ω | 0 < (remLoop d size cs chunk (X · ω) (1 + m + f)).2 ∧ (remLoop d size cs chunk (X · ω) (1 + m)).2 ≤ L} := by
    intro ω hω
    by_cases hc : L < (remLoop d size cs chunk (X · ω) (m + 1)).2
    · exact Or.inl hc
    · refine Or.inr ⟨Nat.pos_of_ne_zero hω, ?_⟩
      rw [add_comm 1 m]
      exact not_lt.mp hc
  refine (measure_mono hsplit).trans ((measure_union_le _ _).trans (add_le_add hA ?_))
  by_cases hs : size = 0
  · have : {ω | 0 < (remLoop d size cs chunk (X · ω) (1 + m + f)).2 ∧ (remLoop d size cs chunk (X · ω) (1 + m)).2 ≤ L} = ∅ := by
      ext ω
      have := remLoop_le (d := d) (size := size) (cs := cs) (chunk := chunk) (p := (X · ω)) (1 + m + f)
      simp only [Set.mem_ofPred_eq, Set.mem_empty_iff_false, iff_false, not_and]
      omega
    rw [this]
    simp
  · exact le_trans (Finset.single_le_sum (f := fun i => μ {ω | i < (remLoop d size cs chunk (X · ω) (1 + m + f)).2
      ∧ (remLoop d size cs chunk (X · ω) (1 + m)).2 ≤ L}) (fun _ _ => zero_le) (Finset.mem_range.mpr (Nat.pos_of_ne_zero hs))) (hB f)

/-! ### Too few candidates -/

open Classical in
/-- All samples found are among the first `c` candidates of each round, if no round draws more. -/
lemma remLoop_found {c : ℕ} (hc : ∀ b, (remLoop d size cs chunk p b).1 ≤ c) (b : ℕ) :
    size ≤ (remLoop d size cs chunk p b).2 + ((Finset.range b ×ˢ Finset.range c).filter fun q => p q).card := by
  induction b with
  | zero => simp [remLoop]
  | succ b ih =>
    obtain ⟨r, hr⟩ : ∃ r, r = (remLoop d size cs chunk p b).2 := ⟨_, rfl⟩
    obtain ⟨n, hn⟩ : ∃ n, n = (remLoop d size cs chunk p b).1 := ⟨_, rfl⟩
    have hnc := hc b
    rw [remLoop_succ b, ← hn, ← hr]
    rw [← hr] at ih
    rw [← hn] at hnc
    simp only
    have e1 : ((List.range n).filter fun i => @decide (p (b, i)) (Classical.propDecidable _)).length
        = ((Finset.range n).filter fun i => p (b, i)).card := by
      rw [Finset.card_def]
      simp only [Finset.filter_val, Finset.range_val, Multiset.range, Multiset.filter_coe, Multiset.coe_card]
    have h2 : ((Finset.range n).filter fun i => p (b, i)).card ≤ ((Finset.range c).filter fun i => p (b, i)).card :=
      Finset.card_le_card (Finset.filter_subset_filter _ (Finset.range_mono hnc))
    have h3 : ((Finset.range (b + 1) ×ˢ Finset.range c).filter fun q => p q).card
        = ((Finset.range b ×ˢ Finset.range c).filter fun q => p q).card
          + ((Finset.range c).filter fun i => p (b, i)).card := by
      simp only [Finset.card_filter, Finset.sum_product, Finset.sum_range_succ]
    rw [e1]
    omega

/-- If the candidates are expected to contain too few samples, with a margin `ε`, all samples are found rarely. -/
lemma found_bound {Ω : Type*} [MeasurableSpace Ω] {μ : Measure Ω} [IsProbabilityMeasure μ] {X : ℕ × ℕ → Ω → Prop}
    (hX : ∀ q, Measurable (X q)) (hind : iIndepFun X μ) {q : ENNReal} (hq : ∀ i, μ {ω | ¬ X i ω} = q)
    {c B : ℕ} (hc : ∀ ω b, (remLoop d size cs chunk (X · ω) b).1 ≤ c) {ε : ℝ} (hε : 0 ≤ ε)
    (hs : B * c * (1 - q.toReal + ε) ≤ size) :
    μ {ω | (remLoop d size cs chunk (X · ω) B).2 = 0} ≤ ENNReal.ofReal (Real.exp (-2 * (B * c) * ε ^ 2)) := by
  classical
  have hq1 : q ≤ 1 := hq (0, 0) ▸ prob_le_one
  have hneg : ∀ i, μ {ω | ¬ ¬ X i ω} = 1 - q := by
    intro i
    have := prob_compl_eq_one_sub (μ := μ) (s := {ω | ¬ X i ω}) (measurableSet_setOfPred.mpr (hX i)).compl
    rw [hq] at this
    exact this
  have hm : ∀ q, Measurable fun ω => ¬ X q ω := fun q => measurableSet_setOfPred.mp (measurableSet_setOfPred.mpr (hX q)).compl
  have h1 := hoeffding_events hm (hind.comp (fun _ x => ¬ x) fun _ => measurable_of_countable _) hneg
    (Finset.range B ×ˢ Finset.range c) hε
  have hcard : ((Finset.range B ×ˢ Finset.range c).card : ℝ) = B * c := by
    rw [Finset.card_product, Finset.card_range, Finset.card_range]
    push_cast
    ring
  rw [hcard] at h1
  refine le_trans (measure_mono ?_) h1
  intro ω hω
  have h2 := remLoop_found (p := (X · ω)) (hc ω) B
  have h3 : (remLoop d size cs chunk (X · ω) B).2 = 0 := hω
  rw [h3, zero_add] at h2
  have h5 : (size : ℝ) ≤ ((Finset.range B ×ˢ Finset.range c).filter fun q => X q ω).card := by exact_mod_cast h2
  show (B * c : ℝ) * ε ≤ _
  have h6 : ∑ i ∈ Finset.range B ×ˢ Finset.range c, ((if ¬ ¬ X i ω then (1:ℝ) else 0) - (1 - q).toReal)
      = ((Finset.range B ×ˢ Finset.range c).filter fun q => X q ω).card - B * c * (1 - q.toReal) := by
    rw [Finset.sum_sub_distrib, Finset.sum_const, nsmul_eq_mul, hcard, Finset.card_filter, ENNReal.toReal_sub_of_le hq1 (by simp),
      ENNReal.toReal_one]
    push_cast
    simp only [not_not]
  refine le_trans ?_ (le_of_eq (h6.symm.trans (Finset.sum_congr rfl fun i _ => by congr)))
  nlinarith

end Kalepy
