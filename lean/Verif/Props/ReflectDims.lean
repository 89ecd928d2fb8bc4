import Verif.Props.Normal

/-!
# C12, C13: boundaries in several dimensions
-/

namespace Kalepy

open MeasureTheory Matrix

variable {d : ℕ}

/-! ## C13: the density, boundaries in any dimensions -/

/-- The boundaries given in a row. -/
def Spec.bounds : ReflRow → List ℝ
  | none => []
  | some (lo, hi) => lo.toList ++ hi.toList

/-- `x` is inside the boundaries of all dimensions from `j` on. -/
def Spec.AllowedFrom (rows : List ReflRow) (j : Fin d) (x : Fin d → ℝ) : Prop :=
  ∀ i, j ≤ i → ¬ Spec.Violates (rows.getD i none) (x i)

/-- The mirror images added for dimension `i` at one point. -/
noncomputable def addsAt (W : Matrix (Fin d) (Fin d) ℝ) (kf : ℝ → ℝ) (data : List (Fin d → ℝ)) (w : List ℝ)
    (x : Fin d → ℝ) (i : Fin d) (r : ReflRow) : ℝ :=
  ((Spec.bounds r).map fun b => kval W kf (data.map (reflectCol i b)) w x).sum

open Classical in
lemma stepAt_eq (W : Matrix (Fin d) (Fin d) ℝ) (kf data w) (x : Fin d → ℝ) (v : ℝ) (i : Fin d) (r : ReflRow) :
    stepAt W kf data w x v i r = if Spec.Violates r (x i) then 0 else v + addsAt W kf data w x i r := by
  cases r with
  | none => simp [stepAt, addsAt, Spec.bounds, Spec.Violates]
  | some r =>
    obtain ⟨lo, hi⟩ := r
    simp only [stepAt]
    by_cases hv : Spec.Violates (some (lo, hi)) (x i)
    · rw [if_pos ((outsideRow_iff _ _).mpr hv), if_pos hv]
    · rw [if_neg (fun h => hv ((outsideRow_iff _ _).mp h)), if_neg hv]
      cases lo <;> cases hi <;> simp [addAt, addsAt, Spec.bounds, add_assoc]

open Classical in
lemma foldl_stepAt_closed (W : Matrix (Fin d) (Fin d) ℝ) (kf data w) (x : Fin d → ℝ) (refl : Fin d → ReflRow) (v : ℝ)
    (l : List (Fin d)) (hl : l.Pairwise (· < ·)) :
    l.foldl (fun v i => stepAt W kf data w x v i (refl i)) v
      = (if ∀ i ∈ l, ¬ Spec.Violates (refl i) (x i) then v else 0)
        + (l.map fun j => if ∀ i ∈ l, j ≤ i → ¬ Spec.Violates (refl i) (x i) then addsAt W kf data w x j (refl j)
            else 0).sum := by
  induction l using List.reverseRecOn with
  | nil => simp
  | append_singleton l i ih =>
    rw [List.pairwise_append] at hl
    obtain ⟨hl1, _, hl2⟩ := hl
    rw [List.foldl_append, ih hl1, List.foldl_cons, List.foldl_nil, stepAt_eq, List.map_append, List.sum_append]
    have hlt : ∀ j ∈ l, j < i := fun j hj => hl2 j hj i (by simp)
    by_cases hv : Spec.Violates (refl i) (x i)
    · rw [if_pos hv, if_neg (fun h => h i (by simp) hv)]
      have e1 : (l.map fun j => if ∀ k ∈ l ++ [i], j ≤ k → ¬ Spec.Violates (refl k) (x k)
          then addsAt W kf data w x j (refl j) else 0) = l.map fun _ => 0 :=
        List.map_congr_left fun j hj => if_neg fun h => h i (by simp) (hlt j hj).le hv
      rw [e1]
      have e2 : ¬ ∀ k ∈ l ++ [i], i ≤ k → ¬ Spec.Violates (refl k) (x k) := fun h => h i (by simp) le_rfl hv
      simp only [List.map_cons, List.map_nil, if_neg e2]
      simp
    · rw [if_neg hv]
      have e0 : (∀ k ∈ l ++ [i], ¬ Spec.Violates (refl k) (x k)) ↔ ∀ k ∈ l, ¬ Spec.Violates (refl k) (x k) := by
        simp only [List.mem_append, List.mem_singleton]
        constructor
        · exact fun h k hk => h k (Or.inl hk)
        · rintro h k (hk | rfl)
          · exact h k hk
          · exact hv
      have e1 : (l.map fun j => if ∀ k ∈ l ++ [i], j ≤ k → ¬ Spec.Violates (refl k) (x k)
          then addsAt W kf data w x j (refl j) else 0)
          = l.map fun j => if ∀ k ∈ l, j ≤ k → ¬ Spec.Violates (refl k) (x k) then addsAt W kf data w x j (refl j)
            else 0 := by
        refine List.map_congr_left fun j hj => ?_
        have : (∀ k ∈ l ++ [i], j ≤ k → ¬ Spec.Violates (refl k) (x k))
            ↔ ∀ k ∈ l, j ≤ k → ¬ Spec.Violates (refl k) (x k) := by
          simp only [List.mem_append, List.mem_singleton]
          constructor
          · exact fun h k hk => h k (Or.inl hk)
          · rintro h k (hk | rfl)
            · exact h k hk
            · exact fun _ => hv
        simp only [this]
      have e2 : ∀ k ∈ l ++ [i], i ≤ k → ¬ Spec.Violates (refl k) (x k) := by
        intro k hk hik
        rcases List.mem_append.mp hk with hk | hk
        · exact absurd (hlt k hk) (not_lt.mpr hik)
        · rw [List.mem_singleton.mp hk]; exact hv
      rw [e1]
      simp only [e0, List.map_cons, List.map_nil, if_pos e2, List.sum_cons, List.sum_nil, add_zero]
      ring

open Classical in
/-- **C13**, boundaries in any dimensions: the kernel sum over the data counts where no boundary is violated; the
kernel sums over the data mirrored in dimension `j` count where no boundary of dimension `j` or later is violated. -/
theorem C13_all_dims (E : Ext) (D : Dist) (bw cov : Matrix (Fin d) (Fin d) ℝ) (helper : Bool)
    (chunk : ℕ) (hM : (Spec.kernelMatrix cov bw).PosDef) (pts data : List (Fin d → ℝ))
    (w : Option (List ℝ)) (hw : ∀ l, w = some l → l.length = data.length) (rows : List ReflRow) (hrows : rows.length = d) :
    ((Kernel.init D bw cov helper chunk).density E ⟨d, pts⟩ data w (some rows)).1
      = .ok (pts.map fun x =>
          ((if x ∈ Spec.Allowed rows then
              Spec.kernelSum D (Spec.kernelMatrix cov bw) (Spec.weighted data w) x else 0)
            + ((List.finRange d).map fun j => if Spec.AllowedFrom rows j x then
                ((Spec.bounds (rows.getD j none)).map fun b => Spec.kernelSum D (Spec.kernelMatrix cov bw)
                  (Spec.weighted (data.map (Spec.mirror j b)) w) x).sum else 0).sum)
          / (Real.sqrt (Spec.kernelMatrix cov bw).det * D.norm d)) := by
  have hb : badWeights data w = false := by
    cases w with
    | none => rfl
    | some l => simp [badWeights, hw l rfl]
  rw [density_fresh]
  obtain ⟨W, hW, hp⟩ := corePlan_posDef E D hM (Real.sqrt |(Spec.kernelMatrix cov bw).det|) (sqrt_abs_det_ne hM) data w
    hb (some rows) (by intro r hr; cases hr; exact hrows)
  rw [hp, abs_of_pos hM.det_pos]
  simp only [Except.map, coreAt, Option.map_some]
  congr 1
  refine List.map_congr_left fun x _ => ?_
  rw [reflAt, foldl_stepAt_closed W D.eval data _ x _ _ _ (List.pairwise_lt_finRange d)]
  have hadd : ∀ i, addsAt W D.eval data (usedWeights data w) x i (rows.getD i none)
      = ((Spec.bounds (rows.getD i none)).map fun b => Spec.kernelSum D (Spec.kernelMatrix cov bw)
          (Spec.weighted (data.map (Spec.mirror i b)) w) x).sum := by
    intro i
    rw [addsAt]
    congr 1
    refine List.map_congr_left fun b _ => ?_
    have hu : usedWeights (data.map (reflectCol i b)) w = usedWeights data w := by
      cases w <;> simp [usedWeights]
    simp [kval_eq_kernelSum hM hW, weighted_eq, mirror_eq, hu]
  have h1 : (∀ i ∈ List.finRange d, ¬ Spec.Violates (rows.getD i none) (x i)) ↔ x ∈ Spec.Allowed rows := by
    simp [Spec.Allowed]
  have h2 : ∀ j : Fin d, (∀ i ∈ List.finRange d, j ≤ i → ¬ Spec.Violates (rows.getD i none) (x i))
      ↔ Spec.AllowedFrom rows j x := by
    simp [Spec.AllowedFrom]
  simp only [h1, h2, hadd, kval_eq_kernelSum hM hW, weighted_eq]

/-! ## C12 -/

/-- Volume is preserved by mirroring one coordinate. -/
lemma mirror_preserving (j : Fin d) (b : ℝ) : MeasurePreserving (Spec.mirror (d := d) j b) volume volume := by
  have h : ∀ i : Fin d, MeasurePreserving (fun t : ℝ => if i = j then b - (t - b) else t) volume volume := by
    intro i
    by_cases hi : i = j
    · simp only [hi, if_true]
      have := Measure.measurePreserving_sub_left (volume : Measure ℝ) (2 * b)
      convert this using 2
      ring
    · simp only [hi, if_false]
      exact MeasurePreserving.id _
  exact volume_preserving_pi h

lemma mirror_mirror (j : Fin d) (b : ℝ) (x : Fin d → ℝ) : Spec.mirror j b (Spec.mirror j b x) = x := by
  funext i
  simp only [Spec.mirror]
  split_ifs <;> ring

lemma mirror_sub_dist2 {M : Matrix (Fin d) (Fin d) ℝ} (j : Fin d) (hj : ∀ i, i ≠ j → M j i = 0 ∧ M i j = 0) (b : ℝ)
    (x a : Fin d → ℝ) : Spec.dist2 M (Spec.mirror j b x - Spec.mirror j b a) = Spec.dist2 M (x - a) := by
  rw [← dist2_flip j (fun i hi => (hj i hi).1) (fun i hi => (hj i hi).2) (x - a)]
  congr 1
  funext i
  simp only [Function.update_apply, Spec.mirror, Pi.sub_apply]
  split_ifs with h
  · subst h; ring
  · rfl

/-- Mirroring the data in an uncoupled dimension mirrors the density. -/
lemma integral_mirror_set (D : Dist) {M : Matrix (Fin d) (Fin d) ℝ} (a : Fin d → ℝ) (j : Fin d)
    (hj : ∀ i, i ≠ j → M j i = 0 ∧ M i j = 0) (b : ℝ) (S : Set (Fin d → ℝ)) :
    ∫ x, S.indicator (fun x => Spec.shape D (Spec.dist2 M (x - Spec.mirror j b a))) x
      = ∫ x, {x | Spec.mirror j b x ∈ S}.indicator (fun x => Spec.shape D (Spec.dist2 M (x - a))) x := by
  have hmp := mirror_preserving (d := d) j b
  have hinv : Function.Involutive (Spec.mirror (d := d) j b) := mirror_mirror j b
  have hemb : MeasurableEmbedding (Spec.mirror (d := d) j b) :=
    (MeasurableEquiv.mk hinv.toPerm hmp.measurable hmp.measurable).measurableEmbedding
  rw [← hmp.integral_comp hemb]
  congr 1
  funext x
  classical
  simp only [Set.indicator_apply, Set.mem_ofPred_eq, mirror_sub_dist2 j hj]

lemma not_violates_none (t : ℝ) : ¬ Spec.Violates none t := by simp [Spec.Violates]

/-- Away from the boundaries, the number of mirror images of `t` inside the boundaries is 0 if `t` is inside, and at
most 1 otherwise. -/
lemma count_mirrors {r : ReflRow} (hlt : ∀ l h, r = some (some l, some h) → l < h) {t : ℝ} (ht : t ∉ Spec.bounds r)
    (v : ℝ) :
    ((Spec.bounds r).map fun b => ({t | ¬ Spec.Violates r (2 * b - t)} : Set ℝ).indicator (fun _ => v) t).sum
      = ({t | Spec.Violates r t ∧ ∃ b ∈ Spec.bounds r, ¬ Spec.Violates r (2 * b - t)} : Set ℝ).indicator (fun _ => v) t := by
  classical
  cases r with
  | none => simp [Spec.bounds]
  | some r =>
    obtain ⟨lo, hi⟩ := r
    have hlt' : ∀ l h, lo = some l → hi = some h → l < h := by
      rintro l h rfl rfl; exact hlt l h rfl
    have n1 : lo ≠ some t := by rintro rfl; simp [Spec.bounds] at ht
    have n2 : hi ≠ some t := by rintro rfl; simp [Spec.bounds] at ht
    have key := fun v => count_unfolded hlt' n1 n2 v
    simp only [Spec.bounds, not_violates]
    simp only [Spec.bounds] at ht
    have hS : ∀ v : ℝ, ((lo.toList ++ hi.toList).map fun b => ({t | 2 * b - t ∈ Spec.inside lo hi} : Set ℝ).indicator
        (fun _ => v) t).sum = v * ((lo.toList ++ hi.toList).map fun b => ({t | 2 * b - t ∈ Spec.inside lo hi} : Set ℝ).indicator
        (fun _ => (1:ℝ)) t).sum := by
      intro v
      rw [← List.sum_map_mul_left]
      congr 1
      refine List.map_congr_left fun b _ => ?_
      simp [Set.indicator_apply]
    have hpos : ∀ x ∈ (lo.toList ++ hi.toList).map (fun b => ({t | 2 * b - t ∈ Spec.inside lo hi} : Set ℝ).indicator
        (fun _ => (1:ℝ)) t), 0 ≤ x := by
      intro x hx
      obtain ⟨b, _, rfl⟩ := List.mem_map.mp hx
      exact Set.indicator_nonneg (fun _ _ => zero_le_one) _
    have hnn := List.sum_nonneg hpos
    rw [hS]
    have k1 := key 1
    set s := ((lo.toList ++ hi.toList).map fun b => ({t | 2 * b - t ∈ Spec.inside lo hi} : Set ℝ).indicator
        (fun _ => (1:ℝ)) t).sum with hs
    by_cases hin : t ∈ Spec.inside lo hi
    · have : ¬ Spec.Violates (some (lo, hi)) t := not_violates.mpr hin
      rw [Set.indicator_of_notMem (by simp [this])]
      rw [Set.indicator_of_mem hin] at k1
      by_cases hu : t ∈ Spec.unfolded lo hi
      · rw [Set.indicator_of_mem hu] at k1
        have : s = 0 := by linarith
        rw [this, mul_zero]
      · rw [Set.indicator_of_notMem hu] at k1
        linarith
    · have hv : Spec.Violates (some (lo, hi)) t := by
        by_contra hc; exact hin (not_violates.mp hc)
      rw [Set.indicator_of_notMem hin, zero_add] at k1
      by_cases hex : ∃ b ∈ lo.toList ++ hi.toList, 2 * b - t ∈ Spec.inside lo hi
      · rw [Set.indicator_of_mem (by exact ⟨hv, hex⟩)]
        obtain ⟨b, hb, hbt⟩ := hex
        have hge : (1:ℝ) ≤ s := by
          have := List.single_le_sum hpos 1 (List.mem_map.mpr ⟨b, hb, Set.indicator_of_mem (s := {t | 2 * b - t ∈ Spec.inside lo hi}) hbt _⟩)
          exact this
        by_cases hu : t ∈ Spec.unfolded lo hi
        · rw [Set.indicator_of_mem hu] at k1; rw [k1, mul_one]
        · rw [Set.indicator_of_notMem hu] at k1; linarith
      · rw [Set.indicator_of_notMem (by exact fun h => hex h.2)]
        have : s = 0 := by
          rw [hs]
          refine List.sum_eq_zero fun x hx => ?_
          obtain ⟨b, hb, rfl⟩ := List.mem_map.mp hx
          exact Set.indicator_of_notMem (s := {t | 2 * b - t ∈ Spec.inside lo hi}) (fun h => hex ⟨b, hb, h⟩) _
        rw [this, mul_zero]

/-- Inside in the dimensions `i` with `T i`. -/
def okOn (rows : List ReflRow) (T : Fin d → Prop) (x : Fin d → ℝ) : Prop :=
  ∀ i, T i → ¬ Spec.Violates (rows.getD i none) (x i)

lemma measurable_row (r : ReflRow) : MeasurableSet {t | ¬ Spec.Violates r t} := by
  cases r with
  | none => simp [not_violates_none]
  | some r => obtain ⟨lo, hi⟩ := r; simp only [not_violates]; exact measurable_inside lo hi

lemma measurable_okOn (rows : List ReflRow) (T : Fin d → Prop) : MeasurableSet {x : Fin d → ℝ | okOn rows T x} := by
  have : {x : Fin d → ℝ | okOn rows T x} = ⋂ i, ⋂ (_ : T i), (fun x : Fin d → ℝ => x i) ⁻¹'
      {t | ¬ Spec.Violates (rows.getD i none) t} := by
    ext x; simp [okOn]
  rw [this]
  exact MeasurableSet.iInter fun i => MeasurableSet.iInter fun _ => measurable_pi_apply i (measurable_row _)

/-- Points that are allowed, or for which a mirror image in one dimension `j` is inside in the dimensions `i` with
`T j i` and in `j`. -/
def unfoldedOn (rows : List ReflRow) (T : Fin d → Fin d → Prop) : Set (Fin d → ℝ) :=
  {x | x ∈ Spec.Allowed rows ∨ ∃ j : Fin d, ∃ b ∈ Spec.bounds (rows.getD j none),
    okOn rows (T j) (Spec.mirror j b x) ∧ ¬ Spec.Violates (rows.getD j none) (Spec.mirror j b x j)}

lemma okOn_mirror (rows : List ReflRow) {T : Fin d → Fin d → Prop} (hT : ∀ j, ¬ T j j) (j : Fin d) (b : ℝ)
    (x : Fin d → ℝ) : okOn rows (T j) (Spec.mirror j b x) ↔ okOn rows (T j) x := by
  simp only [okOn]
  refine forall_congr' fun i => imp_congr_right fun hi => ?_
  have : i ≠ j := by rintro rfl; exact hT i hi
  simp [Spec.mirror, this]

lemma mirror_same (j : Fin d) (b : ℝ) (x : Fin d → ℝ) : Spec.mirror j b x j = 2 * b - x j := by
  simp only [Spec.mirror, if_true]; ring

open Classical in
/-- Away from the boundaries the contributions add up to the indicator of `unfoldedOn`. -/
lemma count_unfoldedOn (rows : List ReflRow) (hlt : ∀ (i : Fin d) l h, rows.getD i none = some (some l, some h) → l < h)
    {T : Fin d → Fin d → Prop} (hT : ∀ j, ¬ T j j) (hT2 : ∀ j j', j ≠ j' → T j j' ∨ T j' j) {x : Fin d → ℝ}
    (hx : ∀ i : Fin d, x i ∉ Spec.bounds (rows.getD i none)) (v : ℝ) :
    (Spec.Allowed rows).indicator (fun _ => v) x + ((List.finRange d).map fun j : Fin d =>
        ((Spec.bounds (rows.getD j none)).map fun b =>
          ({x | okOn rows (T j) (Spec.mirror j b x) ∧ ¬ Spec.Violates (rows.getD j none) (Spec.mirror j b x j)} : Set
            (Fin d → ℝ)).indicator (fun _ => v) x).sum).sum
      = (unfoldedOn rows T).indicator (fun _ => v) x := by
  have hj : ∀ j : Fin d, ((Spec.bounds (rows.getD j none)).map fun b =>
      ({x | okOn rows (T j) (Spec.mirror j b x) ∧ ¬ Spec.Violates (rows.getD j none) (Spec.mirror j b x j)} : Set
        (Fin d → ℝ)).indicator (fun _ => v) x).sum
      = if okOn rows (T j) x ∧ Spec.Violates (rows.getD j none) (x j) ∧
          ∃ b ∈ Spec.bounds (rows.getD j none), ¬ Spec.Violates (rows.getD j none) (2 * b - x j) then v else 0 := by
    intro j
    simp only [okOn_mirror rows hT, mirror_same]
    have key := count_mirrors (hlt j) (hx j) v
    simp only [Set.indicator_apply, Set.mem_ofPred_eq] at key ⊢
    by_cases hc : okOn rows (T j) x
    · simp only [hc, true_and]
      exact key
    · simp [hc]
  simp only [hj]
  have hmem : x ∈ unfoldedOn rows T ↔ x ∈ Spec.Allowed rows ∨ ∃ j : Fin d, okOn rows (T j) x ∧
      ∃ b ∈ Spec.bounds (rows.getD j none), ¬ Spec.Violates (rows.getD j none) (2 * b - x j) := by
    simp only [unfoldedOn, Set.mem_ofPred_eq, okOn_mirror rows hT, mirror_same]
    refine or_congr_right (exists_congr fun j => ?_)
    constructor
    · rintro ⟨b, hb, h1, h2⟩; exact ⟨h1, b, hb, h2⟩
    · rintro ⟨h1, b, hb, h2⟩; exact ⟨b, hb, h1, h2⟩
  by_cases hA : x ∈ Spec.Allowed rows
  · have h0 : ∀ j : Fin d, ¬ (okOn rows (T j) x ∧ Spec.Violates (rows.getD j none) (x j) ∧
          ∃ b ∈ Spec.bounds (rows.getD j none), ¬ Spec.Violates (rows.getD j none) (2 * b - x j)) := fun j h => hA j h.2.1
    simp only [if_neg (h0 _)]
    rw [Set.indicator_of_mem hA, Set.indicator_of_mem (hmem.mpr (Or.inl hA))]
    simp
  · rw [Set.indicator_of_notMem hA, zero_add]
    by_cases hex : ∃ j : Fin d, okOn rows (T j) x ∧ Spec.Violates (rows.getD j none) (x j) ∧
        ∃ b ∈ Spec.bounds (rows.getD j none), ¬ Spec.Violates (rows.getD j none) (2 * b - x j)
    · obtain ⟨j, h1, h2, h3⟩ := hex
      rw [Set.indicator_of_mem (hmem.mpr (Or.inr ⟨j, h1, h3⟩))]
      have huniq : ∀ j' : Fin d, (okOn rows (T j') x ∧ Spec.Violates (rows.getD j' none) (x j') ∧
          ∃ b ∈ Spec.bounds (rows.getD j' none), ¬ Spec.Violates (rows.getD j' none) (2 * b - x j')) ↔ j' = j := by
        intro j'
        constructor
        · rintro ⟨g1, g2, _⟩
          by_contra hne
          rcases hT2 j' j hne with h | h
          · exact g1 j h h2
          · exact h1 j' h g2
        · rintro rfl; exact ⟨h1, h2, h3⟩
      simp only [huniq]
      rw [← Fin.sum_univ_def]
      simp
    · push Not at hex
      rw [Set.indicator_of_notMem]
      · refine List.sum_eq_zero fun y hy => ?_
        obtain ⟨j, _, rfl⟩ := List.mem_map.mp hy
        refine if_neg ?_
        rintro ⟨g1, g2, b, hb, g3⟩
        exact g3 (hex j g1 g2 b hb)
      · rw [hmem]
        rintro (h | ⟨j, g1, b, hb, g3⟩)
        · exact hA h
        · by_cases g2 : Spec.Violates (rows.getD j none) (x j)
          · exact g3 (hex j g1 g2 b hb)
          · have key := count_mirrors (hlt j) (hx j) 1
            rw [Set.indicator_of_notMem (by exact fun h => g2 h.1)] at key
            have hpos : ∀ y ∈ (Spec.bounds (rows.getD j none)).map (fun b =>
                ({t | ¬ Spec.Violates (rows.getD j none) (2 * b - t)} : Set ℝ).indicator (fun _ => (1:ℝ)) (x j)), 0 ≤ y := by
              intro y hy
              obtain ⟨b, _, rfl⟩ := List.mem_map.mp hy
              exact Set.indicator_nonneg (fun _ _ => zero_le_one) _
            have := List.single_le_sum hpos 1 (List.mem_map.mpr ⟨b, hb, Set.indicator_of_mem
              (s := {t | ¬ Spec.Violates (rows.getD j none) (2 * b - t)}) g3 _⟩)
            linarith

lemma measurable_allowed (rows : List ReflRow) : MeasurableSet (Spec.Allowed (d := d) rows) := by
  have := measurable_okOn (d := d) rows fun _ => True
  simpa [okOn, Spec.Allowed] using this

lemma measurable_part (rows : List ReflRow) (T : Fin d → Fin d → Prop) (j : Fin d) :
    MeasurableSet {x : Fin d → ℝ | okOn rows (T j) x ∧ ¬ Spec.Violates (rows.getD j none) (x j)} := by
  have h := measurable_pi_apply (X := fun _ : Fin d => ℝ) j (measurable_row (rows.getD j none))
  exact (measurable_okOn rows (T j)).inter h

lemma measurable_unfoldedOn (rows : List ReflRow) (T : Fin d → Fin d → Prop) : MeasurableSet (unfoldedOn rows T) := by
  have : unfoldedOn rows T = Spec.Allowed rows ∪ ⋃ j : Fin d, ⋃ b ∈ {b | b ∈ Spec.bounds (rows.getD j none)},
      Spec.mirror j b ⁻¹' {x : Fin d → ℝ | okOn rows (T j) x ∧ ¬ Spec.Violates (rows.getD j none) (x j)} := by
    ext x
    simp only [unfoldedOn, Set.mem_union, Set.mem_iUnion, Set.mem_ofPred_eq, Set.mem_preimage, exists_prop]
  rw [this]
  refine (measurable_allowed rows).union (MeasurableSet.iUnion fun j => ?_)
  refine MeasurableSet.biUnion (List.finite_toSet _).countable fun b _ => ?_
  exact (mirror_preserving j b).measurable (measurable_part rows T j)

lemma ae_not_bounds (rows : List ReflRow) : ∀ᵐ x : Fin d → ℝ, ∀ i : Fin d, x i ∉ Spec.bounds (rows.getD i none) := by
  rw [ae_all_iff]
  intro i
  have hne : ∀ t : ℝ, ∀ᵐ x : Fin d → ℝ, x i ≠ t := fun t => by
    rw [volume_pi]; exact Measure.ae_eval_ne (fun _ : Fin d => (volume : Measure ℝ)) i t
  generalize Spec.bounds (rows.getD i none) = l
  induction l with
  | nil => simp
  | cons t l ih => filter_upwards [hne t, ih] with x h1 h2; simp [h1, h2]

/-- The mass of one kernel with its mirror images. -/
lemma mass_unfoldedOn (hd : 0 < d) (D : Dist) {M : Matrix (Fin d) (Fin d) ℝ} (hM : M.PosDef) (a : Fin d → ℝ)
    (rows : List ReflRow) (hlt : ∀ (i : Fin d) l h, rows.getD i none = some (some l, some h) → l < h)
    (hunc : ∀ j : Fin d, Spec.bounds (rows.getD j none) ≠ [] → ∀ i, i ≠ j → M j i = 0 ∧ M i j = 0)
    {T : Fin d → Fin d → Prop} (hT : ∀ j, ¬ T j j) (hT2 : ∀ j j', j ≠ j' → T j j' ∨ T j' j) :
    (∫ x, (Spec.Allowed rows).indicator (fun x => Spec.shape D (Spec.dist2 M (x - a))) x)
      + ((List.finRange d).map fun j : Fin d => ((Spec.bounds (rows.getD j none)).map fun b =>
          ∫ x, {x : Fin d → ℝ | okOn rows (T j) x ∧ ¬ Spec.Violates (rows.getD j none) (x j)}.indicator
            (fun x => Spec.shape D (Spec.dist2 M (x - Spec.mirror j b a))) x).sum).sum
      = ∫ x in unfoldedOn rows T, Spec.shape D (Spec.dist2 M (x - a)) := by
  have hI := integrable_shape_dist2 hd D hM a
  let S : Fin d → ℝ → Set (Fin d → ℝ) := fun j b => {x | okOn rows (T j) (Spec.mirror j b x) ∧
    ¬ Spec.Violates (rows.getD j none) (Spec.mirror j b x j)}
  have hS : ∀ j b, MeasurableSet (S j b) := fun j b => (mirror_preserving j b).measurable (measurable_part rows T j)
  have e1 : ∀ j : Fin d, ((Spec.bounds (rows.getD j none)).map fun b =>
          ∫ x, {x : Fin d → ℝ | okOn rows (T j) x ∧ ¬ Spec.Violates (rows.getD j none) (x j)}.indicator
            (fun x => Spec.shape D (Spec.dist2 M (x - Spec.mirror j b a))) x)
        = (Spec.bounds (rows.getD j none)).map fun b => ∫ x, (S j b).indicator
            (fun x => Spec.shape D (Spec.dist2 M (x - a))) x := by
    intro j
    refine List.map_congr_left fun b hb => ?_
    exact integral_mirror_set D a j (hunc j (List.ne_nil_of_mem hb)) b _
  simp only [e1]
  have h1 : ∀ j : Fin d, Integrable (fun x => ((Spec.bounds (rows.getD j none)).map fun b => (S j b).indicator
      (fun x => Spec.shape D (Spec.dist2 M (x - a))) x).sum) ∧
      ∫ x, ((Spec.bounds (rows.getD j none)).map fun b => (S j b).indicator
      (fun x => Spec.shape D (Spec.dist2 M (x - a))) x).sum
      = ((Spec.bounds (rows.getD j none)).map fun b => ∫ x, (S j b).indicator
      (fun x => Spec.shape D (Spec.dist2 M (x - a))) x).sum := fun j =>
    integral_listSum _ _ fun b _ => hI.indicator (hS j b)
  obtain ⟨h2, h3⟩ := integral_listSum (List.finRange d) (fun j x => ((Spec.bounds (rows.getD j none)).map fun b =>
    (S j b).indicator (fun x => Spec.shape D (Spec.dist2 M (x - a))) x).sum) fun j _ => (h1 j).1
  simp only [← (h1 _).2]
  rw [← h3, ← integral_add (hI.indicator (measurable_allowed rows)) h2,
    ← integral_indicator (measurable_unfoldedOn rows T)]
  refine integral_congr_ae ?_
  filter_upwards [ae_not_bounds rows] with x hx
  exact count_unfoldedOn rows hlt hT hT2 hx (Spec.shape D (Spec.dist2 M (x - a)))

open Classical in
/-- Kernel sums with their mirror images, counted in the dimensions given by `T`. -/
noncomputable def foldedSum (D : Dist) (M : Matrix (Fin d) (Fin d) ℝ) (wd : List ((Fin d → ℝ) × ℝ)) (rows : List ReflRow)
    (T : Fin d → Fin d → Prop) (x : Fin d → ℝ) : ℝ :=
  (if x ∈ Spec.Allowed rows then Spec.kernelSum D M wd x else 0)
    + ((List.finRange d).map fun j : Fin d =>
        if okOn rows (T j) x ∧ ¬ Spec.Violates (rows.getD j none) (x j) then
          ((Spec.bounds (rows.getD j none)).map fun b =>
            Spec.kernelSum D M (wd.map fun p => (Spec.mirror j b p.1, p.2)) x).sum else 0).sum

lemma foldedSum_cons (D : Dist) (M : Matrix (Fin d) (Fin d) ℝ) (p : (Fin d → ℝ) × ℝ) (wd : List ((Fin d → ℝ) × ℝ))
    (rows : List ReflRow) (T : Fin d → Fin d → Prop) (x : Fin d → ℝ) :
    foldedSum D M (p :: wd) rows T x = p.2 * ((Spec.Allowed rows).indicator (fun x => Spec.shape D (Spec.dist2 M (x - p.1))) x
      + ((List.finRange d).map fun j : Fin d => ((Spec.bounds (rows.getD j none)).map fun b =>
          {x : Fin d → ℝ | okOn rows (T j) x ∧ ¬ Spec.Violates (rows.getD j none) (x j)}.indicator
            (fun x => Spec.shape D (Spec.dist2 M (x - Spec.mirror j b p.1))) x).sum).sum)
      + foldedSum D M wd rows T x := by
  classical
  simp only [foldedSum, Spec.kernelSum, List.map_cons, List.sum_cons, Set.indicator_apply, Set.mem_ofPred_eq]
  have e : ∀ j : Fin d, (if okOn rows (T j) x ∧ ¬ Spec.Violates (rows.getD j none) (x j) then
        ((Spec.bounds (rows.getD j none)).map fun b => p.2 * Spec.shape D (Spec.dist2 M (x - Spec.mirror j b p.1))
          + ((wd.map fun p => (Spec.mirror j b p.1, p.2)).map fun p => p.2 * Spec.shape D (Spec.dist2 M (x - p.1))).sum).sum
        else 0)
      = p.2 * ((Spec.bounds (rows.getD j none)).map fun b =>
          if okOn rows (T j) x ∧ ¬ Spec.Violates (rows.getD j none) (x j) then
            Spec.shape D (Spec.dist2 M (x - Spec.mirror j b p.1)) else 0).sum
        + if okOn rows (T j) x ∧ ¬ Spec.Violates (rows.getD j none) (x j) then
          ((Spec.bounds (rows.getD j none)).map fun b =>
          ((wd.map fun p => (Spec.mirror j b p.1, p.2)).map fun p => p.2 * Spec.shape D (Spec.dist2 M (x - p.1))).sum).sum
          else 0 := by
    intro j
    split_ifs with h
    · rw [List.sum_map_add, List.sum_map_mul_left]
    · simp
  simp only [e]
  rw [List.sum_map_add, List.sum_map_mul_left]
  split_ifs <;> ring

lemma integral_foldedSum (hd : 0 < d) (D : Dist) {M : Matrix (Fin d) (Fin d) ℝ} (hM : M.PosDef)
    (wd : List ((Fin d → ℝ) × ℝ))
    (rows : List ReflRow) (hlt : ∀ (i : Fin d) l h, rows.getD i none = some (some l, some h) → l < h)
    (hunc : ∀ j : Fin d, Spec.bounds (rows.getD j none) ≠ [] → ∀ i, i ≠ j → M j i = 0 ∧ M i j = 0)
    {T : Fin d → Fin d → Prop} (hT : ∀ j, ¬ T j j) (hT2 : ∀ j j', j ≠ j' → T j j' ∨ T j' j) :
    Integrable (foldedSum D M wd rows T) ∧ ∫ x, foldedSum D M wd rows T x
      = (wd.map fun p => p.2 * ∫ x in unfoldedOn rows T, Spec.shape D (Spec.dist2 M (x - p.1))).sum := by
  induction wd with
  | nil =>
    have : foldedSum D M [] rows T = fun _ => 0 := by
      funext x
      simp [foldedSum, Spec.kernelSum]
    rw [this]
    simp
  | cons p wd ih =>
    have h0 := (integrable_shape_dist2 hd D hM p.1).indicator (measurable_allowed rows)
    have h1 : ∀ j : Fin d, _ := fun j => integral_listSum (Spec.bounds (rows.getD j none)) (fun b x =>
      {x : Fin d → ℝ | okOn rows (T j) x ∧ ¬ Spec.Violates (rows.getD j none) (x j)}.indicator
            (fun x => Spec.shape D (Spec.dist2 M (x - Spec.mirror j b p.1))) x)
      fun b _ => (integrable_shape_dist2 hd D hM _).indicator (measurable_part rows T j)
    obtain ⟨h2, h3⟩ := integral_listSum (List.finRange d) (fun j x => ((Spec.bounds (rows.getD j none)).map fun b =>
      {x : Fin d → ℝ | okOn rows (T j) x ∧ ¬ Spec.Violates (rows.getD j none) (x j)}.indicator
            (fun x => Spec.shape D (Spec.dist2 M (x - Spec.mirror j b p.1))) x).sum) fun j _ => (h1 j).1
    have hfun : foldedSum D M (p :: wd) rows T = fun x => p.2 * ((Spec.Allowed rows).indicator
        (fun x => Spec.shape D (Spec.dist2 M (x - p.1))) x
      + ((List.finRange d).map fun j : Fin d => ((Spec.bounds (rows.getD j none)).map fun b =>
          {x : Fin d → ℝ | okOn rows (T j) x ∧ ¬ Spec.Violates (rows.getD j none) (x j)}.indicator
            (fun x => Spec.shape D (Spec.dist2 M (x - Spec.mirror j b p.1))) x).sum).sum)
      + foldedSum D M wd rows T x := by
      funext x; exact foldedSum_cons D M p wd rows T x
    rw [hfun]
    set A : (Fin d → ℝ) → ℝ := (Spec.Allowed rows).indicator (fun x => Spec.shape D (Spec.dist2 M (x - p.1))) with hA
    set B : (Fin d → ℝ) → ℝ := fun x => ((List.finRange d).map fun j : Fin d => ((Spec.bounds (rows.getD j none)).map fun b =>
          {x : Fin d → ℝ | okOn rows (T j) x ∧ ¬ Spec.Violates (rows.getD j none) (x j)}.indicator
            (fun x => Spec.shape D (Spec.dist2 M (x - Spec.mirror j b p.1))) x).sum).sum with hB
    have h4 : Integrable fun x => p.2 * (A x + B x) := (h0.add h2).const_mul p.2
    refine ⟨h4.add ih.1, ?_⟩
    show ∫ x, p.2 * (A x + B x) + foldedSum D M wd rows T x = _
    rw [integral_add h4 ih.1, ih.2, integral_const_mul, List.map_cons, List.sum_cons]
    congr 2
    rw [integral_add h0 h2, h3]
    simp only [(h1 _).2]
    exact mass_unfoldedOn hd D hM p.1 rows hlt hunc hT hT2

/-- Points that are allowed, or whose mirror image in one boundary is. -/
def Spec.OnceFolded (rows : List ReflRow) : Set (Fin d → ℝ) :=
  {x | x ∈ Spec.Allowed rows ∨ ∃ j : Fin d, ∃ b ∈ Spec.bounds (rows.getD j none), Spec.mirror j b x ∈ Spec.Allowed rows}

/-- Points that are allowed, or whose mirror image in one boundary is inside in that dimension and all later ones. -/
def Spec.LastFolded (rows : List ReflRow) : Set (Fin d → ℝ) :=
  {x | x ∈ Spec.Allowed rows ∨ ∃ j : Fin d, ∃ b ∈ Spec.bounds (rows.getD j none),
    Spec.AllowedFrom rows j (Spec.mirror j b x)}

lemma okOn_ne (rows : List ReflRow) (j : Fin d) (x : Fin d → ℝ) :
    okOn rows (fun i => i ≠ j) x ∧ ¬ Spec.Violates (rows.getD j none) (x j) ↔ x ∈ Spec.Allowed rows := by
  simp only [okOn, Spec.Allowed, Set.mem_ofPred_eq]
  constructor
  · rintro ⟨h1, h2⟩ i
    by_cases hi : i = j
    · rw [hi]; exact h2
    · exact h1 i hi
  · exact fun h => ⟨fun i _ => h i, h j⟩

lemma okOn_lt (rows : List ReflRow) (j : Fin d) (x : Fin d → ℝ) :
    okOn rows (fun i => j < i) x ∧ ¬ Spec.Violates (rows.getD j none) (x j) ↔ Spec.AllowedFrom rows j x := by
  simp only [okOn, Spec.AllowedFrom]
  constructor
  · rintro ⟨h1, h2⟩ i hi
    rcases hi.lt_or_eq with h | h
    · exact h1 i h
    · rw [← h]; exact h2
  · exact fun h => ⟨fun i hi => h i hi.le, h j le_rfl⟩

lemma unfoldedOn_ne (rows : List ReflRow) : unfoldedOn rows (fun j i : Fin d => i ≠ j) = Spec.OnceFolded rows := by
  ext x
  simp only [unfoldedOn, Spec.OnceFolded, Set.mem_ofPred_eq, okOn_ne]

lemma unfoldedOn_lt (rows : List ReflRow) : unfoldedOn rows (fun j i : Fin d => j < i) = Spec.LastFolded rows := by
  ext x
  simp only [unfoldedOn, Spec.LastFolded, Set.mem_ofPred_eq, okOn_lt]

open Classical in
/-- **C13** for the class, boundaries in any dimensions, after any history of calls: `pdf` is one function of the
point, the normalised sum of the kernel sum over the data (where no boundary is violated) and of the kernel sums over
the data mirrored in dimension `j` (where no boundary of dimension `j` or later is violated). -/
theorem C13_kde_dims {E : Ext} {a : KDEArgs d} {k : KDE d} (h : KDE.init E a = .ok k) (srt : List ℝ → List ℕ)
    (hd : 0 < d) (hM : (Spec.kernelMatrix k.covariance k.bandwidth).PosDef) (rows : List ReflRow)
    (hr : k.reflect = some rows) (history : List (Spec.Call d)) (pts : List (Fin d → ℝ)) :
    ((history.foldl (fun k c => (Spec.call E srt k c).2) k).pdf E srt (some (.rows (Spec.rowsOf pts)))
      .none .none false).1 = .ok (.rows (Spec.rowsOf pts), ⟨[pts.length], pts.map fun x =>
        ((if x ∈ Spec.Allowed rows then Spec.kernelSum k.kernel.dist (Spec.kernelMatrix k.covariance k.bandwidth)
              (Spec.weighted a.dataset k.weights) x else 0)
            + ((List.finRange d).map fun j => if Spec.AllowedFrom rows j x then
                ((Spec.bounds (rows.getD j none)).map fun b => Spec.kernelSum k.kernel.dist
                  (Spec.kernelMatrix k.covariance k.bandwidth)
                  (Spec.weighted (a.dataset.map (Spec.mirror j b)) k.weights) x).sum else 0).sum)
          / (Real.sqrt (Spec.kernelMatrix k.covariance k.bandwidth).det * k.kernel.dist.norm d)
          / ((Spec.weighted a.dataset k.weights).map Prod.snd).sum⟩) := by
  have hist := C14_history E srt h history (.pdf (some (.rows (Spec.rowsOf pts))) .none .none false)
  rw [Spec.call, Spec.call, Spec.Outcome.values.injEq] at hist
  rw [hist, KDE.pdf, kde_density_eq h srt hd, hr]
  have htot : k.totalWeight = ((Spec.weighted a.dataset k.weights).map Prod.snd).sum := by
    have hds : k.dataset = a.dataset := by
      obtain ⟨_, _, _, _, _, _, _, _, _, _, _, _, _, _, _, _, _, _, he⟩ := init_inv h
      rw [he]
    unfold KDE.totalWeight
    cases hk : k.weights with
    | none => simp [Spec.weighted, hds, Function.comp_def]
    | some w =>
      simp only [Spec.weighted]
      rw [List.map_snd_zip (by rw [(stored_valid h hk).1])]
  rw [htot]
  have hlen : rows.length = d := by
    obtain ⟨rows', _, _, _, _, _, _, _, hr', hne, _, _, _, _, _, _, _, _, he⟩ := init_inv h
    have e : rows' = some rows := by rw [← hr, he]
    rw [e] at hr'
    exact (C20_result _ hne _ _ hr').1
  have hw : ∀ l, k.weights = some l → l.length = a.dataset.length := fun l hl => (stored_valid h hl).1
  obtain ⟨rows', w, cov, bw0, D, out, eff, ext, hr', hne, _, _, _, _, _, _, _, _, rfl⟩ := init_inv h
  simp only at hM hw ⊢
  rw [C13_all_dims E D _ _ _ _ hM pts _ _ hw rows hlen]
  simp [Except.map, Kernel.init]

/-- **C11** for the class, partial: after any history of calls, a point strictly beyond a boundary of dimension `i` has
pdf 0 if no later dimension has boundaries (in particular with boundaries in one dimension only).  Missing: boundaries
in a later dimension, where the claim is false (`C11_refuted`); `C13_kde_dims` gives the value there. -/
theorem C11_kde_partial {E : Ext} {a : KDEArgs d} {k : KDE d} (h : KDE.init E a = .ok k) (srt : List ℝ → List ℕ)
    (hd : 0 < d) (hM : (Spec.kernelMatrix k.covariance k.bandwidth).PosDef) (rows : List ReflRow)
    (hr : k.reflect = some rows) (i : Fin d) (hlast : ∀ j : Fin d, i < j → Spec.bounds (rows.getD j none) = [])
    (x : Fin d → ℝ) (hx : Spec.Violates (rows.getD i none) (x i)) (history : List (Spec.Call d)) :
    ((history.foldl (fun k c => (Spec.call E srt k c).2) k).pdf E srt (some (.rows (Spec.rowsOf [x])))
      .none .none false).1 = .ok (.rows (Spec.rowsOf [x]), ⟨[1], [0]⟩) := by
  classical
  rw [C13_kde_dims h srt hd hM rows hr history [x]]
  have h0 : x ∉ Spec.Allowed rows := fun hc => hc i hx
  have h1 : ((List.finRange d).map fun j : Fin d => if Spec.AllowedFrom rows j x then
                ((Spec.bounds (rows.getD j none)).map fun b => Spec.kernelSum k.kernel.dist
                  (Spec.kernelMatrix k.covariance k.bandwidth)
                  (Spec.weighted (a.dataset.map (Spec.mirror j b)) k.weights) x).sum else 0).sum = 0 := by
    refine List.sum_eq_zero fun y hy => ?_
    obtain ⟨j, _, rfl⟩ := List.mem_map.mp hy
    rcases le_or_gt j i with hj | hj
    · exact if_neg fun hc => hc i hj hx
    · rw [hlast j hj]; simp
  simp only [List.map_cons, List.map_nil, if_neg h0, h1]
  simp

/-- **C12**, boundaries in any dimensions, exactly, if the kernel does not couple the dimensions with boundaries to
others.  The integral of the pdf over the allowed region is the weighted mean, over the data, of the mass that the
(unreflected) kernel around the datum has in the points that are allowed after at most one reflection.  The integral
over the whole space is larger in general, because mirror images in a later dimension also count beyond the boundaries
of earlier ones. -/
theorem C12_mass_dims {E : Ext} {a : KDEArgs d} {k : KDE d} (h : KDE.init E a = .ok k) (srt : List ℝ → List ℕ)
    (hd : 0 < d) (hM : (Spec.kernelMatrix k.covariance k.bandwidth).PosDef) (rows : List ReflRow)
    (hr : k.reflect = some rows)
    (hunc : ∀ j : Fin d, Spec.bounds (rows.getD j none) ≠ [] → ∀ i, i ≠ j →
      Spec.kernelMatrix k.covariance k.bandwidth j i = 0 ∧ Spec.kernelMatrix k.covariance k.bandwidth i j = 0) :
    ∃ F : (Fin d → ℝ) → ℝ,
      (∀ (history : List (Spec.Call d)) (pts : List (Fin d → ℝ)),
        ((history.foldl (fun k c => (Spec.call E srt k c).2) k).pdf E srt (some (.rows (Spec.rowsOf pts)))
          .none .none false).1 = .ok (.rows (Spec.rowsOf pts), ⟨[pts.length], pts.map F⟩)) ∧
      Integrable F ∧
      ∫ x in Spec.Allowed rows, F x
        = ((Spec.weighted a.dataset k.weights).map fun p => p.2 * ∫ x in Spec.OnceFolded rows,
            Spec.kernelDensity k.kernel.dist (Spec.kernelMatrix k.covariance k.bandwidth) (x - p.1)).sum
          / ((Spec.weighted a.dataset k.weights).map Prod.snd).sum ∧
      ∫ x, F x
        = ((Spec.weighted a.dataset k.weights).map fun p => p.2 * ∫ x in Spec.LastFolded rows,
            Spec.kernelDensity k.kernel.dist (Spec.kernelMatrix k.covariance k.bandwidth) (x - p.1)).sum
          / ((Spec.weighted a.dataset k.weights).map Prod.snd).sum := by
  classical
  have hlt : ∀ (i : Fin d) l u, rows.getD i none = some (some l, some u) → l < u := by
    obtain ⟨rows', _, _, _, _, _, _, _, hr', hne, _, _, _, _, _, _, _, _, he⟩ := init_inv h
    have e : rows' = some rows := by rw [← hr, he]
    rw [e] at hr'
    intro i l u hi
    refine (C20_result _ hne _ _ hr').2 l u ?_
    by_cases hc : (i : ℕ) < rows.length
    · rw [List.getD_eq_getElem _ _ hc] at hi
      rw [← hi]
      exact List.getElem_mem hc
    · rw [List.getD_eq_default _ _ (not_lt.mp hc)] at hi
      cases hi
  set M := Spec.kernelMatrix k.covariance k.bandwidth with hMdef
  set wd := Spec.weighted a.dataset k.weights with hwd
  have hT1 := integral_foldedSum hd k.kernel.dist hM wd rows hlt hunc (T := fun j i : Fin d => i ≠ j) (fun j h => h rfl)
    (fun j j' hj => Or.inl hj.symm)
  have hT2 := integral_foldedSum hd k.kernel.dist hM wd rows hlt hunc (T := fun j i : Fin d => j < i) (fun j => lt_irrefl j)
    (fun j j' hj => lt_or_gt_of_ne hj)
  rw [unfoldedOn_ne] at hT1
  rw [unfoldedOn_lt] at hT2
  have hK : ∀ (S : Set (Fin d → ℝ)), (wd.map fun p => p.2 * ∫ x in S, Spec.shape k.kernel.dist (Spec.dist2 M (x - p.1))).sum
      / (Real.sqrt M.det * k.kernel.dist.norm d)
      = (wd.map fun p => p.2 * ∫ x in S, Spec.kernelDensity k.kernel.dist M (x - p.1)).sum := by
    intro S
    rw [div_eq_mul_inv, ← List.sum_map_mul_right]
    congr 1
    refine List.map_congr_left fun p _ => ?_
    simp only [Spec.kernelDensity]
    rw [integral_div]
    ring
  refine ⟨fun x => foldedSum k.kernel.dist M wd rows (fun j i => j < i) x / (Real.sqrt M.det * k.kernel.dist.norm d)
    / (wd.map Prod.snd).sum, ?_, ?_, ?_, ?_⟩
  · intro history pts
    rw [C13_kde_dims h srt hd hM rows hr history pts]
    simp only [foldedSum, okOn_lt, weighted_map, ← hMdef, ← hwd]
  · exact (hT2.1.div_const _).div_const _
  · have e1 : ∫ x in Spec.Allowed rows, foldedSum k.kernel.dist M wd rows (fun j i => j < i) x
          / (Real.sqrt M.det * k.kernel.dist.norm d) / (wd.map Prod.snd).sum
        = ∫ x, foldedSum k.kernel.dist M wd rows (fun j i => i ≠ j) x
          / (Real.sqrt M.det * k.kernel.dist.norm d) / (wd.map Prod.snd).sum := by
      rw [← integral_indicator (measurable_allowed rows)]
      congr 1
      funext x
      by_cases hx : x ∈ Spec.Allowed rows
      · rw [Set.indicator_of_mem hx]
        have : ∀ j, Spec.AllowedFrom rows j x := fun j i _ => hx i
        simp only [foldedSum, okOn_lt, okOn_ne, this, hx, if_true]
      · rw [Set.indicator_of_notMem hx]
        simp only [foldedSum, okOn_ne, hx, if_false]
        simp
    rw [e1, integral_div, integral_div, hT1.2, hK]
  · rw [integral_div, integral_div, hT2.2, hK]

/-- **C12**, an upper bound that always holds for such kernels: neither over the allowed region nor over the whole
space is the mass larger than 1. -/
theorem C12_at_most_one_dims {E : Ext} {a : KDEArgs d} {k : KDE d} (h : KDE.init E a = .ok k) (srt : List ℝ → List ℕ)
    (hd : 0 < d) (hM : (Spec.kernelMatrix k.covariance k.bandwidth).PosDef) (rows : List ReflRow)
    (hr : k.reflect = some rows)
    (hunc : ∀ j : Fin d, Spec.bounds (rows.getD j none) ≠ [] → ∀ i, i ≠ j →
      Spec.kernelMatrix k.covariance k.bandwidth j i = 0 ∧ Spec.kernelMatrix k.covariance k.bandwidth i j = 0) :
    ∃ F : (Fin d → ℝ) → ℝ,
      (∀ (history : List (Spec.Call d)) (pts : List (Fin d → ℝ)),
        ((history.foldl (fun k c => (Spec.call E srt k c).2) k).pdf E srt (some (.rows (Spec.rowsOf pts)))
          .none .none false).1 = .ok (.rows (Spec.rowsOf pts), ⟨[pts.length], pts.map F⟩)) ∧
      ∫ x in Spec.Allowed rows, F x ≤ 1 ∧ ∫ x, F x ≤ 1 := by
  obtain ⟨F, h1, _, h3, h4⟩ := C12_mass_dims h srt hd hM rows hr hunc
  obtain ⟨hw, hwn⟩ := weighted_total_pos h
  have key : ∀ S : Set (Fin d → ℝ), ((Spec.weighted a.dataset k.weights).map fun p => p.2 * ∫ x in S,
            Spec.kernelDensity k.kernel.dist (Spec.kernelMatrix k.covariance k.bandwidth) (x - p.1)).sum
          / ((Spec.weighted a.dataset k.weights).map Prod.snd).sum ≤ 1 := by
    intro S
    rw [div_le_one hw]
    refine List.sum_le_sum fun p hp => ?_
    obtain ⟨g1, g2⟩ := kernelDensity_integral hd k.kernel.dist hM p.1
    have : ∫ x in S, Spec.kernelDensity k.kernel.dist (Spec.kernelMatrix k.covariance k.bandwidth) (x - p.1) ≤ 1 := by
      rw [← g2]
      exact setIntegral_le_integral g1 (Filter.Eventually.of_forall fun x => kernelDensity_nonneg hd _ _ _)
    have h0 := hwn p hp
    nlinarith
  exact ⟨F, h1, h3 ▸ key _, h4 ▸ key _⟩

lemma bounds_mem {r : ReflRow} {b : ℝ} : b ∈ Spec.bounds r ↔ ∃ lo hi, r = some (lo, hi) ∧ (lo = some b ∨ hi = some b) := by
  cases r with
  | none => simp [Spec.bounds]
  | some r => obtain ⟨lo, hi⟩ := r; simp [Spec.bounds]

/-- With a single boundary, a violating number has its mirror image inside. -/
lemma single_mirror {r : ReflRow} (h1 : (Spec.bounds r).length ≤ 1) {t : ℝ} (hv : Spec.Violates r t) :
    ∃ b ∈ Spec.bounds r, ¬ Spec.Violates r (2 * b - t) := by
  obtain ⟨lo, hi, rfl, hv⟩ := hv
  cases lo with
  | none =>
    cases hi with
    | none => simp at hv
    | some u =>
      simp only [reduceCtorEq, false_and, exists_false, Option.some.injEq, exists_eq_left', false_or] at hv
      refine ⟨u, by simp [Spec.bounds], ?_⟩
      rw [not_violates]
      refine ⟨by simp, ?_⟩
      rintro _ ⟨⟩
      linarith
  | some l =>
    cases hi with
    | none =>
      simp only [reduceCtorEq, false_and, exists_false, Option.some.injEq, exists_eq_left', or_false] at hv
      refine ⟨l, by simp [Spec.bounds], ?_⟩
      rw [not_violates]
      refine ⟨?_, by simp⟩
      rintro _ ⟨⟩
      linarith
    | some u => simp [Spec.bounds] at h1

/-- **C12**, at most one boundary in each dimension, any number of dimensions: over the whole space the pdf integrates
to 1 (but not over the allowed region, `C12_corner_refuted`: what is missing there lies outside of the boundaries). -/
theorem C12_one_sided_total {E : Ext} {a : KDEArgs d} {k : KDE d} (h : KDE.init E a = .ok k) (srt : List ℝ → List ℕ)
    (hd : 0 < d) (hM : (Spec.kernelMatrix k.covariance k.bandwidth).PosDef) (rows : List ReflRow)
    (hr : k.reflect = some rows) (hone : ∀ j : Fin d, (Spec.bounds (rows.getD j none)).length ≤ 1)
    (hunc : ∀ j : Fin d, Spec.bounds (rows.getD j none) ≠ [] → ∀ i, i ≠ j →
      Spec.kernelMatrix k.covariance k.bandwidth j i = 0 ∧ Spec.kernelMatrix k.covariance k.bandwidth i j = 0) :
    ∃ F : (Fin d → ℝ) → ℝ,
      (∀ (history : List (Spec.Call d)) (pts : List (Fin d → ℝ)),
        ((history.foldl (fun k c => (Spec.call E srt k c).2) k).pdf E srt (some (.rows (Spec.rowsOf pts)))
          .none .none false).1 = .ok (.rows (Spec.rowsOf pts), ⟨[pts.length], pts.map F⟩)) ∧
      ∫ x, F x = 1 := by
  classical
  obtain ⟨F, h1, _, _, h4⟩ := C12_mass_dims h srt hd hM rows hr hunc
  obtain ⟨hw, _⟩ := weighted_total_pos h
  refine ⟨F, h1, ?_⟩
  have huniv : Spec.LastFolded (d := d) rows = Set.univ := by
    rw [Set.eq_univ_iff_forall]
    intro x
    by_cases hA : x ∈ Spec.Allowed rows
    · exact Or.inl hA
    · right
      have hne : (Finset.univ.filter fun i : Fin d => Spec.Violates (rows.getD i none) (x i)).Nonempty := by
        simp only [Spec.Allowed, Set.mem_ofPred_eq, not_forall, not_not] at hA
        obtain ⟨i, hi⟩ := hA
        exact ⟨i, Finset.mem_filter.mpr ⟨Finset.mem_univ _, hi⟩⟩
      have hmem := Finset.max'_mem _ hne
      have hmax := fun i hi => Finset.le_max' (Finset.univ.filter fun i : Fin d => Spec.Violates (rows.getD i none) (x i)) i hi
      set j := Finset.max' _ hne
      have hv := (Finset.mem_filter.mp hmem).2
      obtain ⟨b, hb, hin⟩ := single_mirror (hone j) hv
      refine ⟨j, b, hb, ?_⟩
      rw [← okOn_lt]
      refine ⟨?_, by rw [mirror_same]; exact hin⟩
      rw [okOn_mirror rows (T := fun j i : Fin d => j < i) (fun j => lt_irrefl j)]
      intro i hi hvi
      exact absurd (hmax i (Finset.mem_filter.mpr ⟨Finset.mem_univ _, hvi⟩)) (not_le.mpr hi)
  rw [h4, huniv, div_eq_one_iff_eq hw.ne']
  congr 1
  refine List.map_congr_left fun p _ => ?_
  rw [setIntegral_univ, (kernelDensity_integral hd k.kernel.dist hM p.1).2, mul_one]

/-- **C12** where it holds with boundaries in several dimensions: a finite kernel that does not couple the dimensions
with boundaries to others, and for every datum a dimension `j` such that the kernel crosses no boundary of the other
dimensions and in dimension `j` every number it reaches is inside the boundaries or is mirrored to the inside.

What is missing: kernels that reach over a corner or too far; there the statement is false (`C12_refuted`,
`C12_corner_refuted`). -/
theorem C12_dims_partial {E : Ext} {a : KDEArgs d} {k : KDE d} (h : KDE.init E a = .ok k) (srt : List ℝ → List ℕ)
    (hd : 0 < d) (hM : (Spec.kernelMatrix k.covariance k.bandwidth).PosDef) (hf : k.kernel.dist.finite = true)
    (rows : List ReflRow) (hr : k.reflect = some rows)
    (hunc : ∀ j : Fin d, Spec.bounds (rows.getD j none) ≠ [] → ∀ i, i ≠ j →
      Spec.kernelMatrix k.covariance k.bandwidth j i = 0 ∧ Spec.kernelMatrix k.covariance k.bandwidth i j = 0)
    (hreach : ∀ x ∈ a.dataset, ∃ j : Fin d,
      (∀ i, i ≠ j → ∀ t, |t - x i| ≤ Real.sqrt (Spec.kernelMatrix k.covariance k.bandwidth i i) →
        ¬ Spec.Violates (rows.getD i none) t) ∧
      ∀ t, |t - x j| ≤ Real.sqrt (Spec.kernelMatrix k.covariance k.bandwidth j j) →
        ¬ Spec.Violates (rows.getD j none) t ∨
          ∃ b ∈ Spec.bounds (rows.getD j none), ¬ Spec.Violates (rows.getD j none) (2 * b - t)) :
    ∃ F : (Fin d → ℝ) → ℝ,
      (∀ (history : List (Spec.Call d)) (pts : List (Fin d → ℝ)),
        ((history.foldl (fun k c => (Spec.call E srt k c).2) k).pdf E srt (some (.rows (Spec.rowsOf pts)))
          .none .none false).1 = .ok (.rows (Spec.rowsOf pts), ⟨[pts.length], pts.map F⟩)) ∧
      ∫ x in Spec.Allowed rows, F x = 1 := by
  obtain ⟨F, h1, _, h3, _⟩ := C12_mass_dims h srt hd hM rows hr hunc
  obtain ⟨hw, _⟩ := weighted_total_pos h
  refine ⟨F, h1, ?_⟩
  rw [h3, div_eq_one_iff_eq hw.ne']
  congr 1
  refine List.map_congr_left fun p hp => ?_
  obtain ⟨g1, g2⟩ := kernelDensity_integral hd k.kernel.dist hM p.1
  have hpd : p.1 ∈ a.dataset := by
    cases hk : k.weights with
    | none =>
      rw [hk] at hp
      obtain ⟨x, hx, rfl⟩ := List.mem_map.mp hp
      exact hx
    | some w =>
      rw [hk] at hp
      exact (List.of_mem_zip (show (p.1, p.2) ∈ _ from hp)).1
  rw [setIntegral_eq_integral_of_forall_compl_eq_zero, g2, mul_one]
  intro x hx
  obtain ⟨j, hother, hj⟩ := hreach p.1 hpd
  rw [Spec.kernelDensity, shape_eq_zero hf, zero_div]
  by_contra hc
  refine hx ?_
  have hin : ∀ i, |x i - p.1 i| ≤ Real.sqrt (Spec.kernelMatrix k.covariance k.bandwidth i i) := by
    intro i
    refine Real.abs_le_sqrt ?_
    have hsq := sq_le_diag_mul_dist2 hM (x - p.1) i
    have hMi := hM.diag_pos (i := i)
    have := mul_le_mul_of_nonneg_left (not_lt.mp hc) hMi.le
    rw [Pi.sub_apply] at hsq
    linarith
  have ho : okOn rows (fun i => i ≠ j) x := fun i hi => hother i hi _ (hin i)
  rcases hj _ (hin j) with g | ⟨b, hb, g⟩
  · exact Or.inl ((okOn_ne rows j x).mp ⟨ho, g⟩)
  · refine Or.inr ⟨j, b, hb, (okOn_ne rows j _).mp ⟨?_, by rw [mirror_same]; exact g⟩⟩
    exact (okOn_mirror rows (T := fun j i : Fin d => i ≠ j) (fun j h => h rfl) j b x).mpr ho

/-- Property C12 restricted to at most one boundary in each dimension. -/
def C12_corner_Claim : Prop :=
  ∀ (d : ℕ), 0 < d → ∀ (E : Ext) (srt : List ℝ → List ℕ) (a : KDEArgs d) (k : KDE d), KDE.init E a = .ok k →
    (Spec.kernelMatrix k.covariance k.bandwidth).PosDef → ∀ rows, k.reflect = some rows →
    (∀ x ∈ a.dataset, x ∈ Spec.Allowed rows) → (∀ j : Fin d, (Spec.bounds (rows.getD j none)).length ≤ 1) →
    ∃ F : (Fin d → ℝ) → ℝ,
      (∀ pts, (k.pdf E srt (some (.rows (Spec.rowsOf pts))) .none .none false).1
        = .ok (.rows (Spec.rowsOf pts), ⟨[pts.length], pts.map F⟩)) ∧
      ∫ x in Spec.Allowed rows, F x = 1

/-- **C12 is false of the code also with one boundary per dimension**: a box kernel around `(0, 0)` with lower boundaries
at 0 in both dimensions; the part of the kernel beyond both boundaries is lost. -/
theorem C12_corner_refuted : ¬ C12_corner_Claim := by
  intro hC
  obtain ⟨k, hk, hw, hD, hM, hr, _, _⟩ := unit_init_reflect ⟨fun A => A, id⟩ ([![0, 0]] : List (Fin 2 → ℝ)) (by simp)
    .box rfl [some (some 0, none), some (some 0, none)] rfl (by intro lo hi h; simp at h) ⟨(some 0, none), by simp⟩
  have hpd : (Spec.kernelMatrix k.covariance k.bandwidth).PosDef := by rw [hM]; exact PosDef.one
  have hrow : ∀ i : Fin 2, ([some (some 0, none), some (some 0, none)] : List ReflRow).getD i none = some (some 0, none) := by
    intro i; fin_cases i <;> rfl
  have hvi : ∀ t : ℝ, Spec.Violates (some (some 0, none)) t ↔ t < 0 := by
    intro t
    rw [← not_iff_not, not_violates]
    simp [Spec.inside]
  obtain ⟨F, hF, hint⟩ := hC 2 two_pos _ (fun l => List.range l.length) _ k hk hpd _ hr (by
    intro x hx i
    rw [List.mem_singleton] at hx
    subst hx
    rw [hrow, hvi]
    fin_cases i <;> simp) (by intro j; rw [hrow]; simp [Spec.bounds])
  obtain ⟨F', hF', _, hint', _⟩ := C12_mass_dims hk (fun l => List.range l.length) two_pos hpd _ hr (by
    intro j _ i hij
    rw [hM]
    simp [hij, hij.symm])
  have hFF : F = F' := by
    funext x
    have e1 := hF [x]
    have e2 := hF' [] [x]
    simp only [List.foldl_nil] at e2
    rw [e1] at e2
    simpa using e2
  rw [hFF, hint', hw, hD, hM] at hint
  simp only [Spec.weighted, List.map_cons, List.map_nil, List.sum_cons, List.sum_nil, add_zero, one_mul, div_one] at hint
  obtain ⟨g1, g2⟩ := kernelDensity_integral two_pos .box (PosDef.one (n := Fin 2) (R := ℝ)) ![0, 0]
  have hmeas : MeasurableSet (Spec.OnceFolded (d := 2) [some (some 0, none), some (some 0, none)]) := by
    rw [← unfoldedOn_ne]; exact measurable_unfoldedOn _ _
  have hsum := integral_add_compl hmeas g1
  rw [hint, g2] at hsum
  have hzero : ∫ x in (Spec.OnceFolded (d := 2) [some (some 0, none), some (some 0, none)])ᶜ,
      Spec.kernelDensity .box (1 : Matrix (Fin 2) (Fin 2) ℝ) (x - ![0, 0]) = 0 := by linarith
  have hnn : ∀ u : Fin 2 → ℝ, 0 ≤ Spec.kernelDensity .box (1 : Matrix (Fin 2) (Fin 2) ℝ) u := fun u =>
    kernelDensity_nonneg two_pos _ _ _
  have hsupp : Set.univ.pi (fun _ : Fin 2 => Set.Ioo (-(1 / 2) : ℝ) 0) ⊆
      Function.support (fun x => Spec.kernelDensity .box (1 : Matrix (Fin 2) (Fin 2) ℝ) (x - ![0, 0])) := by
    intro x hx
    rw [Function.mem_support, Spec.kernelDensity]
    have h0 := hx 0 (Set.mem_univ _)
    have h1 := hx 1 (Set.mem_univ _)
    simp only [Set.mem_Ioo] at h0 h1
    have hs : Spec.shape .box (Spec.dist2 (1 : Matrix (Fin 2) (Fin 2) ℝ) (x - ![0, 0])) = 1 := by
      rw [Spec.shape, box_dist2_one, if_pos]
      simp
      nlinarith
    rw [hs]
    exact (div_pos one_pos (mul_pos (by simp) (Dist.norm_pos _ 2 two_pos))).ne'
  have := (setIntegral_pos_iff_support_of_nonneg_ae (μ := volume)
    (s := (Spec.OnceFolded (d := 2) [some (some 0, none), some (some 0, none)])ᶜ)
    (Filter.Eventually.of_forall fun x => hnn (x - ![0, 0])) g1.integrableOn)
  rw [hzero] at this
  refine absurd (this.mpr ?_) (lt_irrefl _)
  have hsub : Set.univ.pi (fun _ : Fin 2 => Set.Ioo (-(1 / 2) : ℝ) 0)
      ⊆ (Spec.OnceFolded (d := 2) [some (some 0, none), some (some 0, none)])ᶜ := by
    intro x hx hx'
    have hx0 : ∀ i, x i < 0 := fun i => (hx i (Set.mem_univ i)).2
    rcases hx' with h | ⟨j, b, _, h⟩
    · have := h 0
      rw [hrow, hvi] at this
      exact this (hx0 0)
    · have key : ∀ i, i ≠ j → False := by
        intro i hi
        have := h i
        rw [hrow, hvi] at this
        simp only [Spec.mirror, hi, if_false] at this
        exact this (hx0 i)
      fin_cases j
      · exact key 1 (by decide)
      · exact key 0 (by decide)
  refine lt_of_lt_of_le ?_ (measure_mono (Set.subset_inter hsupp hsub))
  rw [volume_pi_pi]
  simp only [Real.volume_Ioo, Finset.prod_const]
  exact ENNReal.pow_pos (ENNReal.ofReal_pos.mpr (by norm_num)) _

/-- Concrete case of the hypotheses of the C12 theorems for several dimensions: boundaries `[0, 10]` and `[0, ∞)`, box
kernel of width 1, one datum near a boundary in each dimension. -/
example : ∃ (E : Ext) (a : KDEArgs 2) (k : KDE 2) (rows : List ReflRow), KDE.init E a = .ok k ∧
    (Spec.kernelMatrix k.covariance k.bandwidth).PosDef ∧ k.kernel.dist.finite = true ∧ k.reflect = some rows ∧
    (∀ j : Fin 2, Spec.bounds (rows.getD j none) ≠ [] → ∀ i, i ≠ j →
      Spec.kernelMatrix k.covariance k.bandwidth j i = 0 ∧ Spec.kernelMatrix k.covariance k.bandwidth i j = 0) ∧
    ∀ x ∈ a.dataset, ∃ j : Fin 2,
      (∀ i, i ≠ j → ∀ t, |t - x i| ≤ Real.sqrt (Spec.kernelMatrix k.covariance k.bandwidth i i) →
        ¬ Spec.Violates (rows.getD i none) t) ∧
      ∀ t, |t - x j| ≤ Real.sqrt (Spec.kernelMatrix k.covariance k.bandwidth j j) →
        ¬ Spec.Violates (rows.getD j none) t ∨
          ∃ b ∈ Spec.bounds (rows.getD j none), ¬ Spec.Violates (rows.getD j none) (2 * b - t) := by
  obtain ⟨k, hk, hw, hD, hM, hr, _, _⟩ := unit_init_reflect ⟨fun A => A, id⟩ ([![1 / 2, 3], ![5, 1 / 3]] : List (Fin 2 → ℝ))
    (by simp) .box rfl [some (some 0, some 10), some (some 0, none)] rfl
    (by intro lo hi h; simp at h; obtain ⟨rfl, rfl⟩ := h; norm_num) ⟨(some 0, none), by simp⟩
  refine ⟨_, _, k, _, hk, by rw [hM]; exact PosDef.one, by rw [hD]; rfl, hr, ?_, ?_⟩
  · intro j _ i hij
    rw [hM]
    simp [hij, hij.symm]
  · have e0 : ([some (some 0, some 10), some (some 0, none)] : List ReflRow).getD (0 : Fin 2) none = some (some 0, some 10) := rfl
    have e1 : ([some (some 0, some 10), some (some 0, none)] : List ReflRow).getD (1 : Fin 2) none = some (some 0, none) := rfl
    have n0 : ∀ t : ℝ, 0 ≤ t → t ≤ 10 → ¬ Spec.Violates (some (some 0, some 10)) t := by
      intro t h1 h2
      rw [not_violates]
      exact ⟨by rintro _ ⟨⟩; exact h1, by rintro _ ⟨⟩; exact h2⟩
    have n1 : ∀ t : ℝ, 0 ≤ t → ¬ Spec.Violates (some (some 0, none)) t := by
      intro t h1
      rw [not_violates]
      exact ⟨by rintro _ ⟨⟩; exact h1, by simp⟩
    intro x hx
    rw [hM]
    simp only [List.mem_cons, List.not_mem_nil, or_false] at hx
    simp only [Matrix.one_apply_eq, Real.sqrt_one]
    rcases hx with rfl | rfl
    · refine ⟨0, ?_, ?_⟩
      · intro i hi t ht
        have : i = 1 := by omega
        subst this
        have ht : |t - 3| ≤ 1 := ht
        rw [abs_le] at ht
        exact n1 t (by linarith)
      · intro t ht
        have ht : |t - 1 / 2| ≤ 1 := ht
        rw [abs_le] at ht
        by_cases h0 : 0 ≤ t
        · exact Or.inl (n0 t h0 (by linarith))
        · refine Or.inr ⟨0, by simp [Spec.bounds], n0 _ (by linarith) (by linarith)⟩
    · refine ⟨1, ?_, ?_⟩
      · intro i hi t ht
        have : i = 0 := by omega
        subst this
        have ht : |t - 5| ≤ 1 := ht
        rw [abs_le] at ht
        exact n0 t (by linarith) (by linarith)
      · intro t ht
        have ht : |t - 1 / 3| ≤ 1 := ht
        rw [abs_le] at ht
        by_cases h0 : 0 ≤ t
        · exact Or.inl (n1 t h0)
        · refine Or.inr ⟨0, by simp [Spec.bounds], n1 _ (by linarith)⟩

end Kalepy
