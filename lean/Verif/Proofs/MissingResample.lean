import Verif.Model.MissingResample
import Verif.Proofs.Missing
import Verif.Proofs.Np

/-!
# Lemmas on resampling data with missing values
-/

namespace Kalepy

open Matrix

variable {d : ℕ}

lemma listSeq_rel {α β γ : Type*} {f : α → Res β} {g : α → Res γ} {P : α → β → γ → Prop} {l : List α}
    (h : ∀ a ∈ l, (∃ e, f a = .error e ∧ g a = .error e) ∨ ∃ x y, f a = .ok x ∧ g a = .ok y ∧ P a x y) :
    (∃ e, listSeq f l = .error e ∧ listSeq g l = .error e) ∨ ∃ xs ys, listSeq f l = .ok xs ∧ listSeq g l = .ok ys ∧
      xs.length = l.length ∧ ys.length = l.length ∧
      ∀ n (h0 : n < l.length) (h1 : n < xs.length) (h2 : n < ys.length), P l[n] xs[n] ys[n] := by
  induction l with
  | nil => exact Or.inr ⟨[], [], rfl, rfl, rfl, rfl, by simp⟩
  | cons a l ih =>
    rcases h a (by simp) with ⟨e, h1, h2⟩ | ⟨x, y, h1, h2, hP⟩
    · exact Or.inl ⟨e, by simp [listSeq, h1], by simp [listSeq, h2]⟩
    · rcases ih fun b hb => h b (by simp [hb]) with ⟨e, h3, h4⟩ | ⟨xs, ys, h3, h4, l1, l2, hall⟩
      · exact Or.inl ⟨e, by simp [listSeq, h1, h3], by simp [listSeq, h2, h4]⟩
      · refine Or.inr ⟨x :: xs, y :: ys, by simp [listSeq, h1, h3], by simp [listSeq, h2, h4], by simp [l1], by simp [l2], ?_⟩
        rintro (_ | n) h0 h1 h2
        · exact hP
        · exact hall n (by simpa using h0) (by simpa using h1) (by simpa using h2)

/-- The samples of incomplete data are those of data with any numbers filled in, except for NaN in place of the
missing values of the chosen point. -/
lemma resampleClearN_fill {D : Dist} {data : List (Fin d → Num)} {data' : List (Fin d → ℝ)}
    (hF : List.Forall₂ (fun x y => ∀ i v, x i = some v → y i = v) data data') (size : ℕ) (w : Option (List ℝ))
    (M : Matrix (Fin d) (Fin d) ℝ) (keep : KeepArg) (rnd : ℕ → Draw d) :
    (∃ e, resampleClearN D data size w (Matrix.of fun i j => some (M i j)) keep rnd = .error e ∧
      resampleClear D data' size w M keep rnd = .error e) ∨
    ∃ l l', resampleClearN D data size w (Matrix.of fun i j => some (M i j)) keep rnd = .ok l ∧
      resampleClear D data' size w M keep rnd = .ok l' ∧ l.length = size ∧ l'.length = size ∧
      ∀ n (h : n < l.length) (h' : n < l'.length), ∃ x, data[choiceIndex data.length w (rnd n).pick]? = some x ∧
        ∀ i, l[n] i = if x i = none then none else some (l'[n] i) := by
  have hlen := hF.length_eq
  have hrel := listSeq_rel (f := fun n => choiceDatumN data w (rnd n).pick)
    (g := fun n => choiceDatum data' w (rnd n).pick) (l := List.range size)
    (P := fun n x y => data[choiceIndex data.length w (rnd n).pick]? = some x ∧ ∀ i v, x i = some v → y i = v)
    (by
      intro n _
      simp only [choiceDatumN, choiceDatum, ← hlen]
      generalize choiceIndex data.length w (rnd n).pick = j
      by_cases hj : j < data.length
      · right
        have hj' : j < data'.length := hlen ▸ hj
        rw [List.getElem?_eq_getElem hj, List.getElem?_eq_getElem hj']
        exact ⟨_, _, rfl, rfl, rfl, (List.forall₂_iff_get.mp hF).2 j hj hj'⟩
      · left
        rw [List.getElem?_eq_none (not_lt.mp hj), List.getElem?_eq_none (hlen ▸ not_lt.mp hj)]
        exact ⟨_, rfl, rfl⟩)
  unfold resampleClearN resampleClear
  rw [completeMatrix_some]
  cases hno : listSeq (fun n => D.sample (rnd n)) (List.range size) with
  | error e => exact Or.inl ⟨e, rfl, rfl⟩
  | ok noise =>
    have hnl : noise.length = size := by simpa using listSeq_length hno
    simp only
    cases hadd : addCov noise M with
    | error e => exact Or.inl ⟨e, rfl, rfl⟩
    | ok noise' =>
      have hnl' : noise'.length = size := by
        unfold addCov at hadd
        split at hadd
        · cases hadd
        · cases hadd; simpa using hnl
      simp only
      cases hkeep : keepDims d keep with
      | error e => exact Or.inl ⟨e, rfl, rfl⟩
      | ok ps =>
        simp only [← hlen]
        by_cases hch : choiceOk data.length size w = true
        · rw [if_pos hch, if_pos hch]
          rcases hrel with ⟨e, h1, h2⟩ | ⟨xs, ys, h1, h2, l1, l2, hall⟩
          · rw [h1, h2]; exact Or.inl ⟨e, rfl, rfl⟩
          · rw [h1, h2]
            simp only [List.length_range] at l1 l2
            refine Or.inr ⟨_, _, rfl, rfl, by simp [l1, hnl'], by simp [l2, hnl'], ?_⟩
            intro n h h'
            simp only [List.length_zipWith] at h h'
            obtain ⟨e1, e2⟩ := hall n (by simp; omega) (by omega) (by omega)
            simp only [List.getElem_range] at e1
            refine ⟨_, e1, fun i => ?_⟩
            simp only [List.getElem_zipWith]
            cases hx : xs[n] i with
            | none => simp
            | some v =>
              have := e2 i v hx
              simp [this]
        · rw [if_neg hch, if_neg hch]; exact Or.inl ⟨_, rfl, rfl⟩

/-- On complete data, samples are numbers. -/
lemma resampleClearN_lift (D : Dist) (data : List (Fin d → ℝ)) (size : ℕ) (w : Option (List ℝ))
    (M : Matrix (Fin d) (Fin d) ℝ) (keep : KeepArg) (rnd : ℕ → Draw d) :
    resampleClearN D (data.map liftCol) size w (Matrix.of fun i j => some (M i j)) keep rnd =
      (resampleClear D data size w M keep rnd).map fun l => l.map liftCol := by
  rcases resampleClearN_fill (D := D) (data := data.map liftCol) (data' := data) (by
    rw [List.forall₂_map_left_iff, List.forall₂_same]
    intro x _ i v h
    exact Option.some.inj h) size w M keep rnd with ⟨e, h1, h2⟩ | ⟨l, l', h1, h2, l1, l2, hall⟩
  · rw [h1, h2]; rfl
  · rw [h1, h2]
    refine congrArg Except.ok ?_
    apply List.ext_getElem (by simp [l1, l2])
    intro n h h'
    obtain ⟨x, hx, hi⟩ := hall n h (by simpa using h')
    have hmem := List.mem_of_getElem? hx
    rw [List.mem_map] at hmem
    obtain ⟨y, _, rfl⟩ := hmem
    funext i
    rw [hi i]
    simp [liftCol]

/-! ### Boundaries -/

lemma insideBoundsN_lift (rows : List ReflRow) (x : Fin d → ℝ) : insideBoundsN rows (liftCol x) = insideBounds rows x := rfl

lemma insideBoundsN_complete (rows : List ReflRow) (x : Fin d → Num) :
    insideBoundsN rows x = (completeCol x).elim false fun y => insideBounds rows y := by
  cases hx : completeCol x with
  | none =>
    obtain ⟨i, hi⟩ := completeCol_eq_none hx
    simp only [Option.elim_none]
    rw [insideBoundsN, List.all_eq_false]
    exact ⟨i, List.mem_finRange i, by simp [hi]⟩
  | some y =>
    rw [completeCol_eq_some hx]
    rfl

lemma completeRows_append (l l' : List (Fin d → Num)) : completeRows (l ++ l') = completeRows l ++ completeRows l' := by
  simp [completeRows]

lemma completeRows_mirror (i : Fin d) (data : List (Fin d → Num)) (loc : Option ℝ) :
    completeRows (mirrorDataN i data loc) = mirrorData i (completeRows data) loc := by
  cases loc with
  | none => rfl
  | some loc =>
    have : ∀ x : Fin d → Num, completeCol (Function.update x i (Num.sub (some loc) (Num.sub (x i) (some loc)))) =
        (completeCol x).map fun y => Function.update y i (loc - (y i - loc)) := by
      intro x
      cases hx : completeCol x with
      | none =>
        obtain ⟨j, hj⟩ := completeCol_eq_none hx
        unfold completeCol
        rw [if_neg]
        · rfl
        · intro h
          apply h j
          by_cases hji : j = i
          · subst hji; simp [hj]
          · rw [Function.update_of_ne hji, hj]
      | some y =>
        rw [completeCol_eq_some hx]
        have : Function.update (liftCol y) i (Num.sub (some loc) (Num.sub (liftCol y i) (some loc))) =
            liftCol (Function.update y i (loc - (y i - loc))) := by
          funext j
          by_cases hji : j = i
          · subst hji; simp [liftCol]
          · simp [liftCol, Function.update_of_ne hji]
        rw [this, completeCol_lift]
        rfl
    simp only [mirrorDataN, mirrorData, completeRows, List.filterMap_map, List.map_filterMap]
    congr 1
    funext x
    exact this x

lemma completeRows_reflectData (data : List (Fin d → Num)) (rows : List ReflRow) :
    completeRows (reflectDataN data rows) = reflectData (completeRows data) rows := by
  have h1 : ∀ (i : Fin d) (r : ReflRow), completeRows (mirrorDimN data i r) = mirrorDim (completeRows data) i r := by
    intro i r
    obtain _ | ⟨lo, hi⟩ := r
    · rfl
    · simp [mirrorDimN, mirrorDim, completeRows_append, completeRows_mirror]
  have h2 : ∀ l : List (Fin d), completeRows (l.flatMap fun i => mirrorDimN data i (rows.getD i none)) =
      l.flatMap fun i => mirrorDim (completeRows data) i (rows.getD i none) := by
    intro l
    induction l with
    | nil => rfl
    | cons i l ih => simp only [List.flatMap_cons, completeRows_append, h1, ih]
  simp only [reflectDataN, reflectData, completeRows_append, h2]

lemma filter_insideN (rows : List ReflRow) (l : List (Fin d → Num)) :
    (l.filter fun x => insideBoundsN rows x) = ((completeRows l).filter fun x => insideBounds rows x).map liftCol := by
  induction l with
  | nil => rfl
  | cons x l ih =>
    simp only [List.filter_cons, insideBoundsN_complete, completeRows, List.filterMap_cons]
    simp only [insideBoundsN_complete, completeRows] at ih
    cases hx : completeCol x with
    | none => simpa using ih
    | some y =>
      simp only [Option.elim_some, List.filter_cons]
      rw [completeCol_eq_some hx, ih]
      by_cases hy : insideBounds rows y = true <;> simp [hy]

lemma drawDataN_eq (data : List (Fin d → Num)) (rows : List ReflRow) :
    drawDataN data rows = (drawData (completeRows data) rows).map liftCol := by
  rw [drawDataN, filter_insideN, completeRows_reflectData]
  rfl

/-! ### Weights -/

lemma completeWeights_append {l l' : List (Fin d → Num)} {w w' : List ℝ} (h : l.length = w.length) :
    completeWeights (l ++ l') (w ++ w') = completeWeights l w ++ completeWeights l' w' := by
  simp [completeWeights, List.zip_append h]

lemma completeWeights_map (l : List (Fin d → Num)) (w : List ℝ) (f : ℝ → ℝ) :
    completeWeights l (w.map f) = (completeWeights l w).map f := by
  induction l generalizing w with
  | nil => simp [completeWeights]
  | cons x l ih =>
    cases w with
    | nil => simp [completeWeights]
    | cons a w =>
      have ih := ih w
      unfold completeWeights at ih ⊢
      simp only [List.map_cons, List.zip_cons_cons, List.filterMap_cons]
      cases completeCol x with
      | none => simpa using ih
      | some y => simpa using ih

lemma completeCol_isSome_mirror (i : Fin d) (loc : ℝ) (x : Fin d → Num) :
    (completeCol (Function.update x i (Num.sub (some loc) (Num.sub (x i) (some loc))))).isSome = (completeCol x).isSome := by
  have h : ∀ z : Fin d → Num, (completeCol z).isSome = true ↔ ∀ j, z j ≠ none := by
    intro z
    unfold completeCol
    by_cases hz : ∀ j, z j ≠ none
    · rw [if_pos hz]; simpa using hz
    · rw [if_neg hz]; simpa using hz
  rw [Bool.eq_iff_iff, h, h]
  refine forall_congr' fun j => ?_
  by_cases hji : j = i
  · subst hji
    cases x j <;> simp
  · rw [Function.update_of_ne hji]

lemma completeWeights_mirror (i : Fin d) (loc : ℝ) (data : List (Fin d → Num)) (w : List ℝ) :
    completeWeights (mirrorDataN i data (some loc)) w = completeWeights data w := by
  induction data generalizing w with
  | nil => rfl
  | cons x data ih =>
    cases w with
    | nil => simp [completeWeights]
    | cons a w =>
      have ih := ih w
      have hx := completeCol_isSome_mirror i loc x
      unfold completeWeights mirrorDataN at ih ⊢
      simp only [List.map_cons, List.zip_cons_cons, List.filterMap_cons]
      cases h1 : completeCol x with
      | none =>
        rw [h1, Option.isSome_none] at hx
        rw [Option.isSome_eq_false_iff, Option.isNone_iff_eq_none] at hx
        rw [hx]
        simpa using ih
      | some y =>
        rw [h1, Option.isSome_some, Option.isSome_iff_exists] at hx
        obtain ⟨z, hz⟩ := hx
        rw [hz]
        simpa using ih

lemma completeWeights_reflectData (data : List (Fin d → Num)) (rows : List ReflRow) (w : List ℝ)
    (hw : w.length = data.length) :
    completeWeights (reflectDataN data rows) (w ++ (List.replicate (numMirrors (d := d) rows) w).flatten) =
      completeWeights data w ++ (List.replicate (numMirrors (d := d) rows) (completeWeights data w)).flatten := by
  rw [reflectDataN, completeWeights_append hw.symm]
  congr 1
  unfold numMirrors
  have hlen : ∀ (i : Fin d) (loc : ℝ), (mirrorDataN i data (some loc)).length = w.length := by
    intro i loc; simp [mirrorDataN, hw]
  have : ∀ L : List (Fin d), completeWeights (L.flatMap fun i => mirrorDimN data i (rows.getD i none))
      (List.replicate ((L.map fun i : Fin d => match rows.getD i none with
        | none => 0
        | some (lo, hi) => (if lo.isSome then 1 else 0) + (if hi.isSome then 1 else 0)).sum) w).flatten =
      (List.replicate ((L.map fun i : Fin d => match rows.getD i none with
        | none => 0
        | some (lo, hi) => (if lo.isSome then 1 else 0) + (if hi.isSome then 1 else 0)).sum) (completeWeights data w)).flatten := by
    intro L
    induction L with
    | nil => rfl
    | cons i L ih =>
      simp only [List.flatMap_cons, List.map_cons, List.sum_cons]
      cases hr : rows.getD i none with
      | none =>
        simp only [mirrorDimN, List.nil_append, zero_add]
        exact ih
      | some p =>
        obtain ⟨lo, hi⟩ := p
        simp only [List.replicate_add, List.flatten_append]
        rw [completeWeights_append, ih]
        · congr 1
          simp only [mirrorDimN]
          cases lo <;> cases hi
          · simp [mirrorDataN, completeWeights]
          · simp only [Option.isSome_none, Option.isSome_some, if_true]
            simp [mirrorDataN.eq_1, completeWeights_mirror]
          · simp only [Option.isSome_none, Option.isSome_some, if_true]
            simp [mirrorDataN.eq_1, completeWeights_mirror]
          · simp only [Option.isSome_some, if_true, List.replicate_one, List.flatten_singleton]
            rw [completeWeights_append (hlen _ _), completeWeights_mirror, completeWeights_mirror]
        · simp only [mirrorDimN]
          cases lo <;> cases hi <;> simp [mirrorDataN, hw]
  exact this _

lemma keptWeights (rows : List ReflRow) (l : List (Fin d → Num)) (w : List ℝ) :
    ((l.zip w).filter fun p => insideBoundsN rows p.1).map Prod.snd =
      (((completeRows l).zip (completeWeights l w)).filter fun p => insideBounds rows p.1).map Prod.snd := by
  induction l generalizing w with
  | nil => rfl
  | cons x l ih =>
    cases w with
    | nil => simp [completeWeights]
    | cons a w =>
      have ih := ih w
      unfold completeWeights completeRows at ih ⊢
      simp only [List.zip_cons_cons, List.filterMap_cons, List.filter_cons]
      rw [insideBoundsN_complete]
      cases hx : completeCol x with
      | none => simpa using ih
      | some y =>
        simp only [Option.elim_some, Option.map_some, List.zip_cons_cons, List.filter_cons]
        by_cases hy : insideBounds rows y = true <;> simp [hy, ih]

lemma kept_map {α : Type*} (p : α → Bool) (l : List α) (w : List ℝ) (f : ℝ → ℝ) :
    ((l.zip (w.map f)).filter fun q => p q.1).map Prod.snd = (((l.zip w).filter fun q => p q.1).map Prod.snd).map f := by
  induction l generalizing w with
  | nil => rfl
  | cons x l ih =>
    cases w with
    | nil => rfl
    | cons a w =>
      simp only [List.map_cons, List.zip_cons_cons, List.filter_cons]
      by_cases hx : p x = true <;> simp [hx, ih w]

lemma normalise_twice (l : List ℝ) {S : ℝ} (hS : S ≠ 0) :
    (l.map (· / S)).map (· / (l.map (· / S)).sum) = l.map (· / l.sum) := by
  have : (l.map (· / S)).sum = l.sum / S := by
    simp only [div_eq_mul_inv]
    rw [List.sum_map_mul_right]
    simp
  rw [this, List.map_map]
  refine List.map_congr_left fun x _ => ?_
  simp only [Function.comp_apply]
  rw [div_div_div_cancel_right₀ hS]

lemma sum_copies (w : List ℝ) (m : ℕ) : (w ++ (List.replicate m w).flatten).sum = (m + 1) * w.sum := by
  rw [List.sum_append]
  induction m with
  | zero => simp
  | succ m ih =>
    rw [List.replicate_succ, List.flatten_cons, List.sum_append]
    push_cast
    linarith

lemma drawWeightsN_eq (data : List (Fin d → Num)) (rows : List ReflRow) (w : Option (List ℝ))
    (hw : ∀ l, w = some l → l.length = data.length ∧ (∀ x ∈ l, 0 ≤ x) ∧ 0 < l.sum) :
    drawWeightsN data w rows = drawWeights (completeRows data) (w.map (completeWeights data)) rows := by
  cases w with
  | none => rfl
  | some w =>
    obtain ⟨hl, h0, hs⟩ := hw w rfl
    simp only [drawWeightsN, drawWeights, Option.map_some, truncateWeights, reflectWeights]
    refine congrArg some ?_
    have hS : (w ++ (List.replicate (numMirrors (d := d) rows) w).flatten).sum ≠ 0 := by
      rw [sum_copies]
      positivity
    rw [keptWeights, completeWeights_map, completeWeights_reflectData _ _ _ hl, completeRows_reflectData, kept_map, kept_map,
      normalise_twice _ hS]
    by_cases hS' : (completeWeights data w ++
        (List.replicate (numMirrors (d := d) rows) (completeWeights data w)).flatten).sum = 0
    · have hz : ∀ x ∈ (completeWeights data w ++
          (List.replicate (numMirrors (d := d) rows) (completeWeights data w)).flatten), x = 0 := by
        have hnn : ∀ x ∈ (completeWeights data w ++
            (List.replicate (numMirrors (d := d) rows) (completeWeights data w)).flatten), 0 ≤ x := by
          have : ∀ x ∈ completeWeights data w, 0 ≤ x := by
            intro x hx
            unfold completeWeights at hx
            rw [List.mem_filterMap] at hx
            obtain ⟨p, hp, hpx⟩ := hx
            cases hc : completeCol p.1 with
            | none => rw [hc] at hpx; cases hpx
            | some y =>
              rw [hc] at hpx
              obtain rfl : p.2 = x := by simpa using hpx
              exact h0 _ (List.of_mem_zip hp).2
          intro x hx
          rw [List.mem_append, List.mem_flatten] at hx
          rcases hx with hx | ⟨l, hl, hx⟩
          · exact this x hx
          · rw [List.eq_of_mem_replicate hl] at hx
            exact this x hx
        exact fun x hx => le_antisymm (by rw [← hS']; exact List.single_le_sum hnn x hx) (hnn x hx)
      have hk : ∀ x ∈ (((reflectData (completeRows data) rows).zip (completeWeights data w ++
          (List.replicate (numMirrors (d := d) rows) (completeWeights data w)).flatten)).filter
            fun q => insideBounds rows q.1).map Prod.snd, x = 0 := by
        intro x hx
        rw [List.mem_map] at hx
        obtain ⟨p, hp, rfl⟩ := hx
        exact hz _ (List.of_mem_zip (List.mem_of_mem_filter hp)).2
      revert hk
      generalize (((reflectData (completeRows data) rows).zip (completeWeights data w ++
          (List.replicate (numMirrors (d := d) rows) (completeWeights data w)).flatten)).filter
            fun q => insideBounds rows q.1).map Prod.snd = kept
      intro hk
      rw [List.map_map]
      refine List.map_congr_left fun x hx => ?_
      simp [hk x hx]
    · rw [normalise_twice _ hS']

end Kalepy
