import Verif.Model.GridArgs
import Verif.Props.Sample

/-!
# C140, C141: the arguments of the grid sampler
-/

namespace Kalepy

variable {d : ℕ}

/-! ## C140: lists and arrays -/

namespace Spec

/-- All arguments are arrays of floats. -/
def floatArrays : GridForms := ⟨.array .float, .array .float, .array .float, .array .float, .array .float⟩

end Spec

lemma initForms_eq (srt : List ℝ → List ℕ) (f : GridForms) (edges : List (List ℝ)) (dens : NDArr d ℝ)
    (mass sd sm : Option (NDArr d ℝ)) (h : ¬ (f.mass = .list ∧ mass ≠ none)) :
    SampleGrid.initForms srt f edges dens mass sd sm = SampleGrid.init srt edges dens mass sd sm := by
  unfold SampleGrid.initForms SampleGrid.init
  cases initMasses edges dens mass sd sm with
  | error e => rfl
  | ok p =>
    obtain ⟨m, s⟩ := p
    change (if f.mass = .list ∧ mass ≠ none then _ else _) = (dataToCumulative srt m.flat >>= _)
    rw [if_neg h]
    cases dataToCumulative srt m.flat with
    | error e => rfl
    | ok q => rfl

lemma initForms_list (srt : List ℝ → List ℕ) (f : GridForms) (edges : List (List ℝ)) (dens : NDArr d ℝ)
    (mass sd sm : Option (NDArr d ℝ)) (h : f.mass = .list ∧ mass ≠ none) :
    ∃ e, SampleGrid.initForms srt f edges dens mass sd sm = .error e ∧
      ∀ g, SampleGrid.init srt edges dens mass sd sm = .ok g → e = .attributeError := by
  unfold SampleGrid.initForms SampleGrid.init
  cases initMasses edges dens mass sd sm with
  | error e => exact ⟨e, rfl, fun g hg => by cases hg⟩
  | ok p =>
    obtain ⟨m, s⟩ := p
    exact ⟨_, if_pos h, fun _ _ => rfl⟩

/-- With arrays of floats the call is `Sample_Grid(...).sample(...)` of the rest of the model. -/
theorem C140_arrays (srt : List ℝ → List ℕ) (edges : List (List ℝ)) (dens : NDArr d ℝ)
    (mass scalarDens scalarMass : Option (NDArr d ℝ)) (r : Rand d) (nsamp : Option ℝ) (interp : Bool) (rs : Option Bool)
    (out : List ((Fin d → ℝ) × Option ℝ)) :
    sampleForms srt Spec.floatArrays edges dens mass scalarDens scalarMass r nsamp interp rs = .ok out ↔
      ∃ g, SampleGrid.init srt edges dens mass scalarDens scalarMass = .ok g ∧ g.sample r nsamp interp rs = .ok out := by
  unfold sampleForms
  rw [initForms_eq _ _ _ _ _ _ _ (by simp [Spec.floatArrays])]
  cases hg : SampleGrid.init srt edges dens mass scalarDens scalarMass with
  | error e => simp
  | ok g =>
    have : g.sampleForms Spec.floatArrays scalarMass.isSome r nsamp interp rs = .ok out ↔
        g.sample r nsamp interp rs = .ok out := by
      unfold SampleGrid.sampleForms
      simp only [Spec.floatArrays, reduceCtorEq, and_false, if_false]
      constructor
      · intro h
        by_cases hn : pyInt (nsamp.getD g.mass.sum) < 0
        · rw [if_pos hn] at h; cases h
        rw [if_neg hn] at h
        cases hs : g.sample r nsamp interp rs with
        | error e => rw [hs] at h; cases h
        | ok o => rw [hs] at h; simpa using h
      · intro h
        have := (sample_inv h).2.1
        rw [if_neg (by omega), h]
        simp
    simp [this]

/-- **C140, full claim.** The arguments of `Sample_Grid` are array-like: it does not matter whether they are given as lists
or as arrays, and of which type the elements of the arrays are. -/
def C140_Claim : Prop :=
  ∀ (d : ℕ) (srt : List ℝ → List ℕ), (∀ l, IsArgsort (srt l) l) →
    ∀ (f f' : GridForms) (edges : List (List ℝ)) (dens : NDArr d ℝ) (mass scalarDens scalarMass : Option (NDArr d ℝ))
      (r : Rand d) (nsamp : Option ℝ) (interp : Bool) (rs : Option Bool),
      sampleForms srt f edges dens mass scalarDens scalarMass r nsamp interp rs
        = sampleForms srt f' edges dens mass scalarDens scalarMass r nsamp interp rs

/-- **C140.** Exactly which forms matter.  If the call succeeds with arrays of floats, then it gives the same samples with
all other forms, except that
* masses given as a list raise `AttributeError` when the sampler is made, and
* scalar masses that are used raise `TypeError` when samples are drawn, if they are a list, or if they are an array of
  integers and the samples are interpolated. -/
theorem C140_exact {srt : List ℝ → List ℕ} (f : GridForms) {edges : List (List ℝ)} {dens : NDArr d ℝ}
    {mass scalarDens scalarMass : Option (NDArr d ℝ)} {r : Rand d} {nsamp : Option ℝ} {interp : Bool} {rs : Option Bool}
    {out : List ((Fin d → ℝ) × Option ℝ)}
    (h : sampleForms srt Spec.floatArrays edges dens mass scalarDens scalarMass r nsamp interp rs = .ok out) :
    (mass ≠ none ∧ f.mass = .list →
      SampleGrid.initForms srt f edges dens mass scalarDens scalarMass = .error .attributeError ∧
      sampleForms srt f edges dens mass scalarDens scalarMass r nsamp interp rs = .error .attributeError) ∧
    (¬ (mass ≠ none ∧ f.mass = .list) →
      (scalarMass ≠ none ∧ scalarDens ≠ none ∧ rs ≠ some false ∧
        (f.scalarMass = .list ∨ interp = true ∧ f.scalarMass = .array .int) →
        (∃ g, SampleGrid.initForms srt f edges dens mass scalarDens scalarMass = .ok g) ∧
        sampleForms srt f edges dens mass scalarDens scalarMass r nsamp interp rs = .error .typeError) ∧
      (¬ (scalarMass ≠ none ∧ scalarDens ≠ none ∧ rs ≠ some false ∧
        (f.scalarMass = .list ∨ interp = true ∧ f.scalarMass = .array .int)) →
        sampleForms srt f edges dens mass scalarDens scalarMass r nsamp interp rs = .ok out)) := by
  obtain ⟨g, hg, ho⟩ := (C140_arrays srt edges dens mass scalarDens scalarMass r nsamp interp rs out).mp h
  have hn := (sample_inv ho).2.1
  have hsd : g.scalarDens = scalarDens := (SampleGrid.init_ok hg).2.2.1
  have hsm : scalarMass.isSome = true ↔ scalarMass ≠ none := by cases scalarMass <;> simp
  refine ⟨fun hm => ?_, fun hm => ?_⟩
  · obtain ⟨e, he, h2⟩ := initForms_list srt f edges dens mass scalarDens scalarMass ⟨hm.2, hm.1⟩
    rw [h2 g hg] at he
    exact ⟨he, by rw [sampleForms, he]⟩
  · have hi := initForms_eq srt f edges dens mass scalarDens scalarMass fun hc => hm ⟨hc.2, hc.1⟩
    rw [hg] at hi
    have hS : sampleForms srt f edges dens mass scalarDens scalarMass r nsamp interp rs
        = g.sampleForms f scalarMass.isSome r nsamp interp rs := by rw [sampleForms, hi]
    rw [hS]
    unfold SampleGrid.sampleForms
    simp only [hsd, hsm, ho]
    rw [if_neg (by omega)]
    refine ⟨fun hb => ⟨⟨g, hi⟩, ?_⟩, fun hb => ?_⟩
    · obtain ⟨b1, b2, b3, b4⟩ := hb
      rcases b4 with b4 | ⟨b4, b5⟩
      · rw [if_pos ⟨⟨b1, b2, b3⟩, b4⟩]
      · rw [if_neg (by rw [b5]; simp), if_pos ⟨⟨b1, b2, b3⟩, b4, b5⟩]
    · rw [if_neg fun hc => hb ⟨hc.1.1, hc.1.2.1, hc.1.2.2, .inl hc.2⟩,
        if_neg fun hc => hb ⟨hc.1.1, hc.1.2.1, hc.1.2.2, .inr hc.2⟩]

/-- **C140, the part that holds.** Whenever a call succeeds, with whatever forms, the samples are those of the call with
arrays of floats: the forms never change the samples silently.  (Missing from the full claim: with some forms the call
raises an exception, see `C140_exact`.) -/
theorem C140_partial {srt : List ℝ → List ℕ} {f : GridForms} {edges : List (List ℝ)} {dens : NDArr d ℝ}
    {mass scalarDens scalarMass : Option (NDArr d ℝ)} {r : Rand d} {nsamp : Option ℝ} {interp : Bool} {rs : Option Bool}
    {out : List ((Fin d → ℝ) × Option ℝ)}
    (h : sampleForms srt f edges dens mass scalarDens scalarMass r nsamp interp rs = .ok out) :
    sampleForms srt Spec.floatArrays edges dens mass scalarDens scalarMass r nsamp interp rs = .ok out := by
  rw [C140_arrays]
  by_cases hm : f.mass = .list ∧ mass ≠ none
  · obtain ⟨e, he, -⟩ := initForms_list srt f edges dens mass scalarDens scalarMass hm
    rw [sampleForms, he] at h; cases h
  · have hi := initForms_eq srt f edges dens mass scalarDens scalarMass hm
    rw [sampleForms, hi] at h
    cases hg : SampleGrid.init srt edges dens mass scalarDens scalarMass with
    | error e => rw [hg] at h; cases h
    | ok g =>
      rw [hg] at h
      refine ⟨g, rfl, ?_⟩
      change g.sampleForms f scalarMass.isSome r nsamp interp rs = .ok out at h
      unfold SampleGrid.sampleForms at h
      simp only at h
      by_cases h1 : pyInt (nsamp.getD g.mass.sum) < 0
      · rw [if_pos h1] at h; cases h
      · rw [if_neg h1] at h
        by_cases h2 : (scalarMass.isSome = true ∧ g.scalarDens ≠ none ∧ rs ≠ some false) ∧ f.scalarMass = .list
        · rw [if_pos h2] at h; cases h
        · rw [if_neg h2] at h
          cases hs : g.sample r nsamp interp rs with
          | error e => rw [hs] at h; cases h
          | ok o =>
            rw [hs] at h
            change (if _ then _ else _) = _ at h
            split_ifs at h
            exact h

/-! ### a one-dimensional grid with two bins -/

/-- Densities `1, 1, 1` at the edges `0, 1, 2`. -/
def exFlat : NDArr 1 ℝ := ⟨fun _ => 3, fun _ => 1⟩
/-- Masses `x, x` of the two bins. -/
def exMass2 (x : ℝ) : NDArr 1 ℝ := ⟨fun _ => 2, fun _ => x⟩

lemma exMass2_sum (x : ℝ) : (exMass2 x).sum = 2 * x := by
  rw [sum_one]; simp [exMass2]

lemma exFlat_sum : exFlat.sum = 3 := by
  rw [sum_one]; simp [exFlat]

lemma exFlat_init {srt : List ℝ → List ℕ} (hs : ∀ l, IsArgsort (srt l) l) (sd sm : NDArr 1 ℝ) :
    ∃ idx csum, SampleGrid.init srt [[0, 1, 2]] exFlat (some (exMass2 1)) (some sd) (some sm)
        = .ok ⟨[[0, 1, 2]], exFlat, exMass2 1, some sd, some sm, idx, csum⟩ ∧
      SampleGrid.init srt [[0, 1, 2]] exFlat (some (exMass2 1)) none none
        = .ok ⟨[[0, 1, 2]], exFlat, exMass2 1, none, none, idx, csum⟩ := by
  obtain ⟨idx, csum, hc, -⟩ := dataToCumulative_ok hs (m := (exMass2 1).flat)
    (by rw [NDArr.flat_sum, exMass2_sum]; norm_num)
  have hmatch : gridChecks [[(0 : ℝ), 1, 2]] exFlat (some (exMass2 1)) :=
    ⟨⟨rfl, fun i => by fin_cases i; rfl⟩, fun m hm i => by injection hm with hm; subst hm; rfl⟩
  refine ⟨idx, csum, ?_, ?_⟩ <;>
  · unfold SampleGrid.init initMasses
    rw [if_pos hmatch]
    change (dataToCumulative srt (exMass2 1).flat >>= _) = _
    rw [hc]; rfl

/-- The middle of every bin. -/
noncomputable def exRand : Rand 1 := ⟨fun _ => 1 / 3, fun _ _ => 1 / 2⟩
lemma exRand_inRange : exRand.InRange := ⟨fun _ => by norm_num [exRand], fun _ _ => by norm_num [exRand]⟩

/-- The hypothesis of `C140_exact` is met with masses, scalar densities and scalar masses given. -/
example : ∃ (srt : List ℝ → List ℕ) (out : List ((Fin 1 → ℝ) × Option ℝ)), (∀ l, IsArgsort (srt l) l) ∧
    sampleForms srt Spec.floatArrays [[0, 1, 2]] exFlat (some (exMass2 1)) (some exFlat) (some (exMass2 5)) exRand
      (some 7) true none = .ok out ∧ out.length = 7 := by
  obtain ⟨srt, hs⟩ := exists_argsort
  obtain ⟨idx, csum, hg, -⟩ := exFlat_init hs exFlat (exMass2 5)
  have hpos : 0 < (exMass2 1).sum := by rw [exMass2_sum]; norm_num
  obtain ⟨out, ho, hl, -⟩ := sample_spec _ (SampleGrid.init_cum hs hg hpos) (fun i => rfl) (fun _ _ => zero_le_one) hpos
    exRand exRand_inRange (some 7) true none (fun sd sm h => by
      simp only [useScalars, reduceCtorEq, if_false, Option.some.injEq, Prod.mk.injEq] at h
      obtain ⟨rfl, rfl⟩ := h; exact ⟨rfl, rfl⟩) (fun _ => by rw [exFlat_sum]; norm_num)
    (by rw [pyInt_of_nonneg (by norm_num)]; positivity)
  exact ⟨srt, out, hs, (C140_arrays ..).mpr ⟨_, hg, ho⟩, by rw [hl, toNat_pyInt (by norm_num)]; norm_num⟩

/-- **C140 fails**: the masses `[1, 1]` of a grid with two bins are refused as a list and accepted as an array. -/
theorem C140_refuted : ¬ C140_Claim := by
  intro hC
  obtain ⟨srt, hs⟩ := exists_argsort
  obtain ⟨idx, csum, -, hg⟩ := exFlat_init hs exFlat exFlat
  have hpos : 0 < (exMass2 1).sum := by rw [exMass2_sum]; norm_num
  obtain ⟨out, ho, -⟩ := sample_spec _ (SampleGrid.init_cum hs hg hpos) (fun i => rfl) (fun _ _ => zero_le_one) hpos
    exRand exRand_inRange (some 7) true none (fun sd sm h => by cases h) (fun _ => by rw [exFlat_sum]; norm_num)
    (by rw [pyInt_of_nonneg (by norm_num)]; positivity)
  have h1 := (C140_arrays srt [[0, 1, 2]] exFlat (some (exMass2 1)) none none exRand (some 7) true none out).mpr
    ⟨_, hg, ho⟩
  have h2 := ((C140_exact (f := ⟨.list, .list, .list, .list, .list⟩) h1).1 ⟨by simp, rfl⟩).2
  have h3 := hC 1 srt hs Spec.floatArrays ⟨.list, .list, .list, .list, .list⟩ [[0, 1, 2]] exFlat (some (exMass2 1)) none
    none exRand (some 7) true none
  rw [h1, h2] at h3
  cases h3

/-! ## C141: what a sampler shares with its caller -/

namespace Spec

/-- The assignment changes an array that was passed as (one of) the edges, densities or scalars. -/
def GridWriteHits (a : GridArgs d) : GridWrite d → Prop
  | .vec x _ => VecArg.array x ∈ a.edges
  | .arr x _ => a.dens = .array x ∨ a.scalarDens = some x ∨ a.scalarMass = some x

/-- The assignment changes the array that was passed as the masses. -/
def GridWriteHitsMass (a : GridArgs d) : GridWrite d → Prop
  | .vec _ _ => False
  | .arr x _ => a.mass = some x

end Spec

lemma GridArgs.build_ok {srt : List ℝ → List ℕ} {m : GridMem d} {a : GridArgs d} {o : GridObj d}
    (h : a.build srt m = .ok o) : a.init srt m = .ok o.core ∧ o.args = a := by
  unfold GridArgs.build at h
  cases hg : a.init srt m with
  | error e => rw [hg] at h; cases h
  | ok g => rw [hg] at h; cases h; exact ⟨rfl, rfl⟩

lemma writes_vecs {P : ℕ → Prop} {ws : List (GridWrite d)} (m : GridMem d)
    (h : ∀ w ∈ ws, ∀ x v, w = .vec x v → ¬ P x) : ∀ x, P x → (m.writes ws).vecs x = m.vecs x := by
  induction ws generalizing m with
  | nil => intro x _; rfl
  | cons w ws ih =>
    intro x hx
    change ((w.run m).writes ws).vecs x = _
    rw [ih (w.run m) (fun w' hw' => h w' (List.mem_cons_of_mem _ hw')) x hx]
    cases w with
    | vec y v =>
      have hy : x ≠ y := fun e => h _ List.mem_cons_self y v rfl (e ▸ hx)
      simp only [GridWrite.run]
      split
      · exact Function.update_of_ne hy _ _
      · rfl
    | arr y b =>
      simp only [GridWrite.run]
      split <;> rfl

lemma writes_arrs {P : ℕ → Prop} {ws : List (GridWrite d)} (m : GridMem d)
    (h : ∀ w ∈ ws, ∀ x v, w = .arr x v → ¬ P x) : ∀ x, P x → (m.writes ws).arrs x = m.arrs x := by
  induction ws generalizing m with
  | nil => intro x _; rfl
  | cons w ws ih =>
    intro x hx
    change ((w.run m).writes ws).arrs x = _
    rw [ih (w.run m) (fun w' hw' => h w' (List.mem_cons_of_mem _ hw')) x hx]
    cases w with
    | arr y v =>
      have hy : x ≠ y := fun e => h _ List.mem_cons_self y v rfl (e ▸ hx)
      simp only [GridWrite.run]
      split
      · exact Function.update_of_ne hy _ _
      · rfl
    | vec y b =>
      simp only [GridWrite.run]
      split <;> rfl

lemma writes_shape (ws : List (GridWrite d)) (m : GridMem d) (x : ℕ) :
    ((m.writes ws).vecs x).length = (m.vecs x).length ∧ ((m.writes ws).arrs x).shape = (m.arrs x).shape := by
  induction ws generalizing m with
  | nil => exact ⟨rfl, rfl⟩
  | cons w ws ih =>
    change (((w.run m).writes ws).vecs x).length = _ ∧ (((w.run m).writes ws).arrs x).shape = _
    rw [(ih _).1, (ih _).2]
    cases w with
    | vec y v =>
      simp only [GridWrite.run]
      split
      · rename_i hl
        by_cases e : x = y
        · subst e; simp [hl]
        · simp [Function.update_of_ne e]
      · exact ⟨rfl, rfl⟩
    | arr y v =>
      simp only [GridWrite.run]
      split
      · rename_i hl
        by_cases e : x = y
        · subst e; simp [hl]
        · simp [Function.update_of_ne e]
      · exact ⟨rfl, rfl⟩

/-- Right after it is made, the object is what the constructor computed. -/
theorem C141_initial {srt : List ℝ → List ℕ} {m : GridMem d} {a : GridArgs d} {o : GridObj d}
    (h : a.build srt m = .ok o) : o.view m = o.core := by
  obtain ⟨hg, rfl⟩ := GridArgs.build_ok h
  obtain ⟨e1, e2, e3, e4, -⟩ := SampleGrid.init_ok hg
  obtain ⟨-, -, f3, -, f5, -⟩ := initMasses_ok e4
  obtain ⟨⟨E, D, M, sd, sm, idx, csum⟩, args⟩ := o
  simp only at e1 e2 e3 f3 f5
  unfold GridObj.view
  simp only [SampleGrid.mk.injEq, and_true]
  refine ⟨e1.symm, e2.symm, ?_, e3.symm, ?_⟩
  · cases hm : args.mass with
    | none => rfl
    | some x =>
      rw [hm] at f3
      rcases f3 with f3 | f3
      · simpa using f3
      · simp at f3
  · cases hm : args.scalarMass with
    | none => rfl
    | some x =>
      rw [hm] at f5
      exact (f5 _ rfl).symm

lemma view_eq_of {o : GridObj d} {m m' : GridMem d} (he : ∀ x, VecArg.array x ∈ o.args.edges → m'.vecs x = m.vecs x)
    (ha : ∀ x, (o.args.dens = .array x ∨ o.args.scalarDens = some x ∨ o.args.scalarMass = some x) →
      m'.arrs x = m.arrs x) :
    o.view m' = { o.view m with mass := (o.view m').mass } := by
  unfold GridObj.view
  simp only [SampleGrid.mk.injEq, and_true, true_and]
  refine ⟨List.map_congr_left fun v hv => ?_, ?_, ?_, ?_⟩
  · cases v with
    | list l => rfl
    | array x => exact he x hv
  · cases hd : o.args.dens with
    | list l => rfl
    | array x => exact ha x (.inl hd)
  · cases hd : o.args.scalarDens with
    | none => rfl
    | some x => simp [ha x (.inr (.inl hd))]
  · cases hd : o.args.scalarMass with
    | none => rfl
    | some x => simp [ha x (.inr (.inr hd))]

/-- **C141, full claim.** A sampler is a snapshot of its arguments: whatever the caller later assigns to the elements of
arrays, `sample` returns what it would have returned before (for the same random values). -/
def C141_Claim : Prop :=
  ∀ (d : ℕ) (srt : List ℝ → List ℕ), (∀ l, IsArgsort (srt l) l) →
    ∀ (m : GridMem d) (a : GridArgs d) (o : GridObj d), a.build srt m = .ok o →
    ∀ (ws : List (GridWrite d)) (r : Rand d) (nsamp : Option ℝ) (interp : Bool) (rs : Option Bool),
      (o.view (m.writes ws)).sample r nsamp interp rs = (o.view m).sample r nsamp interp rs

/-- **C141, the part that holds.** Assignments to arrays that were not passed to the sampler change nothing.  (Missing from
the full claim: assignments to arrays that were passed, see `C141_refuted`, `C141_mass` and `C141_bins`.) -/
theorem C141_partial {srt : List ℝ → List ℕ} {m : GridMem d} {a : GridArgs d} {o : GridObj d}
    (h : a.build srt m = .ok o) {ws : List (GridWrite d)}
    (hw : ∀ w ∈ ws, ¬ Spec.GridWriteHits a w ∧ ¬ Spec.GridWriteHitsMass a w)
    (r : Rand d) (nsamp : Option ℝ) (interp : Bool) (rs : Option Bool) :
    (o.view (m.writes ws)).sample r nsamp interp rs = (o.view m).sample r nsamp interp rs := by
  obtain ⟨-, rfl⟩ := GridArgs.build_ok h
  have he := writes_vecs (P := fun x => VecArg.array x ∈ o.args.edges) (ws := ws) m
    fun w hw' x v e hx => (hw w hw').1 (by subst e; exact hx)
  have ha := writes_arrs (P := fun x => o.args.dens = .array x ∨ o.args.scalarDens = some x ∨ o.args.scalarMass = some x)
    (ws := ws) m fun w hw' x v e hx => (hw w hw').1 (by subst e; exact hx)
  have hm := writes_arrs (P := fun x => o.args.mass = some x) (ws := ws) m
    fun w hw' x v e hx => (hw w hw').2 (by subst e; exact hx)
  have hmass : (o.view (m.writes ws)).mass = (o.view m).mass := by
    unfold GridObj.view
    simp only
    cases hx : o.args.mass with
    | none => rfl
    | some x => exact hm x hx
  rw [view_eq_of he ha, hmass]

/-- **C141.** A sampler made from lists only, with masses computed by itself, is a snapshot. -/
theorem C141_lists {srt : List ℝ → List ℕ} {m : GridMem d} {E : List (List ℝ)} {D : NDArr d ℝ} {o : GridObj d}
    (h : GridArgs.build srt m { edges := E.map .list, dens := .list D } = .ok o) (ws : List (GridWrite d))
    (r : Rand d) (nsamp : Option ℝ) (interp : Bool) (rs : Option Bool) :
    (o.view (m.writes ws)).sample r nsamp interp rs = (o.view m).sample r nsamp interp rs :=
  C141_partial h (fun w _ => by
    cases w <;> simp [Spec.GridWriteHits, Spec.GridWriteHitsMass]) r nsamp interp rs

/-- **C141.** Assignments to the masses change the default number of samples, and nothing else: with a given number of
samples the result is the same, and without one it is that of the given number `mass.sum()`, for the current masses. -/
theorem C141_mass {srt : List ℝ → List ℕ} {m : GridMem d} {a : GridArgs d} {o : GridObj d}
    (h : a.build srt m = .ok o) {ws : List (GridWrite d)} (hw : ∀ w ∈ ws, ¬ Spec.GridWriteHits a w)
    (r : Rand d) (interp : Bool) (rs : Option Bool) :
    (∀ n : ℝ, (o.view (m.writes ws)).sample r (some n) interp rs = (o.view m).sample r (some n) interp rs) ∧
    ∀ x, a.mass = some x → (o.view (m.writes ws)).sample r none interp rs
      = (o.view m).sample r (some ((m.writes ws).arrs x).sum) interp rs := by
  obtain ⟨-, rfl⟩ := GridArgs.build_ok h
  have he := writes_vecs (P := fun x => VecArg.array x ∈ o.args.edges) (ws := ws) m
    fun w hw' x v e hx => (hw w hw') (by subst e; exact hx)
  have ha := writes_arrs (P := fun x => o.args.dens = .array x ∨ o.args.scalarDens = some x ∨ o.args.scalarMass = some x)
    (ws := ws) m fun w hw' x v e hx => (hw w hw') (by subst e; exact hx)
  refine ⟨fun n => ?_, fun x hx => ?_⟩
  · rw [view_eq_of he ha]; rfl
  · have hmass : (o.view (m.writes ws)).mass = (m.writes ws).arrs x := by
      unfold GridObj.view; simp only [hx]
    rw [view_eq_of he ha, hmass]; rfl

/-- **C141.** Whatever is assigned to the arrays that were passed: for a given number of samples, each sample stays in the
same bin of the grid, one whose mass was positive when the sampler was made; only the edges of that bin have their
current values.  (Masses at that time nonnegative with positive total, edges nondecreasing before and after.) -/
theorem C141_bins {srt : List ℝ → List ℕ} (hs : ∀ l, IsArgsort (srt l) l) {m : GridMem d} {a : GridArgs d} {o : GridObj d}
    (h : a.build srt m = .ok o) (ws : List (GridWrite d))
    (hm : ∀ b, ValidIdx (o.view m).mass.shape b → 0 ≤ (o.view m).mass.get b) (ht : 0 < (o.view m).mass.sum)
    (he : ∀ e ∈ (o.view m).edges, e.Pairwise (· ≤ ·)) (he' : ∀ e ∈ (o.view (m.writes ws)).edges, e.Pairwise (· ≤ ·))
    (r : Rand d) (hr : r.InRange) {n : ℝ} (hn : 0 ≤ n) (interp : Bool)
    (hi : interp = true → (o.view m).dens.sum ≠ 0 ∧ (o.view (m.writes ws)).dens.sum ≠ 0) :
    ∃ out out', (o.view m).sample r (some n) interp (some false) = .ok out ∧
      (o.view (m.writes ws)).sample r (some n) interp (some false) = .ok out' ∧
      out.length = ⌊n⌋₊ ∧ out'.length = ⌊n⌋₊ ∧
      ∀ k (hk : k < out.length) (hk' : k < out'.length), ∃ b, (∀ i, b i + 1 < (o.view m).dens.shape i) ∧
        0 < (o.view m).mass.get b ∧ Spec.InBin (o.view m).edges b out[k].1 ∧
        Spec.InBin (o.view (m.writes ws)).edges b out'[k].1 := by
  have hv := C141_initial h
  obtain ⟨hg, hargs⟩ := GridArgs.build_ok h
  rw [hv] at hm ht he hi ⊢
  obtain ⟨e1, e2, -, e4, -⟩ := SampleGrid.init_ok hg
  obtain ⟨f1, f2, -⟩ := initMasses_ok e4
  rw [← e1, ← e2] at f1
  rw [← e2] at f2
  have hcum := SampleGrid.init_cum hs hg ht
  set g' := o.view (m.writes ws) with hg'
  have hshape : g'.dens.shape = o.core.dens.shape := by
    rw [e2, hg', ← hargs]
    change (o.args.dens.value (m.writes ws)).shape = (o.args.dens.value m).shape
    cases o.args.dens with
    | list l => rfl
    | array x => exact (writes_shape ws m x).2
  have hlen : ∀ v : VecArg, (v.value (m.writes ws)).length = (v.value m).length := by
    intro v
    cases v with
    | list l => rfl
    | array x => exact (writes_shape ws m x).1
  have f1' : EdgesMatch g'.dens.shape g'.edges := by
    rw [hshape]
    have hE : g'.edges = a.edges.map (VecArg.value (m.writes ws)) := by rw [hg', ← hargs]; rfl
    rw [hE]
    rw [e1] at f1
    refine ⟨by simpa using f1.1, fun i => ?_⟩
    have hi2 := f1.2 i
    have hil : (i : ℕ) < a.edges.length := by have := f1.1; simp at this; rw [this]; exact i.2
    rw [← hi2]
    simp [List.getD_eq_getElem?_getD, List.getElem?_map, List.getElem?_eq_getElem hil, hlen]
  have hcum' : CumOK o.core.mass.flat g'.idx g'.csum := hcum
  have hN : ∀ G : SampleGrid d, 0 ≤ pyInt ((some n).getD G.mass.sum) := fun G => by
    change 0 ≤ pyInt n
    rw [pyInt_of_nonneg hn]; positivity
  have hno : ∀ G : SampleGrid d, useScalars G (some false) = none := fun G => by
    unfold useScalars; split <;> simp
  obtain ⟨out, ho, hl, hk⟩ := sample_spec o.core hcum f2 hm ht r hr (some n) interp (some false)
    (by rw [hno]; intro _ _ h; cases h) (fun hi' => (hi hi').1) (hN _)
  obtain ⟨out', ho', hl', hk'⟩ := sample_spec g' hcum' (by rw [hshape]; exact f2) hm ht r hr (some n) interp (some false)
    (by rw [hno]; intro _ _ h; cases h) (fun hi' => (hi hi').2) (hN _)
  change out.length = (pyInt n).toNat at hl
  change out'.length = (pyInt n).toNat at hl'
  rw [toNat_pyInt hn] at hl hl'
  refine ⟨out, out', ho, ho', hl, hl', fun k hk1 hk2 => ?_⟩
  obtain ⟨u, hu, h0, h1, hx, -⟩ := hk k hk1
  obtain ⟨u', hu', -, -, hx', -⟩ := hk' k hk2
  have huu : u' = u := by
    have : some u' = some u := hu'.symm.trans hu
    injection this
  subst huu
  obtain ⟨-, -, -, -, hval, hpos⟩ := pick_spec hcum hm ht h0 h1
  have hb : ∀ i, chosenBin o.core.mass.shape o.core.idx o.core.csum u' i + 1 < o.core.dens.shape i := fun i => by
    rw [f2]; have := hval i; omega
  refine ⟨_, hb, hpos, inBin_of_pos f1 he hb (fun i => relPos_mem _ _ _ (hr.2 k i).1 (hr.2 k i).2.le) hx, ?_⟩
  exact inBin_of_pos f1' he' (by rw [hshape]; exact hb) (fun i => relPos_mem _ _ _ (hr.2 k i).1 (hr.2 k i).2.le) hx'

/-! ### an example: the masses at address 0, the edges at address 1, the densities at address 2 -/

/-- Edges `0, 1, 2`, densities `1, 1, 1`, masses `1, 1`. -/
def exGridMem : GridMem 1 := ⟨fun _ => [0, 1, 2], fun x => if x = 0 then exMass2 1 else exFlat⟩
/-- The masses are passed at address 0, the edges at address 1, the densities at address 2. -/
def exGridArgs : GridArgs 1 := { edges := [.array 1], dens := .array 2, mass := some 0 }

lemma exGrid_build {srt : List ℝ → List ℕ} (hs : ∀ l, IsArgsort (srt l) l) :
    ∃ idx csum, exGridArgs.build srt exGridMem
      = .ok ⟨⟨[[0, 1, 2]], exFlat, exMass2 1, none, none, idx, csum⟩, exGridArgs⟩ := by
  obtain ⟨idx, csum, -, hg⟩ := exFlat_init hs exFlat exFlat
  refine ⟨idx, csum, ?_⟩
  have : exGridArgs.init srt exGridMem = .ok ⟨[[0, 1, 2]], exFlat, exMass2 1, none, none, idx, csum⟩ := by
    rw [← hg]; rfl
  rw [GridArgs.build, this]

/-- **C141 fails**: after the masses `1, 1` have been changed to `3, 3`, a call without a number returns six samples
instead of two. -/
theorem C141_refuted : ¬ C141_Claim := by
  intro hC
  obtain ⟨srt, hs⟩ := exists_argsort
  obtain ⟨idx, csum, hb⟩ := exGrid_build hs
  have h1 := hC 1 srt hs _ _ _ hb [.arr 0 (exMass2 3)] exRand none false none
  have h2 := (C141_mass hb (ws := [.arr 0 (exMass2 3)]) (fun w hw => by
    simp only [List.mem_singleton] at hw; subst hw
    simp [Spec.GridWriteHits, exGridArgs]) exRand false none).2 0 rfl
  rw [h1, C141_initial hb] at h2
  have hg := (GridArgs.build_ok hb).1
  have hpos : 0 < (exMass2 1).sum := by rw [exMass2_sum]; norm_num
  have key : ∀ ns : Option ℝ, 0 ≤ ns.getD (exMass2 1).sum → ∃ out,
      SampleGrid.sample ⟨[[0, 1, 2]], exFlat, exMass2 1, none, none, idx, csum⟩ exRand ns false none = .ok out ∧
      out.length = (pyInt (ns.getD (exMass2 1).sum)).toNat := fun ns hns => by
    obtain ⟨out, ho, hl, -⟩ := sample_spec _ (SampleGrid.init_cum hs hg hpos) (fun i => rfl) (fun _ _ => zero_le_one)
      hpos exRand exRand_inRange ns false none (fun sd sm h => by cases h) (fun h => by cases h)
      (by rw [pyInt_of_nonneg hns]; positivity)
    exact ⟨out, ho, hl⟩
  have hw : ((exGridMem.writes [.arr 0 (exMass2 3)]).arrs 0) = exMass2 3 := by
    have : (exMass2 3).shape = (exGridMem.arrs 0).shape := rfl
    change ((GridWrite.run exGridMem (.arr 0 (exMass2 3))).arrs 0) = _
    simp only [GridWrite.run, if_pos this, Function.update_self]
  rw [hw, exMass2_sum] at h2
  obtain ⟨o1, ho1, hl1⟩ := key none hpos.le
  obtain ⟨o2, ho2, hl2⟩ := key (some (2 * 3)) (by norm_num)
  rw [ho1, ho2] at h2
  injection h2 with h2
  rw [h2, hl2, toNat_pyInt (by norm_num)] at hl1
  rw [toNat_pyInt (by simpa using hpos.le)] at hl1
  simp only [Option.getD_some, Option.getD_none, exMass2_sum] at hl1
  norm_num at hl1

/-- The hypotheses of `C141_bins` are met while the caller doubles the edges and changes the masses. -/
example : ∃ (srt : List ℝ → List ℕ) (o : GridObj 1), (∀ l, IsArgsort (srt l) l) ∧ exGridArgs.build srt exGridMem = .ok o ∧
    (∀ b, ValidIdx (o.view exGridMem).mass.shape b → 0 ≤ (o.view exGridMem).mass.get b) ∧
    0 < (o.view exGridMem).mass.sum ∧ (∀ e ∈ (o.view exGridMem).edges, e.Pairwise (· ≤ ·)) ∧
    (o.view (exGridMem.writes [.vec 1 [0, 2, 4], .arr 0 (exMass2 3)])).edges = [[0, 2, 4]] ∧
    (∀ e ∈ (o.view (exGridMem.writes [.vec 1 [0, 2, 4], .arr 0 (exMass2 3)])).edges, e.Pairwise (· ≤ ·)) := by
  obtain ⟨srt, hs⟩ := exists_argsort
  obtain ⟨idx, csum, hb⟩ := exGrid_build hs
  have hE : (GridObj.view (exGridMem.writes [.vec 1 [0, 2, 4], .arr 0 (exMass2 3)])
      ⟨⟨[[0, 1, 2]], exFlat, exMass2 1, none, none, idx, csum⟩, exGridArgs⟩).edges = [[0, 2, 4]] := by
    have h1 : ([0, 2, 4] : List ℝ).length = (exGridMem.vecs 1).length := rfl
    change [((GridWrite.run (GridWrite.run exGridMem (.vec 1 [0, 2, 4])) (.arr 0 (exMass2 3))).vecs 1)] = _
    simp only [GridWrite.run, if_pos h1]
    split <;> simp
  refine ⟨srt, _, hs, hb, ?_, ?_, ?_, hE, ?_⟩
  · rw [C141_initial hb]; exact fun _ _ => zero_le_one
  · rw [C141_initial hb]; show 0 < (exMass2 1).sum; rw [exMass2_sum]; norm_num
  · rw [C141_initial hb]; intro e he; simp only [List.mem_singleton] at he; subst he; norm_num
  · rw [hE]; intro e he; simp only [List.mem_singleton] at he; subst he; norm_num

end Kalepy
