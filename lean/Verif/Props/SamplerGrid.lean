import Verif.Model.SamplerGrid
import Verif.Props.GridArgs

/-!
# C177: `Sample_Grid.grid` is the grid from which samples are drawn
-/

namespace Kalepy

variable {d : ℕ}

namespace Spec

/-- `arrays` are the coordinates of the points of a grid: one array per dimension, with one element per point of the grid, whose
element at index `idx` is the coordinate `edges[i][idx[i]]`. -/
def Coordinates (edges : List (List ℝ)) (arrays : List (NDArr d ℝ)) : Prop :=
  arrays.length = d ∧ ∀ (i : Fin d) (h : (i : ℕ) < arrays.length),
    (∀ j : Fin d, (arrays[(i : ℕ)]).shape j = (edges.getD j []).length) ∧
    ∀ idx, ValidIdx (arrays[(i : ℕ)]).shape idx → (arrays[(i : ℕ)]).get idx = (edges.getD i []).getD (idx i) 0

/-- The event is an assignment to an array of edges that was passed to the sampler. -/
def AssignsEdges (a : GridArgs d) : SamplerEvent d → Prop
  | .assign (.vec x _) => VecArg.array x ∈ a.edges
  | _ => False

/-- The event is an assignment to arrays of `sampler.grid`. -/
def AssignsGrid : SamplerEvent d → Prop
  | .assignGrid _ => True
  | _ => False

/-- The assignments of the caller to arrays of its own, in order. -/
def assignments (es : List (SamplerEvent d)) : List (GridWrite d) :=
  es.filterMap fun e => match e with | .assign w => some w | _ => none

end Spec

lemma meshgridArrays_coordinates (edges : List (List ℝ)) : Spec.Coordinates edges (meshgridArrays d edges) := by
  refine ⟨by simp [meshgridArrays], fun i h => ?_⟩
  have e : (meshgridArrays d edges)[(i : ℕ)]
      = ⟨fun j => (edges.getD j []).length, fun idx => (edges.getD i []).getD (idx i) 0⟩ :=
    List.getElem_ofFn (f := fun i : Fin d =>
      (⟨fun j => (edges.getD j []).length, fun idx => (edges.getD i []).getD (idx i) 0⟩ : NDArr d ℝ)) (by simp)
  rw [e]
  exact ⟨fun j => rfl, fun idx _ => rfl⟩

lemma new_ok {srt : List ℝ → List ℕ} {m : GridMem d} {a : GridArgs d} {s : SamplerState d}
    (h : SamplerState.new srt m a = .ok s) : a.build srt m = .ok s.obj ∧ s.mem = m ∧ s.grid = none := by
  unfold SamplerState.new at h
  cases hb : a.build srt m with
  | error e => rw [hb] at h; cases h
  | ok o => rw [hb] at h; cases h; exact ⟨rfl, rfl, rfl⟩

lemma getGrid_obj (s : SamplerState d) : s.getGrid.2.obj = s.obj ∧ s.getGrid.2.mem = s.mem := by
  unfold SamplerState.getGrid
  cases s.grid <;> exact ⟨rfl, rfl⟩

/-- The object's other attributes and the caller's memory do not depend on `grid`. -/
lemma run_obj (es : List (SamplerEvent d)) (s : SamplerState d) :
    (s.run es).obj = s.obj ∧ (s.run es).mem = s.mem.writes (Spec.assignments es) := by
  induction es generalizing s with
  | nil => exact ⟨rfl, rfl⟩
  | cons e es ih =>
    obtain ⟨h1, h2⟩ := ih (s.step e)
    change ((s.step e).run es).obj = _ ∧ ((s.step e).run es).mem = _
    rw [h1, h2]
    cases e with
    | grid => exact ⟨(getGrid_obj s).1, by rw [show (s.step .grid).mem = s.mem from (getGrid_obj s).2]; rfl⟩
    | sample r n i c => exact ⟨rfl, rfl⟩
    | assign w => exact ⟨rfl, rfl⟩
    | assignGrid g => exact ⟨(getGrid_obj s).1, by rw [show (s.step (.assignGrid g)).mem = s.mem from (getGrid_obj s).2]; rfl⟩

/-- **C177.** Looking at `grid`, and whatever is assigned to the arrays that it returns, has no effect on samples: they depend on
the assignments to the caller's own arrays only, as described in C141. -/
theorem C177_samples {srt : List ℝ → List ℕ} {m : GridMem d} {a : GridArgs d} {s : SamplerState d}
    (h : SamplerState.new srt m a = .ok s) (es : List (SamplerEvent d)) (r : Rand d) (nsamp : Option ℝ) (interp : Bool)
    (rs : Option Bool) :
    ∃ o, a.build srt m = .ok o ∧
      (s.run es).sample r nsamp interp rs = (o.view (m.writes (Spec.assignments es))).sample r nsamp interp rs := by
  obtain ⟨h1, h2, -⟩ := new_ok h
  refine ⟨s.obj, h1, ?_⟩
  unfold SamplerState.sample
  rw [(run_obj es s).1, (run_obj es s).2, h2]

/-- **C177, full claim.** Whatever a program did before, `sampler.grid` are the coordinates of the grid from which
`sampler.sample` draws. -/
def C177_Claim : Prop :=
  ∀ (d : ℕ) (srt : List ℝ → List ℕ), (∀ l, IsArgsort (srt l) l) →
    ∀ (m : GridMem d) (a : GridArgs d) (s : SamplerState d), SamplerState.new srt m a = .ok s →
    ∀ es : List (SamplerEvent d), Spec.Coordinates ((s.run es).obj.view (s.run es).mem).edges (s.run es).getGrid.1

lemma run_append (s : SamplerState d) (es es' : List (SamplerEvent d)) : s.run (es ++ es') = (s.run es).run es' :=
  List.foldl_append ..

/-- A grid that has been computed stays until something is assigned to it. -/
lemma run_grid_some {s : SamplerState d} {g : List (NDArr d ℝ)} (hg : s.grid = some g) {es : List (SamplerEvent d)}
    (h : ∀ e ∈ es, ¬ Spec.AssignsGrid e) : (s.run es).grid = some g := by
  induction es generalizing s with
  | nil => exact hg
  | cons e es ih =>
    refine ih (s := s.step e) ?_ fun e' he' => h e' (List.mem_cons_of_mem _ he')
    cases e with
    | grid => change s.getGrid.2.grid = _; unfold SamplerState.getGrid; rw [hg]; exact hg
    | sample r n i c => exact hg
    | assign w => exact hg
    | assignGrid g => exact absurd trivial (h _ List.mem_cons_self)

/-- **C177**, what `grid` returns in every program.  If it is looked at after the events `before`, its first use, then it returns the
coordinates of the edges as they are at this time; and it goes on returning the same arrays, whatever is assigned to the
edges or sampled, until something is assigned to these arrays; from then on it returns what was assigned. -/
theorem C177_actual {srt : List ℝ → List ℕ} {m : GridMem d} {a : GridArgs d} {s : SamplerState d}
    (h : SamplerState.new srt m a = .ok s) {before : List (SamplerEvent d)}
    (hb : ∀ e ∈ before, e ≠ .grid ∧ ¬ Spec.AssignsGrid e) :
    Spec.Coordinates (a.edges.map (VecArg.value (m.writes (Spec.assignments before)))) (s.run before).getGrid.1 ∧
    (∀ after : List (SamplerEvent d), (∀ e ∈ after, ¬ Spec.AssignsGrid e) →
      (s.run (before ++ .grid :: after)).getGrid.1 = (s.run before).getGrid.1) ∧
    ∀ (es after : List (SamplerEvent d)) (g : List (NDArr d ℝ)), (∀ e ∈ after, ¬ Spec.AssignsGrid e) →
      (s.run (es ++ .assignGrid g :: after)).getGrid.1 = g := by
  obtain ⟨h1, h2, h3⟩ := new_ok h
  have hargs := (GridArgs.build_ok h1).2
  have hnone : ∀ (es : List (SamplerEvent d)) (s : SamplerState d), s.grid = none →
      (∀ e ∈ es, e ≠ .grid ∧ ¬ Spec.AssignsGrid e) → (s.run es).grid = none := by
    intro es
    induction es with
    | nil => exact fun s hs _ => hs
    | cons e es ih =>
      intro s hs he
      refine ih (s.step e) ?_ fun e' he' => he e' (List.mem_cons_of_mem _ he')
      cases e with
      | grid => exact absurd rfl (he _ List.mem_cons_self).1
      | sample r n i c => exact hs
      | assign w => exact hs
      | assignGrid g => exact absurd trivial (he _ List.mem_cons_self).2
  have hn := hnone before s h3 hb
  have hget : (s.run before).getGrid
      = (meshgridArrays d ((s.run before).obj.view (s.run before).mem).edges,
        { s.run before with grid := some (meshgridArrays d ((s.run before).obj.view (s.run before).mem).edges) }) := by
    unfold SamplerState.getGrid
    rw [hn]
  have hlook : ∀ (t : SamplerState d) (g : List (NDArr d ℝ)), t.grid = some g → t.getGrid.1 = g := by
    intro t g ht
    unfold SamplerState.getGrid
    rw [ht]
  refine ⟨?_, fun after ha => ?_, fun es after g ha => ?_⟩
  · rw [hget]
    have hE : ((s.run before).obj.view (s.run before).mem).edges
        = a.edges.map (VecArg.value (m.writes (Spec.assignments before))) := by
      rw [(run_obj before s).1, (run_obj before s).2, h2, ← hargs]
      rfl
    rw [hE]
    exact meshgridArrays_coordinates _
  · rw [run_append]
    refine hlook _ _ (run_grid_some (s := (s.run before).getGrid.2) ?_ ha)
    rw [hget]
  · rw [run_append]
    exact hlook _ _ (run_grid_some (s := { (s.run es).getGrid.2 with grid := some g }) rfl ha)

/-- **C177, the part that holds.** `sampler.grid` are the coordinates of the grid from which `sampler.sample` draws, if the
program has assigned nothing to the arrays of edges that it passed and nothing to the arrays that `grid` returned.
(Missing from the full claim: such assignments, see `C177_refuted` and `C177_actual`.) -/
theorem C177_partial {srt : List ℝ → List ℕ} {m : GridMem d} {a : GridArgs d} {s : SamplerState d}
    (h : SamplerState.new srt m a = .ok s) {es : List (SamplerEvent d)}
    (he : ∀ e ∈ es, ¬ Spec.AssignsEdges a e ∧ ¬ Spec.AssignsGrid e) :
    Spec.Coordinates ((s.run es).obj.view (s.run es).mem).edges (s.run es).getGrid.1 ∧
    Spec.Coordinates (a.edges.map (VecArg.value m)) (s.run es).getGrid.1 ∧
    ∀ (i : Fin d) (g : NDArr d ℝ), (s.run es).getGrid.1[(i : ℕ)]? = some g →
      g.shape = (a.dens.value m).shape := by
  obtain ⟨h1, h2, h3⟩ := new_ok h
  obtain ⟨hg, hargs⟩ := GridArgs.build_ok h1
  have hE : ∀ es : List (SamplerEvent d), (∀ e ∈ es, ¬ Spec.AssignsEdges a e) →
      ((s.run es).obj.view (s.run es).mem).edges = a.edges.map (VecArg.value m) := by
    intro es he
    rw [(run_obj es s).1, (run_obj es s).2, h2, ← hargs]
    refine List.map_congr_left fun v hv => ?_
    cases v with
    | list l => rfl
    | array x =>
      refine writes_vecs (P := fun x => VecArg.array x ∈ s.obj.args.edges) m (fun w hw y v e hy => ?_) x hv
      obtain ⟨e', he', hw'⟩ := List.mem_filterMap.mp hw
      cases e' with
      | assign w' =>
        simp only [Option.some.injEq] at hw'
        subst hw' e
        exact he _ he' (hargs ▸ hy)
      | grid => cases hw'
      | sample r n i c => cases hw'
      | assignGrid g => cases hw'
  have key : ∀ es : List (SamplerEvent d), (∀ e ∈ es, ¬ Spec.AssignsEdges a e ∧ ¬ Spec.AssignsGrid e) →
      (s.run es).grid = none ∨ (s.run es).grid = some (meshgridArrays d (a.edges.map (VecArg.value m))) := by
    intro es
    induction es using List.reverseRecOn with
    | nil => exact fun _ => .inl h3
    | append_singleton es e ih =>
      intro he
      have ih := ih fun e' he' => he e' (List.mem_append_left _ he')
      have hEe := hE es fun e' he' => (he e' (List.mem_append_left _ he')).1
      rw [run_append]
      change ((s.run es).step e).grid = none ∨ ((s.run es).step e).grid = _
      cases e with
      | grid =>
        change (s.run es).getGrid.2.grid = none ∨ (s.run es).getGrid.2.grid = _
        unfold SamplerState.getGrid
        rcases ih with ih | ih
        · rw [ih]; exact .inr (by rw [← hEe])
        · rw [ih]; exact .inr ih
      | sample r n i c => exact ih
      | assign w => exact ih
      | assignGrid g => exact absurd (show Spec.AssignsGrid (.assignGrid g) from trivial) (he (.assignGrid g) (by simp)).2
  have hres : (s.run es).getGrid.1 = meshgridArrays d (a.edges.map (VecArg.value m)) := by
    unfold SamplerState.getGrid
    rcases key es he with hk | hk
    · rw [hk]
      change meshgridArrays d _ = _
      rw [hE es fun e he' => (he e he').1]
    · rw [hk]
  have hc := meshgridArrays_coordinates (d := d) (a.edges.map (VecArg.value m))
  refine ⟨?_, by rw [hres]; exact hc, fun i g hgi => ?_⟩
  · rw [hE es fun e he' => (he e he').1, hres]
    exact hc
  · rw [hres] at hgi
    obtain ⟨hlt, hgi⟩ := List.getElem?_eq_some_iff.mp hgi
    have hm := (initMasses_ok (SampleGrid.init_ok hg).2.2.2.1).1
    funext j
    rw [← hgi, (hc.2 i hlt).1 j]
    exact hm.2 j

/-! ### a grid of two bins, whose edges are doubled after a look at `grid` -/

lemma exState {srt : List ℝ → List ℕ} (hs : ∀ l, IsArgsort (srt l) l) :
    ∃ s, SamplerState.new srt exGridMem exGridArgs = .ok s := by
  obtain ⟨idx, csum, hb⟩ := exGrid_build hs
  exact ⟨_, by rw [SamplerState.new, hb]⟩

/-- **C177 fails**: with the edges `0, 1, 2` in an array, `grid` is looked at, and then the array is changed to `0, 2, 4`.
Samples are now drawn from 0 to 4, and `grid` still goes from 0 to 2. -/
theorem C177_refuted : ¬ C177_Claim := by
  intro hC
  obtain ⟨srt, hs⟩ := exists_argsort
  obtain ⟨s, h⟩ := exState hs
  obtain ⟨h1, h2, -⟩ := new_ok h
  have hargs := (GridArgs.build_ok h1).2
  have hc := hC 1 srt hs _ _ s h [.grid, .assign (.vec 1 [0, 2, 4])]
  obtain ⟨a1, a2, -⟩ := C177_actual h (before := []) (by simp)
  have a2 := a2 [.assign (.vec 1 [0, 2, 4])] (by simp [Spec.AssignsGrid])
  rw [List.nil_append] at a2
  rw [a2, (run_obj _ s).1, (run_obj _ s).2, h2] at hc
  have hE : (s.obj.view (exGridMem.writes (Spec.assignments [.grid, .assign (.vec 1 [0, 2, 4])]))).edges = [[0, 2, 4]] := by
    have hl : ([0, 2, 4] : List ℝ).length = (exGridMem.vecs 1).length := rfl
    unfold GridObj.view
    rw [hargs]
    change [((GridWrite.run exGridMem (.vec 1 [0, 2, 4])).vecs 1)] = _
    simp only [GridWrite.run, if_pos hl, Function.update_self]
  have hE0 : exGridArgs.edges.map (VecArg.value (exGridMem.writes (Spec.assignments []))) = [[0, 1, 2]] := rfl
  rw [hE] at hc
  rw [hE0] at a1
  have hlen : ((0 : Fin 1) : ℕ) < (s.run []).getGrid.1.length := by rw [a1.1]; exact one_pos
  have hv : ValidIdx ((s.run []).getGrid.1[((0 : Fin 1) : ℕ)]).shape fun _ => 1 := by
    intro j
    rw [(a1.2 0 hlen).1 j]
    fin_cases j
    norm_num
  have e1 := (a1.2 0 hlen).2 _ hv
  have e2 := (hc.2 0 hlen).2 _ hv
  rw [e1] at e2
  norm_num at e2

/-- The hypotheses of `C177_actual` and `C177_partial` are met by a program that draws samples, changes the masses that it
passed and looks at `grid`: the coordinates are `0, 1, 2`. -/
example : ∃ (srt : List ℝ → List ℕ) (s : SamplerState 1) (es : List (SamplerEvent 1)) (g : NDArr 1 ℝ),
    (∀ l, IsArgsort (srt l) l) ∧ SamplerState.new srt exGridMem exGridArgs = .ok s ∧ es.length = 3 ∧
    (∀ e ∈ es, ¬ Spec.AssignsEdges exGridArgs e ∧ ¬ Spec.AssignsGrid e) ∧
    (s.run es).getGrid.1 = [g] ∧ g.shape 0 = 3 ∧ g.get (fun _ => 2) = 2 := by
  obtain ⟨srt, hs⟩ := exists_argsort
  obtain ⟨s, h⟩ := exState hs
  have hes : ∀ e ∈ [SamplerEvent.sample exRand none true none, .assign (.arr 0 (exMass2 3)), .grid],
      ¬ Spec.AssignsEdges exGridArgs e ∧ ¬ Spec.AssignsGrid e := by
    simp [Spec.AssignsEdges, Spec.AssignsGrid]
  obtain ⟨-, hc, -⟩ := C177_partial h hes
  obtain ⟨g, hg⟩ := List.length_eq_one_iff.mp hc.1
  have h0 := hc.2 0 (by rw [hc.1]; exact one_pos)
  simp only [hg] at h0
  refine ⟨srt, s, _, g, hs, h, rfl, hes, hg, h0.1 0, ?_⟩
  have := h0.2 (fun _ => 2) (by intro j; fin_cases j; show 2 < g.shape 0; rw [show g.shape 0 = 3 from h0.1 0]; norm_num)
  rw [show g.get (fun _ => 2) = _ from this]
  rfl

end Kalepy
