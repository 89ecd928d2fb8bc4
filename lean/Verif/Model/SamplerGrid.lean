import Verif.Model.GridArgs

/-!
# Model of `Sample_Grid.grid` (`kalepy/sample.py`): the coordinates of the grid, computed once
-/

namespace Kalepy

variable {d : ℕ}

/-- `np.meshgrid(*edges, indexing='ij')` (`sample.py:247`): one new array per array of edges (numpy copies by default). -/
def meshgridArrays (d : ℕ) (edges : List (List ℝ)) : List (NDArr d ℝ) :=
  List.ofFn fun i : Fin d => ⟨fun j => (edges.getD j []).length, fun idx => (edges.getD i []).getD (idx i) 0⟩

/-- A `Sample_Grid` object with its attribute `_grid` (`sample.py:90`: `None` at first), and the memory of the caller. -/
structure SamplerState (d : ℕ) where
  mem : GridMem d
  obj : GridObj d
  grid : Option (List (NDArr d ℝ))

/-- `sample.py:37-97`: the constructor. -/
noncomputable def SamplerState.new (srt : List ℝ → List ℕ) (m : GridMem d) (a : GridArgs d) : Res (SamplerState d) :=
  match a.build srt m with
  | .error e => .error e
  | .ok o => .ok ⟨m, o, none⟩

/-- `sample.py:245-249` `Sample_Grid.grid`: the arrays, and the object afterwards.  `_edges` refers to the arrays of the caller,
whose current values are used. -/
def SamplerState.getGrid (s : SamplerState d) : List (NDArr d ℝ) × SamplerState d :=
  match s.grid with
  | none => (meshgridArrays d (s.obj.view s.mem).edges,
      { s with grid := some (meshgridArrays d (s.obj.view s.mem).edges) })
  | some g => (g, s)

/-- `sample.py:110-201` `Sample_Grid.sample` with the current values of the arrays referred to; it uses `_edges`, not `_grid`. -/
noncomputable def SamplerState.sample (s : SamplerState d) (r : Rand d) (nsamp : Option ℝ := none)
    (interpolate : Bool := true) (returnScalar : Option Bool := none) : Res (List ((Fin d → ℝ) × Option ℝ)) :=
  (s.obj.view s.mem).sample r nsamp interpolate returnScalar

/-- What a program does with a sampler: look at `sampler.grid`; draw samples; assign to arrays of its own; assign to the arrays
in the list `sampler.grid` or to the elements of this list. -/
inductive SamplerEvent (d : ℕ) where
  | grid
  | sample (r : Rand d) (nsamp : Option ℝ) (interpolate : Bool) (returnScalar : Option Bool)
  | assign (w : GridWrite d)
  | assignGrid (g : List (NDArr d ℝ))

/-- The state after an event.  `sampler.grid[...] = v` looks at `sampler.grid` first; the property returns the list itself
(`sample.py:249`), so that what is assigned is kept. -/
noncomputable def SamplerState.step (s : SamplerState d) : SamplerEvent d → SamplerState d
  | .grid => s.getGrid.2
  | .sample _ _ _ _ => s
  | .assign w => { s with mem := w.run s.mem }
  | .assignGrid g => { s.getGrid.2 with grid := some g }

/-- The state after a sequence of events. -/
noncomputable def SamplerState.run (s : SamplerState d) (es : List (SamplerEvent d)) : SamplerState d :=
  es.foldl SamplerState.step s

end Kalepy
