import Verif.Model.ProportionalArrays
import Verif.Props.SampleArrays
import Verif.Props.Scalars

/-!
# C171: what `sample_grid_proportional` returns
-/

namespace Kalepy

variable {d : ℕ}

/-- Specification: the documented pair for the samples `l`: positions of shape `(D, N)` and weights of shape `(N,)`, in the same
order. -/
def Spec.PositionsAndWeights (V W : Arr) (l : List ((Fin d → ℝ) × ℝ)) : Prop :=
  V.shape = [d, l.length] ∧ W.shape = [l.length] ∧ W.vals = l.map Prod.snd ∧
    ∀ (i : Fin d) (n : ℕ) (p : (Fin d → ℝ) × ℝ), l[n]? = some p → V.vals[i * l.length + n]? = some (p.1 i)

/-- **C171 (full statement, not true of the code).** Whatever the options are, the arrays that `sample_grid_proportional` returns are
the positions, of shape `(D, N)`, and the weights, of shape `(N,)`. -/
def C171_Claim : Prop :=
  ∀ (d : ℕ) (srt : List ℝ → List ℕ) (edges : List (List ℝ)) (dens portion : NDArr d ℝ) (T : ℝ) (r : Rand d)
    (_ : Spec.ScalarArgs srt edges portion dens T r) (n : ℕ) (mass : Option (NDArr d ℝ)) (interp : Bool) (rs : Option Bool) (V W : Arr),
    sampleGridProportionalArr srt r edges dens portion n mass interp rs = .ok (V, W) → V.shape = [d, n] ∧ W.shape = [n]

/-- **C171 (partial).** Unless `return_scalar=False` is given, the call returns the requested number of samples: the positions as an
array of shape `(D, N)` and the weights as an array of shape `(N,)`; positions and weights are those described by C77.
Missing: `return_scalar=False` (`C171_unpacked`, `C171_error`). -/
theorem C171_partial {srt : List ℝ → List ℕ} {edges : List (List ℝ)} {dens portion : NDArr d ℝ} {T : ℝ} {r : Rand d}
    (h : Spec.ScalarArgs srt edges portion dens T r) (mass : Option (NDArr d ℝ)) (n : ℕ) (interp : Bool) (rs : Option Bool)
    (hrs : rs ≠ some false) :
    ∃ V W, sampleGridProportionalArr srt r edges dens portion n mass interp rs = .ok (V, W) ∧
      ∃ l : List ((Fin d → ℝ) × ℝ), l.length = n ∧ Spec.PositionsAndWeights V W l ∧
        sampleGridProportional srt r edges dens portion n mass interp = .ok (l.map fun p => (p.1, some p.2)) := by
  have hA : Spec.ScalarArgs srt edges portion (portionRatio dens portion) T r := { h with same := rfl }
  obtain ⟨g, out, hg, ho, hl, hk⟩ := C76_formula_partial hA n interp
  have hrs' : g.sample r (some (n : ℝ)) interp rs = g.sample r (some (n : ℝ)) interp := by
    rw [sample_eq, sample_eq]
    have : useScalars g rs = useScalars g none := by
      unfold useScalars
      simp [hrs]
    rw [this]
  obtain ⟨l, rfl⟩ : ∃ l : List ((Fin d → ℝ) × ℝ), out = l.map fun p => (p.1, some p.2) := by
    refine ⟨out.map fun s => (s.1, s.2.getD 0), ?_⟩
    rw [List.map_map]
    refine (List.map_id out).symm.trans (List.map_congr_left fun s hs => ?_)
    obtain ⟨k, hk', rfl⟩ := List.getElem_of_mem hs
    obtain ⟨b, -, -, -, e⟩ := hk k hk'
    simp only [Function.comp, id]
    refine Prod.ext rfl ?_
    rw [e]
    rfl
  rw [List.length_map] at hl
  have h1 : (l.map fun p => (p.1, some p.2)).filterMap Prod.snd = l.map Prod.snd := by
    rw [List.filterMap_map, ← List.filterMap_eq_map]
    rfl
  have h2 : (l.map fun p => (p.1, some p.2)).map Prod.fst = l.map Prod.fst := by
    rw [List.map_map]; rfl
  refine ⟨sampleArr false (l.map Prod.fst), ⟨[l.length], l.map Prod.snd⟩, ?_, l, hl, ⟨?_, rfl, rfl, fun i n p hp => ?_⟩, ?_⟩
  · unfold sampleGridProportionalArr
    rw [if_neg (by rw [h.same]; simp), hg]
    simp only [hrs', ho, if_neg hrs, h1, h2, List.length_map]
  · simp [sampleArr]
  · have := sampleArr_vals false (l.map Prod.fst) i n p.1 (by rw [List.getElem?_map, hp]; rfl)
    rwa [List.length_map] at this
  · unfold sampleGridProportional
    rw [if_neg (by rw [h.same]; simp), hg]
    simp only [ho]
    rfl

/-- The samples without scalars. -/
lemma proportional_false {srt : List ℝ → List ℕ} {edges : List (List ℝ)} {dens portion : NDArr d ℝ} {T : ℝ} {r : Rand d}
    (h : Spec.ScalarArgs srt edges portion dens T r) (n : ℕ) (interp : Bool) :
    ∃ g g₀ out, SampleGrid.init srt edges portion none (some (portionRatio dens portion)) none = .ok g ∧
      SampleGrid.init srt edges portion = .ok g₀ ∧ g₀.sample r (some (n : ℝ)) interp = .ok out ∧
      g.sample r (some (n : ℝ)) interp (some false) = .ok out ∧ out.length = n := by
  have hA : Spec.ScalarArgs srt edges portion (portionRatio dens portion) T r := { h with same := rfl }
  obtain ⟨g, out, hg, ho, hl, -⟩ := C76_formula_partial hA n interp
  obtain ⟨g0, hg0, ho0⟩ := C76_positions hg r _ _ _ out ho
  refine ⟨g, g0, _, hg, hg0, ho0, ?_, by rw [List.length_map, hl]⟩
  obtain ⟨h1, h2, h3⟩ := sample_inv ho
  rw [sample_eq, if_neg (by rintro ⟨h, h'⟩; exact h1 h h'), if_neg (not_lt.mpr h2)]
  have hu : useScalars g (some false) = none := by
    unfold useScalars
    cases g.scalarDens <;> cases g.scalarMass <;> simp
  rw [hu]
  rw [listSeq_ok] at h3 ⊢
  rw [List.forall₂_map_right_iff]
  exact h3.imp fun a b hab => sampleOne_without_scalars hab

/-- **C171**, the excluded case in the plane: with `return_scalar=False` the first returned array holds the first coordinates of the
samples, and the second returned array, in the place of the weights, their second coordinates. -/
theorem C171_unpacked {srt : List ℝ → List ℕ} {edges : List (List ℝ)} {dens portion : NDArr 2 ℝ} {T : ℝ} {r : Rand 2}
    (h : Spec.ScalarArgs srt edges portion dens T r) (mass : Option (NDArr 2 ℝ)) (n : ℕ) (interp : Bool) :
    ∃ g out, SampleGrid.init srt edges portion = .ok g ∧ g.sample r (some (n : ℝ)) interp = .ok out ∧ out.length = n ∧
      sampleGridProportionalArr srt r edges dens portion n mass interp (some false)
        = .ok (⟨[n], out.map fun s => s.1 0⟩, ⟨[n], out.map fun s => s.1 1⟩) := by
  obtain ⟨g, g0, out, hg, hg0, ho0, ho, hl⟩ := proportional_false h n interp
  refine ⟨g0, out, hg0, ho0, hl, ?_⟩
  unfold sampleGridProportionalArr
  rw [if_neg (by rw [h.same]; simp), hg]
  simp only [ho, if_true, hl]
  rfl

/-- **C171**, the excluded case in any other dimension: with `return_scalar=False` the call raises `ValueError`. -/
theorem C171_error {srt : List ℝ → List ℕ} {edges : List (List ℝ)} {dens portion : NDArr d ℝ} {T : ℝ} {r : Rand d}
    (h : Spec.ScalarArgs srt edges portion dens T r) (hd : d ≠ 2) (mass : Option (NDArr d ℝ)) (n : ℕ) (interp : Bool) :
    sampleGridProportionalArr srt r edges dens portion n mass interp (some false) = .error .valueError := by
  obtain ⟨g, g0, out, hg, hg0, ho0, ho, hl⟩ := proportional_false h n interp
  unfold sampleGridProportionalArr
  rw [if_neg (by rw [h.same]; simp), hg]
  simp only [ho, if_true]
  split
  · rename_i hr
    have := congrArg List.length hr
    simp at this
    exact absurd this hd
  · rfl

/-- A constant density on the unit square. -/
lemma unitSquare_args {srt : List ℝ → List ℕ} (hs : ∀ l, IsArgsort (srt l) l) :
    Spec.ScalarArgs srt [[0, 1], [0, 1]] (⟨![2, 2], fun _ => 1⟩ : NDArr 2 ℝ) ⟨![2, 2], fun _ => 3⟩ 1 ⟨fun _ => 0, fun _ _ => 1 / 4⟩ where
  dim := two_pos
  argsort := hs
  total := by
    have he : EdgesMatch (⟨![2, 2], fun _ => 1⟩ : NDArr 2 ℝ).shape ([[0, 1], [0, 1]] : List (List ℝ)) :=
      ⟨rfl, fun i => by fin_cases i <;> rfl⟩
    obtain ⟨M, hM⟩ := trapzDensToMass_ok (pdf := (⟨![2, 2], fun _ => 1⟩ : NDArr 2 ℝ)) he Finset.univ (fun i => by fin_cases i <;> simp)
    rw [C38_mass_sum hM, C38_mass_const 1 hM fun _ _ => rfl]
    simp [Fin.prod_univ_two, edgeAt]
  pos := one_pos
  nonempty := fun i => by fin_cases i <;> simp
  sorted := by
    intro e he
    simp only [List.mem_cons, List.not_mem_nil, or_false, or_self] at he
    subst he
    simp
  nonneg := fun _ _ => zero_le_one
  same := rfl
  rand := ⟨fun _ => by norm_num, fun _ _ => by norm_num⟩

/-- **C171 is false of the code**: three samples from the unit square come back as two arrays of shape `(3,)`. -/
theorem C171_refuted : ¬ C171_Claim := by
  intro hC
  obtain ⟨srt, hs⟩ := exists_argsort
  obtain ⟨g, out, -, -, -, h⟩ := C171_unpacked (unitSquare_args hs) none 3 true
  have := (hC 2 _ _ _ _ _ _ (unitSquare_args hs) 3 none true (some false) _ _ h).1
  simp at this

/-- The hypotheses of C171 are met by densities on the unit square. -/
example : ∃ srt : List ℝ → List ℕ, Spec.ScalarArgs srt [[0, 1], [0, 1]] (⟨![2, 2], fun _ => 1⟩ : NDArr 2 ℝ) ⟨![2, 2], fun _ => 3⟩ 1
    ⟨fun _ => 0, fun _ _ => 1 / 4⟩ := by
  obtain ⟨srt, hs⟩ := exists_argsort
  exact ⟨srt, unitSquare_args hs⟩

end Kalepy
