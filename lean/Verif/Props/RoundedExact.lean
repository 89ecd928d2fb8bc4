import Verif.Model.Resample
import Verif.Props.RoundedSampling

/-!
# C136 and C137 without rounding: the model with roundings and the exact model agree
-/

namespace Kalepy

variable {d : ℕ}

lemma cumsumFrom_id (l : List ℝ) : ∀ acc : ℝ, cumsumFrom id acc l = (l.scanl (· + ·) acc).tail := by
  induction l with
  | nil => intro acc; rfl
  | cons x l ih =>
    intro acc
    rw [cumsumFrom, ih, List.scanl_cons, List.tail_cons]
    cases l <;> simp [List.scanl_cons]

lemma cumsum_id (l : List ℝ) : cumsumFrom id 0 l = npCumsum l := cumsumFrom_id l 0

lemma cumulative_id (srt : List ℝ → List ℕ) (m : List ℝ) : dataToCumulativeFl id srt m = dataToCumulative srt m := by
  simp only [dataToCumulativeFl, dataToCumulative, cumsum_id]
  cases (npCumsum ((srt m).map fun i => m.getD i 0)).getLast? with
  | none => rfl
  | some last =>
    by_cases h : last = 0
    · simp only [if_pos h, id]
    · simp only [if_neg h, id]

lemma cumsumFrom_last (l : List ℝ) : ∀ acc : ℝ, (cumsumFrom id acc l).getLastD acc = acc + l.sum := by
  induction l with
  | nil => intro acc; simp [cumsumFrom]
  | cons x l ih =>
    intro acc
    rw [cumsumFrom, List.getLastD_cons, id, ih, List.sum_cons, add_assoc]

/-- **C136 (without rounding), the chosen datum.** -/
theorem C136_choice_exact (w : List ℝ) (u : ℝ) :
    choiceIndexFl id w.sum w u = choiceIndex w.length (some w) u := by
  have h := cumsumFrom_last (w.map (· / w.sum)) 0
  rw [zero_add] at h
  have h2 : (cumsumFrom id 0 (w.map (· / w.sum))).getD ((cumsumFrom id 0 (w.map (· / w.sum))).length - 1) 0
      = (w.map (· / w.sum)).sum := by
    rw [← h, List.getLastD_eq_getLast?, List.getLast?_eq_getElem?, List.getD_eq_getElem?_getD]
  simp only [choiceIndexFl, choiceIndex, id] at *
  rw [h2, cumsum_id]

lemma sample_one (g : SampleGrid d) (r : Rand d) (interp : Bool) (hi : interp = true → g.dens.sum ≠ 0)
    (hsd : g.scalarDens = none) :
    g.sample r (some 1) interp = (sampleOne g (normDens g interp) none (r.u 0) (r.loc 0)).map fun x => [x] := by
  rw [sample_eq, if_neg (by tauto)]
  have h1 : pyInt ((some (1 : ℝ)).getD g.mass.sum) = 1 := by simp [pyInt]
  have h2 : useScalars g none = none := by simp [useScalars, hsd]
  rw [h1, h2, if_neg (by norm_num)]
  have h3 : (npSort ((List.range (1 : ℤ).toNat).map r.u)).zipIdx = [(r.u 0, 0)] := by simp [npSort]
  rw [h3, listSeq, listSeq]
  cases sampleOne g (normDens g interp) none (r.u 0) (r.loc 0) <;> rfl

/-- **C136 (without rounding), the grid.** Without roundings, the computation of C136 gives the sample that
`Sample_Grid.sample(1, interpolate=False)` returns in the exact model. -/
theorem C136_exact {srt : List ℝ → List ℕ} {edges : List (List ℝ)} {dens : NDArr d ℝ} {mass : Option (NDArr d ℝ)}
    {g : SampleGrid d} (h : SampleGrid.init srt edges dens mass = .ok g) (r : Rand d) :
    g.sample r (some 1) false
      = (sampleUniformFl id srt edges g.mass (r.u 0) (r.loc 0)).map fun x => [(x, none)] := by
  obtain ⟨h1, h2, h3, h4, h5⟩ := SampleGrid.init_ok h
  obtain ⟨-, hsh, -⟩ := initMasses_ok h4
  have hshape : (fun i => g.dens.shape i - 1) = g.mass.shape := by
    funext i; rw [h2, hsh i]; rfl
  rw [sample_one g r false (by simp) h3, sampleUniformFl, cumulative_id, h5, sampleOne, hshape, h1]
  simp only
  cases pickBin g.idx g.csum (r.u 0) with
  | error e => rfl
  | ok k =>
    have : finSeq (fun i => samplePos edges (normDens g false) (unravelIdx g.mass.shape k) k (r.loc 0 i) i)
        = .ok fun i => edgeAt edges i (unravelIdx g.mass.shape k i) + (edgeAt edges i (unravelIdx g.mass.shape k i + 1)
          - edgeAt edges i (unravelIdx g.mass.shape k i)) * r.loc 0 i :=
      finSeq_ok.mpr fun i => rfl
    simp only [this]
    rfl

/-- A list as a one-dimensional array. -/
def arr1 (l : List ℝ) : NDArr 1 ℝ := ⟨fun _ => l.length, fun i => l.getD (i 0) 0⟩

lemma unravel1 (n : ℕ) {k : ℕ} (hk : k < n) : unravelIdx (d := 1) (fun _ => n) k = fun _ => k := by
  funext i
  have hi : i = Fin.last 0 := Subsingleton.elim _ _
  subst hi
  simp only [unravelIdx, Fin.snoc_last, Nat.mod_eq_of_lt hk]

lemma corners1 : corners (d := 1) Finset.univ = {fun _ => 0, fun _ => 1} := by
  ext c
  simp only [corners, validIdx, Finset.mem_filter, Fintype.mem_piFinset, Finset.mem_range, Finset.mem_univ,
    not_true_eq_false, false_implies, implies_true, and_true, Finset.mem_insert, Finset.mem_singleton]
  constructor
  · intro h
    have := h 0
    rcases (by omega : c 0 = 0 ∨ c 0 = 1) with e | e
    · left; funext i; rw [Subsingleton.elim i 0, e]
    · right; funext i; rw [Subsingleton.elim i 0, e]
  · rintro (rfl | rfl) <;> intro _ <;> norm_num

lemma corners1_erase : corners (d := 1) (Finset.univ.erase 0) = {fun _ => 0} := by
  ext c
  simp only [corners, validIdx, Finset.mem_filter, Fintype.mem_piFinset, Finset.mem_range, Finset.mem_singleton]
  constructor
  · rintro ⟨-, h⟩
    funext i
    exact h i (by rw [Subsingleton.elim i 0]; simp)
  · rintro rfl
    exact ⟨fun _ => by norm_num, fun _ _ => rfl⟩

lemma mass1 {e l : List ℝ} {m : NDArr 1 ℝ} (h : trapzDensToMass (arr1 l) [e] Finset.univ = .ok m) :
    m.flat = mass1dFl id e l := by
  simp only [trapzDensToMass] at h
  split_ifs at h with h1 h2
  have h := Except.ok.inj h
  subst h
  simp only [NDArr.flat, NDArr.size, arr1, Finset.mem_univ, if_true, Finset.prod_const, Finset.card_univ, Fintype.card_fin,
    pow_one, mass1dFl]
  refine List.map_congr_left fun k hk => ?_
  rw [unravel1 _ (List.mem_range.mp hk), corners1, Finset.sum_pair]
  · simp [binWidth, edgeAt]
  · intro hc
    have := congrFun hc 0
    simp at this

lemma normDens1 (l : List ℝ) : normDensFl id l = l.map (· / (l.sum / l.length)) := by
  have := cumsumFrom_last l 0
  rw [zero_add] at this
  simp only [normDensFl, this, id]

/-- **C137 (without rounding).** Without roundings, the computation of C137 gives the sample that
`Sample_Grid([edges], dens).sample(1)` returns in the exact model. -/
theorem C137_exact {srt : List ℝ → List ℕ} (hs : ∀ l, IsArgsort (srt l) l) {e l : List ℝ} (hl : ∀ x ∈ l, 0 < x)
    (he : e.Pairwise (· < ·)) (h2 : 2 ≤ l.length) {g : SampleGrid 1} (h : SampleGrid.init srt [e] (arr1 l) = .ok g)
    (r : Rand 1) (hr : r.InRange) :
    g.sample r (some 1)
      = (sampleInterpFl id srt e l (r.u 0) (r.loc 0 0)).map fun x => [(fun _ => x, none)] := by
  obtain ⟨h1, hd, h3, h4, h5⟩ := SampleGrid.init_ok h
  obtain ⟨hem, hsh, hma, -⟩ := initMasses_ok h4
  have hlen : e.length = l.length := hem.2 0
  have htr : trapzDensToMass (arr1 l) [e] Finset.univ = .ok g.mass := by simpa using hma
  have hflat := mass1 htr
  have hshape : (fun i => g.dens.shape i - 1) = g.mass.shape := by
    funext i; rw [hd, hsh i]; rfl
  have hshape1 : g.mass.shape = fun _ => l.length - 1 := by rw [← hshape, hd]; rfl
  have hsum : g.dens.sum = l.sum := by
    rw [hd, ← NDArr.flat_sum]
    congr 1
    simp only [NDArr.flat, NDArr.size, arr1, Finset.prod_const, Finset.card_univ, Fintype.card_fin, pow_one]
    refine List.ext_getElem (by simp) fun k hk hk' => ?_
    simp only [List.getElem_map, List.getElem_range]
    rw [unravel1 _ hk', List.getD_eq_getElem _ _ hk']
  have hlsum : 0 < l.sum := List.sum_pos l hl (List.ne_nil_of_length_pos (by omega))
  have hpos : ∀ x ∈ g.mass.flat, 0 < x := by
    rw [hflat]
    intro x hx
    obtain ⟨b, hb, rfl⟩ := List.mem_map.mp hx
    have hb' := List.mem_range.mp hb
    simp only [id, zero_add]
    have hw : 0 < e.getD (b + 1) 0 - e.getD b 0 := by
      rw [List.getD_eq_getElem _ _ (by omega), List.getD_eq_getElem _ _ (by omega)]
      exact sub_pos.mpr (List.pairwise_iff_getElem.mp he _ _ _ _ (by omega))
    have hd0 : 0 < l.getD b 0 := by
      rw [List.getD_eq_getElem _ _ (by omega)]; exact hl _ (List.getElem_mem _)
    have hd1 : 0 < l.getD (b + 1) 0 := by
      rw [List.getD_eq_getElem _ _ (by omega)]; exact hl _ (List.getElem_mem _)
    positivity
  have hmlen : g.mass.flat.length = l.length - 1 := by rw [hflat]; simp [mass1dFl]
  have hmsum : 0 < g.mass.flat.sum := List.sum_pos _ hpos (List.ne_nil_of_length_pos (by omega))
  have hcum := SampleGrid.init_cum hs h (by rwa [← NDArr.flat_sum])
  obtain ⟨k, hk, hklt, -⟩ := hcum.pick_ok (fun x hx => (hpos x hx).le) hmsum (hr.1 0).1 (hr.1 0).2
  have hk' : k < l.length - 1 := by omega
  have hsize : g.dens.size = l.length := by rw [hd]; simp [NDArr.size, arr1]
  obtain ⟨G, hG, hGk⟩ := flatGet_grad (a := g.dens.map (· / (g.dens.sum / g.dens.size))) (shape := fun _ => l.length - 1)
    (fun i => by rw [NDArr.map, hd]; change l.length = _; omega) (k := k) (by simpa using hk') 0
  rw [sample_one g r true (fun _ => by rw [hsum]; exact hlsum.ne') h3, sampleInterpFl, ← hflat, cumulative_id, h5, sampleOne,
    hshape, h1, hshape1]
  simp only [hk, unravel1 _ hk']
  have hgrad : meanDiff (g.dens.map (· / (g.dens.sum / g.dens.size))) 0 (unravelIdx (fun _ => l.length - 1) k)
      = (normDensFl id l).getD (k + 1) 0 - (normDensFl id l).getD k 0 := by
    rw [unravel1 _ hk', meanDiff, corners1_erase, Finset.sum_singleton, normDens1, hsum, hsize]
    rw [List.getD_eq_getElem _ _ (by rw [List.length_map]; omega), List.getD_eq_getElem _ _ (by rw [List.length_map]; omega),
      List.getElem_map, List.getElem_map, hd]
    simp only [NDArr.map, arr1, Function.update_self, add_zero]
    rw [List.getD_eq_getElem _ _ (by omega), List.getD_eq_getElem _ _ (by omega)]
    norm_num
  have : finSeq (fun i : Fin 1 => samplePos [e] (normDens g true) (fun _ => k) k (r.loc 0 i) i)
      = .ok fun _ => e.getD k 0 + (e.getD (k + 1) 0 - e.getD k 0)
        * intrabin (r.loc 0 0) ((normDensFl id l).getD (k + 1) 0 - (normDensFl id l).getD k 0) := by
    refine finSeq_ok.mpr fun i => ?_
    rw [Subsingleton.elim i 0, ← hgrad]
    simp only [samplePos, normDens, if_true, hG]
    change (do let gr ← flatGet G k; pure _) = _
    rw [hGk]
    rfl
  simp only [this]
  have hin : ∀ loc gr : ℝ, intrabinFl id loc gr = intrabin loc gr := by
    intro loc gr
    simp only [intrabinFl, intrabin, id, pow_two]
  simp only [hin, id]
  rfl

/-! ### Example -/

/-- The hypotheses of `C137_exact` for a density on two bins. -/
example : ∃ srt g, (∀ l : List ℝ, IsArgsort (srt l) l) ∧ SampleGrid.init srt [[0, 1, 3]] (arr1 [1, 2, 1]) = .ok g := by
  obtain ⟨srt, hs⟩ := exists_argsort
  have hm : EdgesMatch (arr1 [1, 2, 1]).shape [[0, 1, (3 : ℝ)]] := ⟨rfl, fun i => by fin_cases i; rfl⟩
  have hne : ¬ ∃ i ∈ (Finset.univ : Finset (Fin 1)), (arr1 [1, 2, 1]).shape i = 0 := by simp [arr1]
  have hmass : ∃ m, trapzDensToMass (arr1 [1, 2, 1]) [[0, 1, 3]] Finset.univ = .ok m :=
    ⟨_, by rw [trapzDensToMass, if_pos hm, if_neg hne]⟩
  obtain ⟨m, hm'⟩ := hmass
  have hflat := mass1 hm'
  have hsum : 0 < m.flat.sum := by
    rw [hflat]
    have : List.range (([1, 2, 1] : List ℝ).length - 1) = [0, 1] := rfl
    simp only [mass1dFl, this]
    norm_num
  obtain ⟨idx, csum, hc, -⟩ := dataToCumulative_ok hs (m := m.flat) hsum
  refine ⟨srt, ⟨[[0, 1, 3]], arr1 [1, 2, 1], m, none, none, idx, csum⟩, hs, ?_⟩
  have hchk : gridChecks [[0, 1, 3]] (arr1 [1, 2, 1]) none := ⟨hm, by simp⟩
  simp only [SampleGrid.init, initMasses, if_pos hchk, massArg, scalarMassArg, hm', bind, Except.bind, pure, Except.pure, hc]

end Kalepy
