import Mathlib.MeasureTheory.Measure.Lebesgue.Basic
import Verif.Proofs.Sample

/-!
# Lemmas about `Sample_Grid`
-/

set_option linter.unusedSectionVars false

namespace Kalepy

variable {d : ℕ}

/-! ### the chosen bin -/

/-- The bin selected by the uniform value `u`. -/
noncomputable def chosenBin (shape : Fin d → ℕ) (idx : List ℕ) (csum : List ℝ) (u : ℝ) : Fin d → ℕ :=
  match pickBin idx csum u with
  | .ok b => unravelIdx shape b
  | .error _ => 0

section pick
variable {M : NDArr d ℝ} {idx : List ℕ} {csum : List ℝ}

lemma flat_nonneg (hm : ∀ b, ValidIdx M.shape b → 0 ≤ M.get b) : ∀ x ∈ M.flat, 0 ≤ x := by
  intro x hx
  simp only [NDArr.flat, List.mem_map, List.mem_range] at hx
  obtain ⟨k, hk, rfl⟩ := hx
  exact hm _ (unravelIdx_valid hk)

lemma flat_getD (M : NDArr d ℝ) {k : ℕ} (hk : k < M.flat.length) :
    M.flat.getD k 0 = M.get (unravelIdx M.shape k) := by
  rw [List.getD_eq_getElem _ _ hk, NDArr.flat_getElem]

lemma pick_spec (h : CumOK M.flat idx csum) (hm : ∀ b, ValidIdx M.shape b → 0 ≤ M.get b)
    (ht : 0 < M.sum) {u : ℝ} (h0 : 0 ≤ u) (h1 : u < 1) :
    ∃ k, pickBin idx csum u = .ok k ∧ k < ∏ i, M.shape i ∧
      chosenBin M.shape idx csum u = unravelIdx M.shape k ∧
      ValidIdx M.shape (chosenBin M.shape idx csum u) ∧
      0 < M.get (chosenBin M.shape idx csum u) := by
  obtain ⟨k, hk, hlt, hpos⟩ := h.pick_ok (flat_nonneg hm) (by rwa [NDArr.flat_sum]) h0 h1
  have hc : chosenBin M.shape idx csum u = unravelIdx M.shape k := by simp [chosenBin, hk]
  have hlt' : k < ∏ i, M.shape i := by rwa [NDArr.flat_length] at hlt
  refine ⟨k, hk, hlt', hc, ?_, ?_⟩
  · rw [hc]; exact unravelIdx_valid hlt'
  · rw [hc, ← flat_getD M hlt]; exact hpos

open MeasureTheory in
/-- The uniform values that select position `k` of the list have measure `m_k / total`. -/
lemma volume_pick {m : List ℝ} (h : CumOK m idx csum) (hm : ∀ x ∈ m, 0 ≤ x) (ht : 0 < m.sum)
    (b : ℕ) (hb : b < m.length) :
    volume {u : ℝ | 0 ≤ u ∧ u < 1 ∧ pickBin idx csum u = .ok b} = ENNReal.ofReal (m.getD b 0 / m.sum) := by
  have hbm : b ∈ idx := h.perm.mem_iff.mpr (List.mem_range.mpr hb)
  obtain ⟨k, hk, hkb⟩ := List.getElem_of_mem hbm
  have hk0 : k < csum.length := by rw [h.len]; omega
  have hk1 : k + 1 < csum.length := by rw [h.len]; omega
  have hmono := h.mono hm ht
  have hstep := h.step k hk
  rw [hkb] at hstep
  have hle : ∀ j (hj : j < csum.length), 0 ≤ csum[j] := by
    intro j hj
    rw [← h.zero]
    rcases Nat.eq_zero_or_pos j with rfl | hj0
    · exact le_rfl
    · exact List.pairwise_iff_getElem.mp hmono _ _ _ _ hj0
  have hle1 : ∀ j (hj : j < csum.length), csum[j] ≤ 1 := by
    intro j hj
    rw [← h.one ht]
    rcases Nat.lt_or_ge j idx.length with hj0 | hj0
    · exact List.pairwise_iff_getElem.mp hmono _ _ _ _ hj0
    · have : j = idx.length := by rw [h.len] at hj; omega
      subst this; exact le_rfl
  rw [← hstep]
  have key : ∀ u, 0 < u → u < 1 → (pickBin idx csum u = .ok b ↔ csum[k] < u ∧ u ≤ csum[k + 1]) := by
    intro u h0 h1
    obtain ⟨j, hj, hp, hl, hr⟩ := h.pick_pos hm ht h0 h1
    constructor
    · intro hpb
      rw [hp] at hpb
      have hjb : idx[j] = b := by injection hpb
      have : j = k := (List.Nodup.getElem_inj_iff h.nodup).mp (hjb.trans hkb.symm)
      subst this
      exact ⟨hl, hr⟩
    · rintro ⟨hl', hr'⟩
      have := searchLeft_eq hmono u k hk1 hl' hr'
      rw [pickBin, this]
      have e : ((k + 1 : ℕ) : ℤ) - 1 = (k : ℤ) := by push_cast; ring
      rw [e, pyIndex_nat _ _ hk, hkb]
  have hsub : Set.Ioo csum[k] csum[k + 1] ⊆ {u : ℝ | 0 ≤ u ∧ u < 1 ∧ pickBin idx csum u = .ok b} := by
    rintro u ⟨h1, h2⟩
    have hu0 : 0 < u := lt_of_le_of_lt (hle _ _) h1
    have hu1 : u < 1 := lt_of_lt_of_le h2 (hle1 _ _)
    exact ⟨hu0.le, hu1, (key u hu0 hu1).mpr ⟨h1, h2.le⟩⟩
  have hsup : {u : ℝ | 0 ≤ u ∧ u < 1 ∧ pickBin idx csum u = .ok b} ⊆ insert 0 (Set.Icc csum[k] csum[k + 1]) := by
    rintro u ⟨h0, h1, hp⟩
    rcases h0.eq_or_lt with h0 | h0
    · left; exact h0.symm
    · right
      obtain ⟨a, b⟩ := (key u h0 h1).mp hp
      exact ⟨a.le, b⟩
  apply le_antisymm
  · refine (measure_mono hsup).trans ?_
    rw [Set.insert_eq]
    refine (measure_union_le _ _).trans ?_
    simp
  · refine le_trans ?_ (measure_mono hsub)
    simp

end pick

/-! ### one sample -/

/-- The mean change of the array `a` across the cell `b` along axis `i`: average over the corners of the
lower face of the difference to the opposite corner. -/
noncomputable def meanDiff (a : NDArr d ℝ) (i : Fin d) (b : Fin d → ℕ) : ℝ :=
  (∑ c ∈ corners (Finset.univ.erase i),
    (a.get (fun j => b j + Function.update c i 1 j) - a.get (fun j => b j + c j))) / 2 ^ (d - 1)

lemma flatGet_grad {a : NDArr d ℝ} {shape : Fin d → ℕ} (hs : ∀ i, a.shape i = shape i + 1)
    {k : ℕ} (hk : k < ∏ i, shape i) (i : Fin d) :
    ∃ G, gradAlong a i = .ok G ∧ flatGet G k = .ok (meanDiff a i (unravelIdx shape k)) := by
  have hpos : ∀ i, 2 ≤ a.shape i := by
    intro i
    have : shape i ≠ 0 := by
      intro h0
      rw [Finset.prod_eq_zero (Finset.mem_univ i) h0] at hk
      omega
    rw [hs i]; omega
  obtain ⟨G, hG, hsh, hget⟩ := gradAlong_ok a i hpos
  have hsh' : G.shape = shape := by funext j; rw [hsh, hs]; omega
  refine ⟨G, hG, ?_⟩
  have hlen : k < G.flat.length := by rw [NDArr.flat_length, NDArr.size, hsh']; exact hk
  rw [flatGet, pyIndex_nat _ _ hlen, NDArr.flat_getElem, hsh', hget, meanDiff]

/-- Relative position along axis `i` in the cell `b` for the uniform value `loc`. -/
noncomputable def relPos (dens : Option (NDArr d ℝ)) (b : Fin d → ℕ) (i : Fin d) (loc : ℝ) : ℝ :=
  match dens with
  | none => loc
  | some dn => intrabin loc (meanDiff dn i b)

lemma relPos_mem (dens : Option (NDArr d ℝ)) (b : Fin d → ℕ) (i : Fin d) {loc : ℝ} (h0 : 0 ≤ loc)
    (h1 : loc ≤ 1) : 0 ≤ relPos dens b i loc ∧ relPos dens b i loc ≤ 1 := by
  unfold relPos
  split
  · exact ⟨h0, h1⟩
  · exact intrabin_mem h0 h1

lemma sampleOne_ok (g : SampleGrid d) {M : NDArr d ℝ} (h : CumOK M.flat g.idx g.csum)
    (hsh : ∀ i, g.dens.shape i = M.shape i + 1) (hm : ∀ b, ValidIdx M.shape b → 0 ≤ M.get b)
    (ht : 0 < M.sum) {dens : Option (NDArr d ℝ)} (hd : ∀ dn, dens = some dn → dn.shape = g.dens.shape)
    {scalars : Option (NDArr d ℝ × NDArr d ℝ)}
    (hsc : ∀ sd sm, scalars = some (sd, sm) → sd.shape = g.dens.shape ∧ sm.shape = M.shape)
    {u : ℝ} (h0 : 0 ≤ u) (h1 : u < 1) (loc : Fin d → ℝ) :
    ∃ out, sampleOne g dens scalars u loc = .ok out ∧
      (∀ i, out.1 i = edgeAt g.edges i (chosenBin M.shape g.idx g.csum u i)
        + (edgeAt g.edges i (chosenBin M.shape g.idx g.csum u i + 1)
            - edgeAt g.edges i (chosenBin M.shape g.idx g.csum u i))
          * relPos dens (chosenBin M.shape g.idx g.csum u) i (loc i)) ∧
      out.2 = scalars.map fun s => s.2.get (chosenBin M.shape g.idx g.csum u)
        + if dens.isSome then
            ∑ i, meanDiff s.1 i (chosenBin M.shape g.idx g.csum u) * (loc i - 1 / 2) else 0 := by
  obtain ⟨k, hk, hlt, hc, hval, -⟩ := pick_spec h hm ht h0 h1
  have hshape : (fun i => g.dens.shape i - 1) = M.shape := by
    funext i; rw [hsh]; omega
  rw [hc] at hval ⊢
  set b := unravelIdx M.shape k with hb
  have hvals : finSeq (fun i => samplePos g.edges dens b k (loc i) i)
      = (.ok (fun i => edgeAt g.edges i (b i) + (edgeAt g.edges i (b i + 1) - edgeAt g.edges i (b i))
          * relPos dens b i (loc i)) : Res (Fin d → ℝ)) := by
    rw [finSeq_ok]
    intro i
    cases hdn : dens with
    | none => rfl
    | some dn =>
      obtain ⟨G, hG, hf⟩ := flatGet_grad (a := dn) (shape := M.shape)
        (fun j => by rw [hd dn hdn, hsh]) hlt i
      simp only [samplePos, hG, relPos]
      change (flatGet G k >>= _) = _
      rw [hf]; rfl
  unfold sampleOne
  simp only [hk, hshape]
  rw [← hb, hvals]
  cases hs : scalars with
  | none => exact ⟨_, rfl, fun i => rfl, rfl⟩
  | some p =>
    obtain ⟨sd, sm⟩ := p
    obtain ⟨e1, e2⟩ := hsc sd sm hs
    simp only
    rw [if_pos (by rw [e2]; exact hval)]
    by_cases hdn : dens.isSome
    · have hinc : finSeq (fun i => scalarIncr sd k (loc i) i)
          = (.ok (fun i => meanDiff sd i b * (loc i - 1 / 2)) : Res (Fin d → ℝ)) := by
        rw [finSeq_ok]
        intro i
        obtain ⟨G, hG, hf⟩ := flatGet_grad (a := sd) (shape := M.shape)
          (fun j => by rw [e1, hsh]) hlt i
        simp only [scalarIncr, hG]
        change (flatGet G k >>= _) = _
        rw [hf]; rfl
      rw [if_pos hdn, hinc]
      exact ⟨_, rfl, fun i => rfl, by simp [hdn]⟩
    · rw [if_neg hdn]
      exact ⟨_, rfl, fun i => rfl, by simp [hdn]⟩

/-! ### the constructor -/

lemma initMasses_ok {edges : List (List ℝ)} {dens : NDArr d ℝ} {mass sd sm : Option (NDArr d ℝ)}
    {m : NDArr d ℝ} {sm' : Option (NDArr d ℝ)} (h : initMasses edges dens mass sd sm = .ok (m, sm')) :
    EdgesMatch dens.shape edges ∧
    (∀ i, dens.shape i = m.shape i + 1) ∧
    (mass = some m ∨ mass = none ∧ trapzDensToMass dens edges Finset.univ = .ok m) ∧
    (sm = none → ∀ s, sd = some s → ∃ s', sm' = some s' ∧ trapzDensToMass s edges Finset.univ = .ok s') ∧
    (∀ s, sm = some s → sm' = some s) ∧ (sm = none → sd = none → sm' = none) := by
  unfold initMasses at h
  split_ifs at h with hc
  obtain ⟨h1, h2⟩ := hc
  have key : ∀ (x : Res (NDArr d ℝ)) (y : Res (Option (NDArr d ℝ))),
      ((do let a ← x; let b ← y; return (a, b)) : Res (NDArr d ℝ × Option (NDArr d ℝ))) = .ok (m, sm') →
      x = .ok m ∧ y = .ok sm' := by
    intro x y hxy
    cases x with
    | error e => exact absurd hxy (by intro hh; cases hh)
    | ok a =>
      cases y with
      | error e => exact absurd hxy (by intro hh; cases hh)
      | ok b => 
        have : (Except.ok (a, b) : Res _) = .ok (m, sm') := hxy
        injection this with this
        injection this with e1 e2
        subst e1 e2; exact ⟨rfl, rfl⟩
  obtain ⟨hm, hsm⟩ := key _ _ h
  unfold massArg at hm
  unfold scalarMassArg at hsm
  refine ⟨h1, ?_, ?_, ?_, ?_, ?_⟩
  · cases mass with
    | none =>
      obtain ⟨e1, -, -, e4⟩ := trapzDensToMass_univ hm
      intro i; have := e4 i; simp only [e1]; omega
    | some m0 =>
      injection hm with hm; subst hm
      exact fun i => (h2 m0 rfl i).symm
  · cases mass with
    | none => right; exact ⟨rfl, hm⟩
    | some m0 => left; injection hm with hm; rw [hm]
  · intro hn s hs
    subst hn hs
    simp only at hsm
    cases ht : trapzDensToMass s edges Finset.univ with
    | error e => rw [ht] at hsm; cases hsm
    | ok s' =>
      rw [ht] at hsm
      have : (Except.ok (some s') : Res _) = .ok sm' := hsm
      injection this with this
      exact ⟨s', this.symm, rfl⟩
  · intro s hs; subst hs
    simp only at hsm; injection hsm with hsm; exact hsm.symm
  · intro a b; subst a b
    simp only at hsm; injection hsm with hsm; exact hsm.symm

lemma SampleGrid.init_ok {srt : List ℝ → List ℕ} {edges : List (List ℝ)} {dens : NDArr d ℝ}
    {mass sd sm : Option (NDArr d ℝ)} {g : SampleGrid d}
    (h : SampleGrid.init srt edges dens mass sd sm = .ok g) :
    g.edges = edges ∧ g.dens = dens ∧ g.scalarDens = sd ∧
    initMasses edges dens mass sd sm = .ok (g.mass, g.scalarMass) ∧
    dataToCumulative srt g.mass.flat = .ok (g.idx, g.csum) := by
  unfold SampleGrid.init at h
  cases hi : initMasses edges dens mass sd sm with
  | error e => rw [hi] at h; cases h
  | ok p =>
    obtain ⟨m, s⟩ := p
    rw [hi] at h
    change (dataToCumulative srt m.flat >>= _) = _ at h
    cases hd : dataToCumulative srt m.flat with
    | error e => rw [hd] at h; cases h
    | ok q =>
      obtain ⟨a, b⟩ := q
      rw [hd] at h
      have : (Except.ok _ : Res (SampleGrid d)) = .ok g := h
      injection this with this
      subst this
      exact ⟨rfl, rfl, rfl, rfl, hd⟩

lemma SampleGrid.init_cum {srt : List ℝ → List ℕ} (hs : ∀ l, IsArgsort (srt l) l)
    {edges : List (List ℝ)} {dens : NDArr d ℝ}
    {mass sd sm : Option (NDArr d ℝ)} {g : SampleGrid d}
    (h : SampleGrid.init srt edges dens mass sd sm = .ok g) (ht : 0 < g.mass.sum) :
    CumOK g.mass.flat g.idx g.csum := by
  obtain ⟨-, -, -, -, h5⟩ := SampleGrid.init_ok h
  obtain ⟨i, c, he, hc⟩ := dataToCumulative_ok hs (m := g.mass.flat) (by rwa [NDArr.flat_sum])
  rw [h5] at he
  injection he with he
  injection he with e1 e2
  rw [e1, e2]; exact hc

/-- Bin edges are nondecreasing within the grid. -/
lemma edge_le {shape : Fin d → ℕ} {edges : List (List ℝ)} (h3 : EdgesMatch shape edges)
    (hedges : ∀ e ∈ edges, e.Pairwise (· ≤ ·)) (i : Fin d) (k : ℕ) (hk : k + 1 < shape i) :
    edgeAt edges i k ≤ edgeAt edges i (k + 1) := by
  have hlen := h3.2 i
  have hi : (i : ℕ) < edges.length := by rw [h3.1]; exact i.2
  have hmem : edges.getD i [] ∈ edges := by
    rw [List.getD_eq_getElem _ _ hi]; exact List.getElem_mem hi
  have hp := hedges _ hmem
  rw [edgeAt, edgeAt, List.getD_eq_getElem _ _ (by omega : k + 1 < (edges.getD i []).length),
    List.getD_eq_getElem _ _ (by omega : k < (edges.getD i []).length)]
  exact List.pairwise_iff_getElem.mp hp _ _ _ _ (Nat.lt_succ_self _)

/-- The normalised density used for interpolation (`sample.py:137`). -/
noncomputable def normDens (g : SampleGrid d) (interpolate : Bool) : Option (NDArr d ℝ) :=
  if interpolate then some (g.dens.map (· / (g.dens.sum / g.dens.size))) else none

/-- The scalar arrays used by `sample`. -/
noncomputable def useScalars (g : SampleGrid d) (rs : Option Bool) : Option (NDArr d ℝ × NDArr d ℝ) :=
  match g.scalarDens, g.scalarMass with
  | some sd, some sm => if rs = some false then none else some (sd, sm)
  | _, _ => none

lemma sample_eq (g : SampleGrid d) (r : Rand d) (nsamp : Option ℝ) (interp : Bool) (rs : Option Bool) :
    g.sample r nsamp interp rs =
      if interp = true ∧ g.dens.sum = 0 then .error .unmodelled
      else if pyInt (nsamp.getD g.mass.sum) < 0 then .error .valueError
      else listSeq (fun p : ℝ × ℕ => sampleOne g (normDens g interp) (useScalars g rs) p.1 (r.loc p.2))
        (npSort ((List.range (pyInt (nsamp.getD g.mass.sum)).toNat).map r.u)).zipIdx := rfl

lemma sample_inv {g : SampleGrid d} {r : Rand d} {nsamp : Option ℝ} {interp : Bool} {rs : Option Bool}
    {out : List ((Fin d → ℝ) × Option ℝ)} (h : g.sample r nsamp interp rs = .ok out) :
    (interp = true → g.dens.sum ≠ 0) ∧ 0 ≤ pyInt (nsamp.getD g.mass.sum) ∧
      listSeq (fun p : ℝ × ℕ => sampleOne g (normDens g interp) (useScalars g rs) p.1 (r.loc p.2))
        (npSort ((List.range (pyInt (nsamp.getD g.mass.sum)).toNat).map r.u)).zipIdx = .ok out := by
  rw [sample_eq] at h
  by_cases h1 : interp = true ∧ g.dens.sum = 0
  · rw [if_pos h1] at h; cases h
  · rw [if_neg h1] at h
    by_cases h2 : pyInt (nsamp.getD g.mass.sum) < 0
    · rw [if_pos h2] at h; cases h
    · rw [if_neg h2] at h
      exact ⟨fun a b => h1 ⟨a, b⟩, by omega, h⟩

lemma sample_spec (g : SampleGrid d) {M : NDArr d ℝ} (h : CumOK M.flat g.idx g.csum)
    (hsh : ∀ i, g.dens.shape i = M.shape i + 1) (hm : ∀ b, ValidIdx M.shape b → 0 ≤ M.get b)
    (ht : 0 < M.sum) (r : Rand d) (hr : r.InRange) (nsamp : Option ℝ) (interp : Bool) (rs : Option Bool)
    (hsc : ∀ sd sm, useScalars g rs = some (sd, sm) → sd.shape = g.dens.shape ∧ sm.shape = M.shape)
    (hi : interp = true → g.dens.sum ≠ 0) (hn : 0 ≤ pyInt (nsamp.getD g.mass.sum)) :
    ∃ out, g.sample r nsamp interp rs = .ok out ∧
      out.length = (pyInt (nsamp.getD g.mass.sum)).toNat ∧
      ∀ k (hk : k < out.length), ∃ u : ℝ,
        (npSort ((List.range (pyInt (nsamp.getD g.mass.sum)).toNat).map r.u))[k]? = some u ∧
        0 ≤ u ∧ u < 1 ∧
        (∀ i, out[k].1 i = edgeAt g.edges i (chosenBin M.shape g.idx g.csum u i)
          + (edgeAt g.edges i (chosenBin M.shape g.idx g.csum u i + 1)
              - edgeAt g.edges i (chosenBin M.shape g.idx g.csum u i))
            * relPos (normDens g interp) (chosenBin M.shape g.idx g.csum u) i (r.loc k i)) ∧
        out[k].2 = (useScalars g rs).map fun s => s.2.get (chosenBin M.shape g.idx g.csum u)
          + if interp then
              ∑ i, meanDiff s.1 i (chosenBin M.shape g.idx g.csum u) * (r.loc k i - 1 / 2) else 0 := by
  set n := (pyInt (nsamp.getD g.mass.sum)).toNat with hndef
  set us := npSort ((List.range n).map r.u) with hus
  have hurange : ∀ u ∈ us, 0 ≤ u ∧ u < 1 := by
    intro u hu
    rw [hus, npSort_mem] at hu
    obtain ⟨k, -, rfl⟩ := List.mem_map.mp hu
    exact hr.1 k
  have huslen : us.length = n := by rw [hus, npSort_length]; simp
  have hdens : ∀ dn, normDens g interp = some dn → dn.shape = g.dens.shape := by
    intro dn hdn
    unfold normDens at hdn
    split_ifs at hdn
    injection hdn with hdn; rw [← hdn]; rfl
  have hone := fun (u : ℝ) (h0 : 0 ≤ u) (h1 : u < 1) (loc : Fin d → ℝ) =>
    sampleOne_ok g h hsh hm ht (dens := normDens g interp) (scalars := useScalars g rs)
      hdens hsc h0 h1 loc
  obtain ⟨out, hout⟩ := listSeq_exists
    (f := fun p : ℝ × ℕ => sampleOne g (normDens g interp) (useScalars g rs) p.1 (r.loc p.2))
    (l := us.zipIdx) (by
      rintro ⟨u, k⟩ hp
      have hu : u ∈ us := (List.mem_zipIdx hp).2.2 ▸ List.getElem_mem _
      obtain ⟨o, ho, -⟩ := hone u (hurange u hu).1 (hurange u hu).2 (r.loc k)
      exact ⟨o, ho⟩)
  have hlen : out.length = n := by
    rw [listSeq_length hout, List.length_zipIdx, huslen]
  refine ⟨out, ?_, hlen, fun k hk => ?_⟩
  · unfold SampleGrid.sample
    rw [if_neg (by rintro ⟨a, b⟩; exact hi a b)]
    simp only
    rw [if_neg (by omega)]
    exact hout
  · have hk' : k < us.length := by omega
    refine ⟨us[k], by simp [hk'], hurange _ (List.getElem_mem _) |>.1,
      hurange _ (List.getElem_mem _) |>.2, ?_⟩
    obtain ⟨o, ho, h2, h3⟩ := hone us[k] (hurange _ (List.getElem_mem _)).1
      (hurange _ (List.getElem_mem _)).2 (r.loc k)
    have hf := (listSeq_ok.mp hout).get (i := k) (by simpa using hk') hk
    simp only [List.get_eq_getElem, List.getElem_zipIdx, zero_add] at hf
    rw [ho] at hf
    injection hf with hf
    rw [← hf]
    refine ⟨h2, ?_⟩
    rw [h3]
    have : (normDens g interp).isSome = interp := by
      unfold normDens; cases interp <;> rfl
    rw [this]

end Kalepy
