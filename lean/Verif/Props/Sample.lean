import Mathlib.Analysis.SpecialFunctions.Integrals.Basic
import Mathlib.Tactic.NormNum
import Mathlib.Tactic.FinCases
import Verif.Proofs.SampleGrid
import Verif.Props.Grid
import Verif.Spec.Sample

/-!
# C46, C47, C48, C49, C53, C54: sampling from grids
-/

set_option linter.unusedSectionVars false

namespace Kalepy

variable {d : ℕ}

/-- Sorting functions as assumed of `np.argsort` exist. -/
lemma exists_argsort : ∃ srt : List ℝ → List ℕ, ∀ l, IsArgsort (srt l) l := by
  classical
  refine ⟨fun l => (List.range l.length).insertionSort fun i j => l.getD i 0 ≤ l.getD j 0, fun l => ?_⟩
  refine ⟨List.perm_insertionSort _ _, ?_⟩
  rw [List.pairwise_map]
  have : Std.Total fun i j : ℕ => l.getD i 0 ≤ l.getD j 0 := ⟨fun i j => le_total _ _⟩
  have : IsTrans ℕ fun i j : ℕ => l.getD i 0 ≤ l.getD j 0 := ⟨fun i j k => le_trans⟩
  exact List.pairwise_insertionSort _ _

lemma pyInt_of_nonneg {x : ℝ} (hx : 0 ≤ x) : pyInt x = (⌊x⌋₊ : ℤ) := by
  rw [pyInt, if_pos hx]; exact (Int.natCast_floor_eq_floor hx).symm

lemma toNat_pyInt {x : ℝ} (hx : 0 ≤ x) : (pyInt x).toNat = ⌊x⌋₊ := by
  rw [pyInt_of_nonneg hx]; simp

lemma inBin_of_pos {edges : List (List ℝ)} {shape : Fin d → ℕ} (h3 : EdgesMatch shape edges)
    (hedges : ∀ e ∈ edges, e.Pairwise (· ≤ ·)) {b : Fin d → ℕ} (hb : ∀ i, b i + 1 < shape i)
    {x t : Fin d → ℝ} (ht : ∀ i, 0 ≤ t i ∧ t i ≤ 1)
    (hx : ∀ i : Fin d, x i = edgeAt edges i (b i) + (edgeAt edges i (b i + 1) - edgeAt edges i (b i)) * t i) :
    Spec.InBin edges b x := by
  intro i
  have hle := edge_le h3 hedges i (b i) (hb i)
  change edgeAt edges i (b i) ≤ x i ∧ x i ≤ edgeAt edges i (b i + 1)
  rw [hx i]
  have := ht i
  constructor <;> nlinarith

/-- What the constructor establishes, and how each sample is obtained (helper for the theorems). -/
lemma sample_main {srt : List ℝ → List ℕ} (hs : ∀ l, IsArgsort (srt l) l)
    {edges : List (List ℝ)} {dens : NDArr d ℝ} {mass : Option (NDArr d ℝ)} {g : SampleGrid d}
    (hinit : SampleGrid.init srt edges dens mass = .ok g)
    (hm : ∀ b, ValidIdx g.mass.shape b → 0 ≤ g.mass.get b) (ht : 0 < g.mass.sum)
    (r : Rand d) (hr : r.InRange) (nsamp : Option ℝ) (hn : ∀ x, nsamp = some x → 0 ≤ x) (interp : Bool)
    (hi : interp = true → dens.sum ≠ 0) :
    ∃ out, g.sample r nsamp interp = .ok out ∧
      out.length = ⌊nsamp.getD g.mass.sum⌋₊ ∧
      ∀ k (hk : k < out.length), ∃ u : ℝ,
        (npSort ((List.range ⌊nsamp.getD g.mass.sum⌋₊).map r.u))[k]? = some u ∧
        0 ≤ u ∧ u < 1 ∧
        (∀ i, out[k].1 i = edgeAt edges i (chosenBin g.mass.shape g.idx g.csum u i)
          + (edgeAt edges i (chosenBin g.mass.shape g.idx g.csum u i + 1)
              - edgeAt edges i (chosenBin g.mass.shape g.idx g.csum u i))
            * relPos (normDens g interp) (chosenBin g.mass.shape g.idx g.csum u) i (r.loc k i)) := by
  obtain ⟨e1, e2, e3, e4, e5⟩ := SampleGrid.init_ok hinit
  obtain ⟨f1, f2, -, -, -, f6⟩ := initMasses_ok e4
  have hcum := SampleGrid.init_cum hs hinit ht
  have hnn : 0 ≤ nsamp.getD g.mass.sum := by
    cases nsamp with
    | none => exact ht.le
    | some x => exact hn x rfl
  have hnone : useScalars g none = none := by
    unfold useScalars; rw [e3]
  obtain ⟨out, ho, hl, hk⟩ := sample_spec g hcum (by rw [e2]; exact f2) hm ht r hr nsamp interp none
    (by rw [hnone]; intro _ _ h; cases h) (by rw [e2]; exact hi)
    (by rw [pyInt_of_nonneg hnn]; positivity)
  rw [toNat_pyInt hnn] at hl hk
  refine ⟨out, ho, hl, fun k hk' => ?_⟩
  obtain ⟨u, h1, h2, h3, h4, -⟩ := hk k hk'
  rw [e1] at h4
  exact ⟨u, h1, h2, h3, h4⟩

/-! ## C46 -/

/-- **C46.** For a sampler with nonnegative masses of positive total on nondecreasing edges, every call
with a nonnegative number of samples succeeds for all random values, and every sample lies in a bin
(with positive mass) of the grid; with and without interpolation. -/
theorem C46_samples_in_grid {srt : List ℝ → List ℕ} (hs : ∀ l, IsArgsort (srt l) l)
    {edges : List (List ℝ)} {dens : NDArr d ℝ} {mass : Option (NDArr d ℝ)} {g : SampleGrid d}
    (hinit : SampleGrid.init srt edges dens mass = .ok g)
    (hedges : ∀ e ∈ edges, e.Pairwise (· ≤ ·))
    (hm : ∀ b, ValidIdx g.mass.shape b → 0 ≤ g.mass.get b) (ht : 0 < g.mass.sum)
    (r : Rand d) (hr : r.InRange) (nsamp : Option ℝ) (hn : ∀ x, nsamp = some x → 0 ≤ x) (interp : Bool)
    (hi : interp = true → dens.sum ≠ 0) :
    ∃ out, g.sample r nsamp interp = .ok out ∧
      ∀ s ∈ out, ∃ b, (∀ i, b i + 1 < dens.shape i) ∧ 0 < g.mass.get b ∧ Spec.InBin edges b s.1 := by
  obtain ⟨e1, e2, e3, e4, e5⟩ := SampleGrid.init_ok hinit
  obtain ⟨f1, f2, -⟩ := initMasses_ok e4
  have hcum := SampleGrid.init_cum hs hinit ht
  obtain ⟨out, ho, -, hk⟩ := sample_main hs hinit hm ht r hr nsamp hn interp hi
  refine ⟨out, ho, fun s hsm => ?_⟩
  obtain ⟨k, hk', rfl⟩ := List.getElem_of_mem hsm
  obtain ⟨u, -, h0, h1, hx⟩ := hk k hk'
  obtain ⟨-, -, -, -, hv, hpos⟩ := pick_spec hcum hm ht h0 h1
  have hb : ∀ i, chosenBin g.mass.shape g.idx g.csum u i + 1 < dens.shape i := fun i => by
    rw [f2]; have := hv i; omega
  exact ⟨_, hb, hpos, inBin_of_pos f1 hedges hb
    (fun i => relPos_mem _ _ _ (hr.2 k i).1 (hr.2 k i).2.le) hx⟩

/-- A nonnegative array with a positive cell mass has a positive sum. -/
lemma dens_sum_pos {dens M : NDArr d ℝ} {edges : List (List ℝ)}
    (h : trapzDensToMass dens edges Finset.univ = .ok M)
    (hd : ∀ idx, ValidIdx dens.shape idx → 0 ≤ dens.get idx) (ht : 0 < M.sum) : 0 < dens.sum := by
  obtain ⟨h1, h2⟩ := C38_mass_eq h
  refine lt_of_le_of_ne (Finset.sum_nonneg fun idx hi => hd idx (by simpa using hi)) fun h0 => ?_
  have hz := (Finset.sum_eq_zero_iff_of_nonneg
    (fun idx hi => hd idx (by simpa using hi))).mp h0.symm
  refine ht.ne' (Finset.sum_eq_zero fun idx hi => ?_)
  have hv : ValidIdx M.shape idx := by simpa using hi
  rw [h2, Finset.sum_eq_zero, zero_div, mul_zero]
  intro c _
  refine hz _ (by
    rw [mem_validIdx]; intro i
    have h5 := hv i; have := (c i).2; rw [h1] at h5; show idx i + (c i : ℕ) < dens.shape i; omega)

lemma init_exists {srt : List ℝ → List ℕ} (hs : ∀ l, IsArgsort (srt l) l)
    {edges : List (List ℝ)} {dens M : NDArr d ℝ}
    (hM : trapzDensToMass dens edges Finset.univ = .ok M) (hMpos : 0 < M.sum) :
    ∃ g, SampleGrid.init srt edges dens = .ok g ∧ g.mass = M ∧ g.scalarDens = none := by
  have hmatch := (trapzDensToMass_univ hM).2.2.1
  obtain ⟨idx, csum, hc, -⟩ := dataToCumulative_ok hs (m := M.flat) (by rwa [NDArr.flat_sum])
  refine ⟨⟨edges, dens, M, none, none, idx, csum⟩, ?_, rfl, rfl⟩
  have : initMasses edges dens none none none = .ok (M, none) := by
    unfold initMasses
    rw [if_pos ⟨hmatch, by intro m h; cases h⟩]
    simp only [massArg, hM, scalarMassArg]; rfl
  unfold SampleGrid.init
  rw [this]
  change (dataToCumulative srt M.flat >>= _) = _
  rw [hc]; rfl

/-- **C46.** The same for the function `sample_grid(edges, dens, nsamp)`: for nonnegative densities on
nondecreasing edges whose (trapezoid) integral is positive it succeeds for all random values, returns
`int(nsamp)` samples (default: integral rounded down), all of them inside bins of positive mass. -/
theorem C46_sample_grid {srt : List ℝ → List ℕ} (hs : ∀ l, IsArgsort (srt l) l)
    {edges : List (List ℝ)} {dens : NDArr d ℝ} {T : ℝ} (hT : trapzNd dens edges = .ok T) (hpos : 0 < T)
    (hne : ∀ i, 0 < dens.shape i)
    (hedges : ∀ e ∈ edges, e.Pairwise (· ≤ ·))
    (hd : ∀ idx, ValidIdx dens.shape idx → 0 ≤ dens.get idx)
    (r : Rand d) (hr : r.InRange) (nsamp : Option ℝ) (hn : ∀ x, nsamp = some x → 0 ≤ x) (interp : Bool) :
    ∃ out, sampleGridFn srt r edges dens nsamp (interpolate := interp) = .ok out ∧
      out.length = ⌊nsamp.getD T⌋₊ ∧
      ∀ s ∈ out, ∃ b : Fin d → ℕ, (∀ i, b i + 1 < dens.shape i) ∧ Spec.InBin edges b s.1 := by
  have hmatch : EdgesMatch dens.shape edges := by
    by_contra hc
    rw [trapzNd, if_neg hc] at hT; cases hT
  obtain ⟨M, hM⟩ := trapzDensToMass_ok hmatch Finset.univ hne
  have hMs : M.sum = T := by
    have := C38_mass_sum hM; rw [hT] at this; injection this with this; exact this.symm
  have hMpos : 0 < M.sum := by rw [hMs]; exact hpos
  obtain ⟨g, hinit, rfl, hgs⟩ := init_exists hs hM hMpos
  have hi : interp = true → dens.sum ≠ 0 := fun _ => (dens_sum_pos hM hd hMpos).ne'
  have hMnn := C38_mass_nonneg hM hd hedges
  obtain ⟨out, ho, hin⟩ := C46_samples_in_grid hs hinit hedges hMnn hMpos r hr nsamp hn interp hi
  obtain ⟨out', ho', hl, -⟩ := sample_main hs hinit hMnn hMpos r hr nsamp hn interp hi
  rw [ho] at ho'
  injection ho' with ho'
  subst ho'
  refine ⟨out, ?_, by rw [hl, ← hMs], fun s hsm => ?_⟩
  · unfold sampleGridFn
    rw [hinit]
    simp only [ho, hgs]
    simp
  · obtain ⟨b, h1, -, h2⟩ := hin s hsm
    exact ⟨b, h1, h2⟩

/-! ## C47 and C48 -/

/-- **C47.** No sample ever lies strictly inside a bin of zero mass. -/
theorem C47_empty_bins_not_sampled {srt : List ℝ → List ℕ} (hs : ∀ l, IsArgsort (srt l) l)
    {edges : List (List ℝ)} {dens : NDArr d ℝ} {mass : Option (NDArr d ℝ)} {g : SampleGrid d}
    (hinit : SampleGrid.init srt edges dens mass = .ok g)
    (hedges : ∀ e ∈ edges, e.Pairwise (· ≤ ·))
    (hm : ∀ b, ValidIdx g.mass.shape b → 0 ≤ g.mass.get b) (ht : 0 < g.mass.sum)
    (r : Rand d) (hr : r.InRange) (nsamp : Option ℝ) (interp : Bool)
    (out : List ((Fin d → ℝ) × Option ℝ)) (ho : g.sample r nsamp interp = .ok out)
    (b : Fin d → ℕ) (hb : ∀ i, b i + 1 < dens.shape i) (hzero : g.mass.get b = 0) :
    ∀ s ∈ out, ¬ Spec.InBinInterior edges b s.1 := by
  have hi : interp = true → dens.sum ≠ 0 := by
    obtain ⟨e1, e2, -⟩ := SampleGrid.init_ok hinit
    rw [← e2]; exact (sample_inv ho).1
  -- a negative number of samples that truncates to 0 gives no samples
  by_cases hn : ∀ x, nsamp = some x → 0 ≤ x
  · obtain ⟨out', ho', hin⟩ := C46_samples_in_grid hs hinit hedges hm ht r hr nsamp hn interp hi
    rw [ho] at ho'
    injection ho' with ho'
    subst ho'
    intro s hsm hint
    obtain ⟨b', hb', hpos, hbin⟩ := hin s hsm
    obtain ⟨-, -, -, e4, -⟩ := SampleGrid.init_ok hinit
    obtain ⟨f1, -⟩ := initMasses_ok e4
    have hne : b ≠ b' := by rintro rfl; exact hpos.ne' hzero
    obtain ⟨i, hbi⟩ : ∃ i, b i ≠ b' i := by
      by_contra hc; push Not at hc; exact hne (funext hc)
    have mono : ∀ j k, j ≤ k → k < dens.shape i → edgeAt edges i j ≤ edgeAt edges i k := by
      intro j k hjk hk
      induction k, hjk using Nat.le_induction with
      | base => exact le_rfl
      | succ k _ ih => exact (ih (by omega)).trans (edge_le f1 hedges i k hk)
    obtain ⟨l1, l2⟩ := hint i
    obtain ⟨l3, l4⟩ := hbin i
    change edgeAt edges i (b i) < _ at l1
    change _ < edgeAt edges i (b i + 1) at l2
    change edgeAt edges i (b' i) ≤ _ at l3
    change _ ≤ edgeAt edges i (b' i + 1) at l4
    rcases lt_or_gt_of_ne hbi with h | h
    · have := mono (b i + 1) (b' i) (by omega) (by have := hb' i; omega)
      linarith
    · have := mono (b' i + 1) (b i) (by omega) (by have := hb i; omega)
      linarith
  · push Not at hn
    obtain ⟨x, rfl, hx⟩ := hn
    have ho := (sample_inv ho).2.2
    have hz : (pyInt ((some x : Option ℝ).getD g.mass.sum)).toNat = 0 := by
      simp only [Option.getD_some, pyInt, if_neg (not_le.mpr hx)]
      have : ⌈x⌉ ≤ 0 := Int.ceil_le.mpr (by simpa using hx.le)
      omega
    rw [hz] at ho
    have hl := listSeq_length ho
    simp [npSort] at hl
    intro s hsm
    rw [hl] at hsm; cases hsm

open MeasureTheory in
/-- **C48 (and C47).** There is a selection rule from uniform values to bins such that: bins with zero
mass are never selected; the set of uniform values selecting bin `b` has length `mass b / total`; and
the `k`-th sample always lies in the bin selected by the `k`-th of the sorted uniform draws. -/
theorem C48_bin_probability {srt : List ℝ → List ℕ} (hs : ∀ l, IsArgsort (srt l) l)
    {edges : List (List ℝ)} {dens : NDArr d ℝ} {mass : Option (NDArr d ℝ)} {g : SampleGrid d}
    (hinit : SampleGrid.init srt edges dens mass = .ok g)
    (hedges : ∀ e ∈ edges, e.Pairwise (· ≤ ·))
    (hm : ∀ b, ValidIdx g.mass.shape b → 0 ≤ g.mass.get b) (ht : 0 < g.mass.sum) :
    ∃ select : ℝ → Fin d → ℕ,
      (∀ u, 0 ≤ u → u < 1 → (∀ i, select u i + 1 < dens.shape i) ∧ 0 < g.mass.get (select u)) ∧
      (∀ b, (∀ i, b i + 1 < dens.shape i) →
        volume {u : ℝ | 0 ≤ u ∧ u < 1 ∧ select u = b} = ENNReal.ofReal (g.mass.get b / g.mass.sum)) ∧
      ∀ (r : Rand d) (_ : r.InRange) (n : ℕ) (interp : Bool) (_ : interp = true → dens.sum ≠ 0),
        ∃ out, g.sample r (some n) interp = .ok out ∧ out.length = n ∧
          ∀ k (hk : k < out.length), ∃ u,
            (((List.range n).map r.u).insertionSort (· ≤ ·))[k]? = some u ∧
            Spec.InBin edges (select u) out[k].1 := by
  obtain ⟨e1, e2, e3, e4, e5⟩ := SampleGrid.init_ok hinit
  obtain ⟨f1, f2, -⟩ := initMasses_ok e4
  have hcum := SampleGrid.init_cum hs hinit ht
  have hsel : ∀ u, 0 ≤ u → u < 1 →
      (∀ i, chosenBin g.mass.shape g.idx g.csum u i + 1 < dens.shape i) ∧
      0 < g.mass.get (chosenBin g.mass.shape g.idx g.csum u) := by
    intro u h0 h1
    obtain ⟨-, -, -, -, hv, hpos⟩ := pick_spec hcum hm ht h0 h1
    exact ⟨fun i => by rw [f2]; have := hv i; omega, hpos⟩
  refine ⟨chosenBin g.mass.shape g.idx g.csum, hsel, fun b hb => ?_, ?_⟩
  · have hbv : ValidIdx g.mass.shape b := fun i => by have := hb i; rw [f2] at this; omega
    have hlt := ravelIdx_lt hbv
    have hset : {u : ℝ | 0 ≤ u ∧ u < 1 ∧ chosenBin g.mass.shape g.idx g.csum u = b}
        = {u : ℝ | 0 ≤ u ∧ u < 1 ∧ pickBin g.idx g.csum u = .ok (ravelIdx g.mass.shape b)} := by
      ext u
      simp only [Set.mem_ofPred_eq]
      refine and_congr_right fun h0 => and_congr_right fun h1 => ?_
      obtain ⟨k, hk, hkl, hc, -, -⟩ := pick_spec hcum hm ht h0 h1
      rw [hc, hk]
      constructor
      · rintro rfl; rw [ravel_unravelIdx hkl]
      · intro h; injection h with h; rw [h, unravel_ravelIdx hbv]
    rw [hset, volume_pick hcum (flat_nonneg hm) (by rwa [NDArr.flat_sum]) _
      (by rw [NDArr.flat_length]; exact hlt), NDArr.flat_sum,
      flat_getD _ (by rw [NDArr.flat_length]; exact hlt), unravel_ravelIdx hbv]
  · intro r hr n interp hi
    obtain ⟨out, ho, hl, hk⟩ := sample_main hs hinit hm ht r hr (some (n : ℝ))
      (by intro x hx; injection hx with hx; rw [← hx]; positivity) interp hi
    simp only [Option.getD_some, Nat.floor_natCast] at hl hk
    refine ⟨out, ho, hl, fun k hk' => ?_⟩
    obtain ⟨u, hu, h0, h1, hx⟩ := hk k hk'
    exact ⟨u, hu, inBin_of_pos f1 hedges (hsel u h0 h1).1
      (fun i => relPos_mem _ _ _ (hr.2 k i).1 (hr.2 k i).2.le) hx⟩

/-! ## C53 -/

/-- **C53.** The number of samples: total mass rounded down by default, `int(n)` if `n` is given; each
sample has D coordinates, and one scalar exactly when scalars were given to the constructor and not
declined. -/
theorem C53_number_of_samples {srt : List ℝ → List ℕ}
    {edges : List (List ℝ)} {dens : NDArr d ℝ} {mass sd sm : Option (NDArr d ℝ)} {g : SampleGrid d}
    (hinit : SampleGrid.init srt edges dens mass sd sm = .ok g)
    (r : Rand d) (nsamp : Option ℝ) (interp : Bool) (rs : Option Bool)
    (out : List ((Fin d → ℝ) × Option ℝ)) (ho : g.sample r nsamp interp rs = .ok out) :
    (nsamp = none → 0 ≤ g.mass.sum → out.length = ⌊g.mass.sum⌋₊) ∧
    (∀ x, nsamp = some x → 0 ≤ x → out.length = ⌊x⌋₊) ∧
    (∀ s ∈ out, s.2.isSome = true ↔ (sd.isSome = true ∧ rs ≠ some false)) := by
  obtain ⟨e1, e2, e3, e4, e5⟩ := SampleGrid.init_ok hinit
  obtain ⟨-, -, -, f4, f5, f6⟩ := initMasses_ok e4
  have ho := (sample_inv ho).2.2
  have hlen : out.length = (pyInt (nsamp.getD g.mass.sum)).toNat := by
    rw [listSeq_length ho]; simp [npSort_length]
  refine ⟨?_, ?_, ?_⟩
  · rintro rfl h; rw [hlen]; exact toNat_pyInt h
  · rintro x rfl h; rw [hlen]; exact toNat_pyInt h
  · intro s hs
    obtain ⟨p, -, hp⟩ := listSeq_mem ho s hs
    change sampleOne g (normDens g interp) (useScalars g rs) p.1 (r.loc p.2) = .ok s at hp
    have h2 : s.2.isSome = (useScalars g rs).isSome := by
      unfold sampleOne at hp
      cases hb : pickBin g.idx g.csum p.1 with
      | error e => rw [hb] at hp; cases hp
      | ok k =>
        rw [hb] at hp
        simp only at hp
        cases hv : finSeq fun i => samplePos g.edges (normDens g interp)
            (unravelIdx (fun i => g.dens.shape i - 1) k) k (r.loc p.2 i) i with
        | error e => rw [hv] at hp; cases hp
        | ok vals =>
          rw [hv] at hp
          simp only at hp
          cases hsc : useScalars g rs with
          | none => rw [hsc] at hp; injection hp with hp; rw [← hp]; rfl
          | some q =>
            rw [hsc] at hp
            simp only at hp
            split_ifs at hp
            · cases hq : finSeq fun i => scalarIncr q.1 k (r.loc p.2 i) i with
              | error e => rw [hq] at hp; cases hp
              | ok incr => rw [hq] at hp; injection hp with hp; rw [← hp]; rfl
            · injection hp with hp; rw [← hp]; rfl
    rw [h2]
    unfold useScalars
    rw [e3]
    cases hsd : sd with
    | none => simp
    | some s0 =>
      have : ∃ s', g.scalarMass = some s' := by
        cases hsm : sm with
        | none => obtain ⟨s', h, -⟩ := f4 hsm s0 hsd; exact ⟨s', h⟩
        | some s' => exact ⟨s', f5 s' hsm⟩
      obtain ⟨s', hs'⟩ := this
      rw [hs']
      by_cases hrs : rs = some false <;> simp [hrs]

/-! ## C49 -/

lemma meanDiff_eq (a : NDArr d ℝ) (i : Fin d) (b : Fin d → ℕ) :
    meanDiff a i b = Spec.faceMean a i b 1 - Spec.faceMean a i b 0 := by
  have key : ∀ s : Fin 2, (∑ c : Fin d → Fin 2, if c i = s then a.get (fun j => b j + c j) else 0)
      = ∑ c ∈ corners (Finset.univ.erase i), if s = 0 then a.get (fun j => b j + c j)
          else a.get (fun j => b j + Function.update c i 1 j) := by
    intro s
    have h1 := sum_corners_eq (d := d) (K := ℝ)
      (fun c => if c i = (s : ℕ) then a.get (fun j => b j + c j) else 0)
    have h2 := corners_insert (Finset.univ.erase i) i (by simp)
      (fun c => if c i = (s : ℕ) then a.get (fun j => b j + c j) else (0 : ℝ))
    rw [Finset.insert_erase (Finset.mem_univ i), corners_univ, h1] at h2
    have h3 : ∀ c : Fin d → Fin 2, (c i = s) = (((c i : Fin 2) : ℕ) = (s : ℕ)) := fun c => by
      rw [Fin.ext_iff]
    simp only [h3]
    rw [h2]
    refine Finset.sum_congr rfl fun c hc => ?_
    have hci : c i = 0 := (Finset.mem_filter.mp hc).2 i (by simp)
    fin_cases s <;> simp [hci]
  rw [Spec.faceMean, Spec.faceMean, key, key, meanDiff, ← sub_div, ← Finset.sum_sub_distrib]
  simp

lemma meanDiff_map (a : NDArr d ℝ) (i : Fin d) (b : Fin d → ℕ) (c : ℝ) :
    meanDiff (a.map (· / c)) i b = meanDiff a i b / c := by
  simp only [meanDiff, NDArr.map, ← sub_div, ← Finset.sum_div]
  ring

lemma linearCdf_eq (y0 y1 t : ℝ) : Spec.linearCdf y0 y1 t = y0 * t + (y1 - y0) * t ^ 2 / 2 := by
  have : (fun τ : ℝ => y0 * (1 - τ) + y1 * τ) = fun τ => y0 + (y1 - y0) * τ := by funext τ; ring
  rw [Spec.linearCdf, this, intervalIntegral.integral_add (by simp)
    (Continuous.intervalIntegrable (by fun_prop) _ _), intervalIntegral.integral_const_mul]
  simp
  ring

/-- **C49 (full statement, not true of the code).** In one dimension: with interpolation, the position
of every sample within its bin is the inverse of the cumulative linear density across that bin,
evaluated at the uniform value: the fraction `loc` of the bin's mass lies below the sample. -/
def C49_Claim : Prop :=
  ∀ (srt : List ℝ → List ℕ) (_ : ∀ l, IsArgsort (srt l) l) (edges : List (List ℝ)) (dens : NDArr 1 ℝ)
    (g : SampleGrid 1) (_ : SampleGrid.init srt edges dens = .ok g)
    (_ : ∀ e ∈ edges, e.Pairwise (· < ·)) (_ : ∀ idx, ValidIdx dens.shape idx → 0 ≤ dens.get idx)
    (_ : 0 < g.mass.sum) (r : Rand 1) (_ : r.InRange) (out : List ((Fin 1 → ℝ) × Option ℝ))
    (_ : g.sample r (some 1) = .ok out),
    ∀ k (hk : k < out.length), ∃ (b : Fin 1 → ℕ) (t : ℝ), b 0 + 1 < dens.shape 0 ∧ 0 < g.mass.get b ∧
      0 ≤ t ∧ t ≤ 1 ∧
      out[k].1 0 = edgeAt edges 0 (b 0) + (edgeAt edges 0 (b 0 + 1) - edgeAt edges 0 (b 0)) * t ∧
      Spec.linearCdf (dens.get b) (dens.get fun _ => b 0 + 1) t
        = r.loc k 0 * Spec.linearCdf (dens.get b) (dens.get fun _ => b 0 + 1) 1

/-- **C49 (partial).** What holds in every dimension: the position along each axis inverts the
cumulative function of a linear density with the right mean slope across the bin, but with the mean
density `ρ` of the whole grid in place of that of the bin (slopes below `1e-16 ρ` are ignored).
Missing: the density's own bin mean, see `C49_refuted`. -/
theorem C49_position_partial {srt : List ℝ → List ℕ} (hs : ∀ l, IsArgsort (srt l) l)
    {edges : List (List ℝ)} {dens : NDArr d ℝ} {mass : Option (NDArr d ℝ)} {g : SampleGrid d}
    (hinit : SampleGrid.init srt edges dens mass = .ok g)
    (hm : ∀ b, ValidIdx g.mass.shape b → 0 ≤ g.mass.get b) (ht : 0 < g.mass.sum)
    (r : Rand d) (hr : r.InRange) (nsamp : Option ℝ) (hn : ∀ x, nsamp = some x → 0 ≤ x)
    (ρ : ℝ) (hρ : ρ = dens.sum / ∏ i, (dens.shape i : ℝ)) (hρ0 : ρ ≠ 0) :
    ∃ out, g.sample r nsamp = .ok out ∧ ∀ k (hk : k < out.length), ∃ (b : Fin d → ℕ) (t : Fin d → ℝ),
      (∀ i, b i + 1 < dens.shape i) ∧ 0 < g.mass.get b ∧ ∀ i : Fin d, 0 ≤ t i ∧ t i ≤ 1 ∧
        out[k].1 i = edgeAt edges i (b i) + (edgeAt edges i (b i + 1) - edgeAt edges i (b i)) * t i ∧
        (1 / 10 ^ 16 < |(Spec.faceMean dens i b 1 - Spec.faceMean dens i b 0) / ρ| →
          Spec.linearCdf (ρ - (Spec.faceMean dens i b 1 - Spec.faceMean dens i b 0) / 2)
            (ρ + (Spec.faceMean dens i b 1 - Spec.faceMean dens i b 0) / 2) (t i) = r.loc k i * ρ) ∧
        (|(Spec.faceMean dens i b 1 - Spec.faceMean dens i b 0) / ρ| ≤ 1 / 10 ^ 16 →
          t i = r.loc k i) := by
  obtain ⟨e1, e2, e3, e4, e5⟩ := SampleGrid.init_ok hinit
  obtain ⟨f1, f2, -⟩ := initMasses_ok e4
  have hcum := SampleGrid.init_cum hs hinit ht
  have hρ' : g.dens.sum / (g.dens.size : ℝ) = ρ := by
    rw [hρ, e2, NDArr.size]; push_cast; rfl
  obtain ⟨out, ho, -, hk⟩ := sample_main hs hinit hm ht r hr nsamp hn true
    (fun _ h0 => hρ0 (by rw [hρ, h0, zero_div]))
  refine ⟨out, ho, fun k hk' => ?_⟩
  obtain ⟨u, -, h0, h1, hx⟩ := hk k hk'
  obtain ⟨-, -, -, -, hv, hpos⟩ := pick_spec hcum hm ht h0 h1
  set b := chosenBin g.mass.shape g.idx g.csum u
  refine ⟨b, fun i => relPos (normDens g true) b i (r.loc k i), fun i => by rw [f2]; have := hv i; omega,
    hpos, fun i => ?_⟩
  obtain ⟨l0, l1⟩ := hr.2 k i
  obtain ⟨m0, m1⟩ := relPos_mem (normDens g true) b i l0 l1.le
  have hrel : relPos (normDens g true) b i (r.loc k i)
      = intrabin (r.loc k i) ((Spec.faceMean dens i b 1 - Spec.faceMean dens i b 0) / ρ) := by
    simp only [relPos, normDens, if_true]
    rw [meanDiff_map, hρ', e2, meanDiff_eq]
  refine ⟨m0, m1, hx i, fun hg => ?_, fun hg => ?_⟩
  · simp only [hrel]
    rw [linearCdf_eq]
    set D := Spec.faceMean dens i b 1 - Spec.faceMean dens i b 0
    have := intrabin_cdf (g := D / ρ) l0 l1.le hg
    set t := intrabin (r.loc k i) (D / ρ)
    rw [← this]
    field_simp
    ring
  · simp only [hrel, intrabin, if_neg (not_lt.mpr hg)]

/-- **C49 (exact case, partial).** In bins whose mean corner density equals the mean over the whole
grid (for instance when the grid has a single bin), the position follows the (marginal) linear
interpolant of the density across the bin exactly. -/
theorem C49_exact_bin_partial {srt : List ℝ → List ℕ} (hs : ∀ l, IsArgsort (srt l) l)
    {edges : List (List ℝ)} {dens : NDArr d ℝ} {mass : Option (NDArr d ℝ)} {g : SampleGrid d}
    (hinit : SampleGrid.init srt edges dens mass = .ok g)
    (hm : ∀ b, ValidIdx g.mass.shape b → 0 ≤ g.mass.get b) (ht : 0 < g.mass.sum)
    (r : Rand d) (hr : r.InRange) (nsamp : Option ℝ) (hn : ∀ x, nsamp = some x → 0 ≤ x)
    (ρ : ℝ) (hρ : ρ = dens.sum / ∏ i, (dens.shape i : ℝ)) (hρ0 : ρ ≠ 0) :
    ∃ out, g.sample r nsamp = .ok out ∧ ∀ k (hk : k < out.length), ∃ (b : Fin d → ℕ) (t : Fin d → ℝ),
      (∀ i, b i + 1 < dens.shape i) ∧ 0 < g.mass.get b ∧ ∀ i : Fin d, 0 ≤ t i ∧ t i ≤ 1 ∧
        out[k].1 i = edgeAt edges i (b i) + (edgeAt edges i (b i + 1) - edgeAt edges i (b i)) * t i ∧
        (1 / 10 ^ 16 < |(Spec.faceMean dens i b 1 - Spec.faceMean dens i b 0) / ρ| ∨
            Spec.faceMean dens i b 1 = Spec.faceMean dens i b 0 →
          (Spec.faceMean dens i b 0 + Spec.faceMean dens i b 1) / 2 = ρ →
          Spec.linearCdf (Spec.faceMean dens i b 0) (Spec.faceMean dens i b 1) (t i)
            = r.loc k i * Spec.linearCdf (Spec.faceMean dens i b 0) (Spec.faceMean dens i b 1) 1) := by
  obtain ⟨out, ho, hk⟩ := C49_position_partial hs hinit hm ht r hr nsamp hn ρ hρ hρ0
  refine ⟨out, ho, fun k hk' => ?_⟩
  obtain ⟨b, t, hb, hpos, h⟩ := hk k hk'
  refine ⟨b, t, hb, hpos, fun i => ?_⟩
  obtain ⟨h0, h1, hx, ha, hc⟩ := h i
  refine ⟨h0, h1, hx, fun hcase hmean => ?_⟩
  rcases hcase with hg | heq
  · have := ha hg
    rw [linearCdf_eq] at this ⊢
    rw [linearCdf_eq, ← hmean] at *
    linarith [this]
  · have : t i = r.loc k i := hc (by rw [heq]; simp)
    rw [linearCdf_eq, linearCdf_eq, heq, this]
    ring

/-- The densities `1, 0, 0` on the grid `0, 1, 2`. -/
def exDens1 : NDArr 1 ℝ := ⟨fun _ => 3, fun idx => if idx 0 = 0 then 1 else 0⟩

lemma exDens1_match : EdgesMatch exDens1.shape [[(0 : ℝ), 1, 2]] :=
  ⟨rfl, fun i => by fin_cases i; rfl⟩

lemma exDens1_mass : ∃ M, trapzDensToMass exDens1 [[(0 : ℝ), 1, 2]] Finset.univ = .ok M ∧
    (∀ i, M.shape i = 2) ∧ (M.get fun _ => 0) = 1 / 2 ∧ (M.get fun _ => 1) = 0 := by
  obtain ⟨M, hM⟩ := trapzDensToMass_ok exDens1_match Finset.univ (fun i => by simp [exDens1])
  obtain ⟨h1, h2⟩ := C38_mass_eq hM
  refine ⟨M, hM, h1, ?_, ?_⟩ <;> rw [h2]
  · rw [Fintype.sum_equiv (Equiv.funUnique (Fin 1) (Fin 2)) _
      (fun c : Fin 2 => exDens1.get fun _ => 0 + (c : ℕ)) (by intro c; congr 1; funext i; fin_cases i; rfl)]
    simp [exDens1, edgeAt, Fin.sum_univ_two]
  · rw [Fintype.sum_equiv (Equiv.funUnique (Fin 1) (Fin 2)) _
      (fun c : Fin 2 => exDens1.get fun _ => 1 + (c : ℕ)) (by intro c; congr 1; funext i; fin_cases i; rfl)]
    simp [exDens1, edgeAt]

lemma sum_one (a : NDArr 1 ℝ) : a.sum = ∑ k ∈ Finset.range (a.shape 0), a.get fun _ => k := by
  refine Finset.sum_nbij' (fun idx => idx 0) (fun k _ => k) ?_ ?_ ?_ ?_ ?_
  · intro idx h; simpa using (mem_validIdx.mp h) 0
  · intro k hk; rw [mem_validIdx]; intro i; fin_cases i; simpa using hk
  · intro idx _; funext i; fin_cases i; rfl
  · intro k _; rfl
  · intro idx _; congr 1; funext i; fin_cases i; rfl

/-- **C49 is false of the code.** On the grid `0, 1, 2` with densities `1, 0, 0` only the first bin can
be chosen, and the uniform value 1/4 does not give the position below which 1/4 of its mass lies. -/
theorem C49_refuted : ¬ C49_Claim := by
  intro hC
  obtain ⟨srt, hs⟩ := exists_argsort
  obtain ⟨M, hM, hsh, hm0, hm1⟩ := exDens1_mass
  have hinc : ∀ e ∈ [[(0 : ℝ), 1, 2]], e.Pairwise (· < ·) := by
    intro e he; simp only [List.mem_singleton] at he; subst he; norm_num
  have hinc' : ∀ e ∈ [[(0 : ℝ), 1, 2]], e.Pairwise (· ≤ ·) := fun e he =>
    (hinc e he).imp fun h => h.le
  have hd : ∀ idx, ValidIdx exDens1.shape idx → 0 ≤ exDens1.get idx := by
    intro idx _; simp only [exDens1]; split <;> norm_num
  have hMnn := C38_mass_nonneg hM hd hinc'
  have hMsum : M.sum = 1 / 2 := by
    rw [sum_one, hsh 0, Finset.sum_range_succ, Finset.sum_range_one, hm0, hm1]; norm_num
  have hpos : 0 < M.sum := by rw [hMsum]; norm_num
  obtain ⟨g, hg, rfl, -⟩ := init_exists hs hM hpos
  have hρ : (1 / 3 : ℝ) = exDens1.sum / ∏ i, (exDens1.shape i : ℝ) := by
    rw [sum_one]; simp [exDens1, Finset.sum_range_succ]
  have hr : (⟨fun _ => 0, fun _ _ => 1 / 4⟩ : Rand 1).InRange :=
    ⟨fun _ => by norm_num, fun _ _ => by norm_num⟩
  obtain ⟨out, ho, hk⟩ := C49_position_partial hs hg hMnn hpos _ hr (some 1)
    (by intro x hx; injection hx with hx; rw [← hx]; norm_num) (1 / 3) hρ (by norm_num)
  have hl : out.length = 1 := by
    have := (C53_number_of_samples hg _ _ _ _ out ho).2.1 1 rfl (by norm_num)
    simpa using this
  obtain ⟨b, t, hb, hbpos, h⟩ := hk 0 (by omega)
  obtain ⟨h0, h1, hx, ha, -⟩ := h 0
  obtain ⟨b', t', hb', hbpos', h0', h1', hx', hcl⟩ := hC srt hs _ exDens1 g hg hinc hd hpos _ hr out ho 0
    (by omega)
  have hzero : ∀ b : Fin 1 → ℕ, b 0 + 1 < exDens1.shape 0 → 0 < g.mass.get b → b = fun _ => 0 := by
    intro b hb hp
    have hb3 : b 0 + 1 < 3 := hb
    have hbe : b = fun _ => b 0 := by funext i; fin_cases i; rfl
    have : b 0 = 0 ∨ b 0 = 1 := by omega
    rcases this with h | h
    · rw [hbe, h]
    · rw [hbe, h, hm1] at hp; exact absurd hp (lt_irrefl _)
  have e := hzero b (hb 0) hbpos
  have e' := hzero b' hb' hbpos'
  subst e e'
  have hf : ∀ s : Fin 2, Spec.faceMean exDens1 0 (fun _ => 0) s = if s = 0 then 1 else 0 := by
    intro s
    rw [Spec.faceMean, Fintype.sum_equiv (Equiv.funUnique (Fin 1) (Fin 2)) _
      (fun c : Fin 2 => if c = s then exDens1.get fun _ => 0 + (c : ℕ) else 0)
      (by intro c; simp only [Equiv.funUnique_apply]
          congr 2; funext i; fin_cases i; rfl)]
    fin_cases s <;> simp [exDens1]
  have hlaw := ha (by rw [hf, hf]; norm_num)
  rw [hf, hf, linearCdf_eq] at hlaw
  rw [linearCdf_eq, linearCdf_eq] at hcl
  have hd0 : exDens1.get (fun _ => 0) = 1 := by simp [exDens1]
  have hd1 : exDens1.get (fun _ => 0 + 1) = 0 := by simp [exDens1]
  simp only [hd0, hd1] at hcl
  rw [hx] at hx'
  simp [edgeAt] at hx'
  rw [← hx'] at hcl
  norm_num at hlaw hcl
  nlinarith

/-! ## C54 -/

/-- **C54 (full statement, not true of the code).** -/
def C54_Claim : Prop :=
  ∀ (d : ℕ) (_ : 0 < d) (srt : List ℝ → List ℕ) (_ : ∀ l, IsArgsort (srt l) l) (edges : List (List ℝ))
    (dens sd : NDArr d ℝ) (T : ℝ) (_ : trapzNd dens edges = .ok T) (_ : 0 < T) (_ : ∀ i, 0 < dens.shape i)
    (_ : ∀ e ∈ edges, e.Pairwise (· ≤ ·)) (_ : ∀ idx, ValidIdx dens.shape idx → 0 ≤ dens.get idx)
    (_ : sd.shape = dens.shape) (r : Rand d) (_ : r.InRange) (n : ℕ),
    ∃ out, sampleGridFn srt r edges dens (some n) (scalarDens := some sd) = .ok out ∧
      ∀ s ∈ out, s.2.isSome = true

lemma scalar_init_exists {srt : List ℝ → List ℕ} (hs : ∀ l, IsArgsort (srt l) l)
    {edges : List (List ℝ)} {dens sd : NDArr d ℝ} {T : ℝ} (hT : trapzNd dens edges = .ok T) (hpos : 0 < T)
    (hne : ∀ i, 0 < dens.shape i) (hedges : ∀ e ∈ edges, e.Pairwise (· ≤ ·))
    (hd : ∀ idx, ValidIdx dens.shape idx → 0 ≤ dens.get idx)
    (hsd : sd.shape = dens.shape) (r : Rand d) (hr : r.InRange) (n : ℕ) (interp : Bool) :
    ∃ g out S, SampleGrid.init srt edges dens none (some sd) none = .ok g ∧ g.scalarDens = some sd ∧
      trapzDensToMass sd edges Finset.univ = .ok S ∧
      g.sample r (some (n : ℝ)) interp = .ok out ∧ out.length = n ∧
      ∀ k (hk : k < out.length), ∃ b : Fin d → ℕ, (∀ i, b i + 1 < dens.shape i) ∧
        Spec.InBin edges b out[k].1 ∧ (∀ M, trapzDensToMass dens edges Finset.univ = .ok M → 0 < M.get b) ∧
        out[k].2 = some (S.get b + if interp then
          ∑ i, (Spec.faceMean sd i b 1 - Spec.faceMean sd i b 0) * (r.loc k i - 1 / 2) else 0) := by
  have hmatch : EdgesMatch dens.shape edges := by
    by_contra hc
    rw [trapzNd, if_neg hc] at hT; cases hT
  obtain ⟨M, hM⟩ := trapzDensToMass_ok hmatch Finset.univ hne
  obtain ⟨S, hS⟩ := trapzDensToMass_ok (pdf := sd) (hsd ▸ hmatch) Finset.univ (by rw [hsd]; exact hne)
  have hMs : M.sum = T := by
    have := C38_mass_sum hM; rw [hT] at this; injection this with this; exact this.symm
  have hMpos : 0 < M.sum := by rw [hMs]; exact hpos
  obtain ⟨idx, csum, hc, hcum⟩ := dataToCumulative_ok hs (m := M.flat) (by rwa [NDArr.flat_sum])
  have hinit : SampleGrid.init srt edges dens none (some sd) none
      = .ok ⟨edges, dens, M, some sd, some S, idx, csum⟩ := by
    have : initMasses edges dens none (some sd) none = .ok (M, some S) := by
      unfold initMasses
      rw [if_pos ⟨hmatch, by intro m h; cases h⟩]
      simp only [massArg, hM, scalarMassArg, hS]; rfl
    unfold SampleGrid.init
    rw [this]
    change (dataToCumulative srt M.flat >>= _) = _
    rw [hc]; rfl
  obtain ⟨-, -, -, e4, -⟩ := SampleGrid.init_ok hinit
  obtain ⟨f1, f2, -⟩ := initMasses_ok e4
  set g : SampleGrid d := ⟨edges, dens, M, some sd, some S, idx, csum⟩ with hg
  have hMnn := C38_mass_nonneg hM hd hedges
  have hSsh : S.shape = M.shape := by
    funext i; rw [(C38_mass_eq hS).1, (C38_mass_eq hM).1, hsd]
  obtain ⟨out, ho, hl, hk⟩ := sample_spec g (M := M) hcum f2 hMnn hMpos r hr (some (n : ℝ)) interp none
    (by
      intro sd' sm' h
      have h' : some (sd, S) = some (sd', sm') := h
      injection h' with h'
      injection h' with h1 h2
      subst h1 h2
      exact ⟨hsd, hSsh⟩)
    (fun _ => (dens_sum_pos hM hd hMpos).ne')
    (by rw [Option.getD_some, pyInt_of_nonneg (by positivity)]; positivity)
  refine ⟨g, out, S, hinit, rfl, hS, ho, ?_, fun k hk' => ?_⟩
  · rw [hl, Option.getD_some, toNat_pyInt (by positivity), Nat.floor_natCast]
  · obtain ⟨u, -, h0, h1, hx, hsc⟩ := hk k hk'
    obtain ⟨-, -, -, -, hv, hpb⟩ := pick_spec hcum hMnn hMpos h0 h1
    have hb : ∀ i, chosenBin M.shape g.idx g.csum u i + 1 < dens.shape i := fun i => by
      have h6 : dens.shape i = M.shape i + 1 := f2 i
      have h7 : chosenBin M.shape g.idx g.csum u i < M.shape i := hv i
      omega
    refine ⟨_, hb, inBin_of_pos f1 hedges hb
      (fun i => relPos_mem _ _ _ (hr.2 k i).1 (hr.2 k i).2.le) hx, fun M' hM' => ?_, ?_⟩
    · rw [hM] at hM'; injection hM' with hM'; subst hM'; exact hpb
    rw [hsc]
    simp only [meanDiff_eq]
    rfl

/-- **C54 is false of the code** in one dimension: `squeeze()` is called on the returned tuple. -/
theorem C54_refuted : ¬ C54_Claim := by
  intro hC
  obtain ⟨srt, hs⟩ := exists_argsort
  obtain ⟨M, hM, hsh, hm0, hm1⟩ := exDens1_mass
  have hinc' : ∀ e ∈ [[(0 : ℝ), 1, 2]], e.Pairwise (· ≤ ·) := by
    intro e he; simp only [List.mem_singleton] at he; subst he; norm_num
  have hd : ∀ idx, ValidIdx exDens1.shape idx → 0 ≤ exDens1.get idx := by
    intro idx _; simp only [exDens1]; split <;> norm_num
  have hMsum : M.sum = 1 / 2 := by
    rw [sum_one, hsh 0, Finset.sum_range_succ, Finset.sum_range_one, hm0, hm1]; norm_num
  have hr : (⟨fun _ => 0, fun _ _ => 1 / 4⟩ : Rand 1).InRange :=
    ⟨fun _ => by norm_num, fun _ _ => by norm_num⟩
  have hT : trapzNd exDens1 [[(0 : ℝ), 1, 2]] = .ok (1 / 2) := by rw [C38_mass_sum hM, hMsum]
  have hne : ∀ i, 0 < exDens1.shape i := fun i => by simp [exDens1]
  obtain ⟨g, out, S, hi, hgs, -, ho, -⟩ := scalar_init_exists (sd := exDens1) hs hT (by norm_num) hne
    hinc' hd rfl _ hr 1 true
  obtain ⟨out', ho', -⟩ := hC 1 one_pos srt hs _ exDens1 exDens1 _ hT (by norm_num) hne hinc' hd rfl _ hr 1
  unfold sampleGridFn at ho'
  rw [hi] at ho'
  simp only [ho, hgs] at ho'
  simp at ho'

/-- **C54 (partial).** In every dimension other than one, `sample_grid` with `scalar_dens` returns `n`
samples, each in some bin of the grid, together with a scalar: the scalar's mass in that bin, plus, with
interpolation, the scalar's mean change across the bin along each axis times the offset of the uniform
value from 1/2.  Missing: one dimension with the default `squeeze`, which raises. -/
theorem C54_scalars_partial {srt : List ℝ → List ℕ} (hs : ∀ l, IsArgsort (srt l) l)
    {edges : List (List ℝ)} {dens sd : NDArr d ℝ} {T : ℝ} (hT : trapzNd dens edges = .ok T) (hpos : 0 < T)
    (hne : ∀ i, 0 < dens.shape i) (hedges : ∀ e ∈ edges, e.Pairwise (· ≤ ·))
    (hd : ∀ idx, ValidIdx dens.shape idx → 0 ≤ dens.get idx)
    (hsd : sd.shape = dens.shape) (r : Rand d) (hr : r.InRange) (n : ℕ) (interp : Bool)
    (squeeze : Option Bool) (hsq : squeeze = some false ∨ squeeze = none ∧ d ≠ 1) :
    ∃ out S, sampleGridFn srt r edges dens (some n) (scalarDens := some sd) (squeeze := squeeze)
        (interpolate := interp) = .ok out ∧ out.length = n ∧
      trapzDensToMass sd edges Finset.univ = .ok S ∧
      ∀ k (hk : k < out.length), ∃ b : Fin d → ℕ, (∀ i, b i + 1 < dens.shape i) ∧
        Spec.InBin edges b out[k].1 ∧
        out[k].2 = some (S.get b + if interp then
          ∑ i, (Spec.faceMean sd i b 1 - Spec.faceMean sd i b 0) * (r.loc k i - 1 / 2) else 0) := by
  obtain ⟨g, out, S, hi, hgs, hS, ho, hl, hk⟩ := scalar_init_exists (sd := sd) hs hT hpos hne
    hedges hd hsd r hr n interp
  refine ⟨out, S, ?_, hl, hS, fun k hk' => ?_⟩
  rotate_left
  · obtain ⟨b, h1, h2, -, h3⟩ := hk k hk'
    exact ⟨b, h1, h2, h3⟩
  unfold sampleGridFn
  rw [hi]
  simp only [ho]
  rw [if_neg]
  rcases hsq with h | ⟨h, h'⟩ <;> simp [h]
  simp [h']

/-! ### the hypotheses can be met -/

/-- Random values, densities and edges in two dimensions meeting the hypotheses of C46 and C54. -/
example : ∃ (srt : List ℝ → List ℕ) (dens : NDArr 2 ℝ) (T : ℝ) (r : Rand 2),
    (∀ l, IsArgsort (srt l) l) ∧ trapzNd dens [[0, 1], [0, 1, 3]] = .ok T ∧ 0 < T ∧
    (∀ i, 0 < dens.shape i) ∧ (∀ e ∈ [[(0 : ℝ), 1], [0, 1, 3]], e.Pairwise (· ≤ ·)) ∧
    (∀ idx, ValidIdx dens.shape idx → 0 ≤ dens.get idx) ∧ r.InRange := by
  obtain ⟨srt, hs⟩ := exists_argsort
  have hmatch : EdgesMatch (![2, 3] : Fin 2 → ℕ) [[(0 : ℝ), 1], [0, 1, 3]] :=
    ⟨rfl, fun i => by fin_cases i <;> rfl⟩
  let dens : NDArr 2 ℝ := ⟨![2, 3], fun idx => 1 + idx 0 + 2 * idx 1⟩
  have hne : ∀ i, 0 < dens.shape i := by intro i; fin_cases i <;> decide
  have hd : ∀ idx, 0 < dens.get idx := fun idx => by simp only [dens]; positivity
  obtain ⟨M, hM⟩ := trapzDensToMass_ok (pdf := dens) hmatch Finset.univ hne
  refine ⟨srt, dens, M.sum, ⟨fun _ => 1 / 3, fun _ _ => 1 / 2⟩, hs, C38_mass_sum hM, ?_, hne, ?_,
    fun idx _ => (hd idx).le, fun _ => by norm_num, fun _ _ => by norm_num⟩
  · obtain ⟨h1, h2⟩ := C38_mass_eq hM
    refine Finset.sum_pos (fun idx hidx => ?_) ⟨fun _ => 0, ?_⟩
    · rw [h2]
      have hv := mem_validIdx.mp hidx
      refine mul_pos (Finset.prod_pos fun i _ => ?_) (div_pos (Finset.sum_pos (fun c _ => hd _)
        ⟨fun _ => 0, Finset.mem_univ _⟩) (by positivity))
      have hi := hv i
      rw [h1] at hi
      fin_cases i
      · have : idx 0 = 0 := by have h7 : idx 0 < 2 - 1 := hi; omega
        simp [edgeAt, this]
      · have h7 : idx 1 < 3 - 1 := hi
        have : idx 1 = 0 ∨ idx 1 = 1 := by omega
        rcases this with h | h <;> simp [edgeAt, h]
    · rw [mem_validIdx]; intro i; rw [h1]; fin_cases i <;> decide
  · intro e he
    simp only [List.mem_cons, List.not_mem_nil, or_false] at he
    rcases he with rfl | rfl <;> norm_num

/-- A 1D sampler meeting the hypotheses of C46 (class version), C47, C48, C49: it exists, its masses are
nonnegative with positive total, and its second bin has mass zero. -/
example : ∃ (srt : List ℝ → List ℕ) (g : SampleGrid 1), (∀ l, IsArgsort (srt l) l) ∧
    SampleGrid.init srt [[0, 1, 2]] exDens1 = .ok g ∧
    (∀ b, ValidIdx g.mass.shape b → 0 ≤ g.mass.get b) ∧ 0 < g.mass.sum ∧ exDens1.sum ≠ 0 ∧
    g.mass.get (fun _ => 1) = 0 := by
  obtain ⟨srt, hs⟩ := exists_argsort
  obtain ⟨M, hM, hsh, hm0, hm1⟩ := exDens1_mass
  have hinc' : ∀ e ∈ [[(0 : ℝ), 1, 2]], e.Pairwise (· ≤ ·) := by
    intro e he; simp only [List.mem_singleton] at he; subst he; norm_num
  have hd : ∀ idx, ValidIdx exDens1.shape idx → 0 ≤ exDens1.get idx := by
    intro idx _; simp only [exDens1]; split <;> norm_num
  have hMsum : M.sum = 1 / 2 := by
    rw [sum_one, hsh 0, Finset.sum_range_succ, Finset.sum_range_one, hm0, hm1]; norm_num
  have hpos : 0 < M.sum := by rw [hMsum]; norm_num
  obtain ⟨g, hg, rfl, -⟩ := init_exists hs hM hpos
  exact ⟨srt, g, hs, hg, C38_mass_nonneg hM hd hinc', hpos, (dens_sum_pos hM hd hpos).ne', hm1⟩

end Kalepy
