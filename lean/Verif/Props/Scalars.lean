import Mathlib.Tactic.FinCases
import Verif.Props.Sample

/-!
# C76, C77: scalars returned together with grid samples, and proportional sampling
-/

namespace Kalepy

variable {d : ℕ}

/-- A scalar field given on the grid is the affine function `c + Σ a_i x_i` of the position. -/
def Spec.IsAffineField {d : ℕ} (edges : List (List ℝ)) (sd : NDArr d ℝ) (c : ℝ) (a : Fin d → ℝ) : Prop :=
  ∀ idx, ValidIdx sd.shape idx → sd.get idx = c + ∑ i : Fin d, a i * (edges.getD i []).getD (idx i) 0

/-- Arguments with which `Sample_Grid(edges, dens, scalar_dens=sd)` can be sampled. -/
structure Spec.ScalarArgs {d : ℕ} (srt : List ℝ → List ℕ) (edges : List (List ℝ)) (dens sd : NDArr d ℝ) (T : ℝ)
    (r : Rand d) : Prop where
  dim : 0 < d
  argsort : ∀ l, IsArgsort (srt l) l
  total : trapzNd dens edges = .ok T
  pos : 0 < T
  nonempty : ∀ i, 0 < dens.shape i
  sorted : ∀ e ∈ edges, e.Pairwise (· ≤ ·)
  nonneg : ∀ idx, ValidIdx dens.shape idx → 0 ≤ dens.get idx
  same : sd.shape = dens.shape
  rand : r.InRange

/-- **C76 (full statement, not true of the code).** When samples are drawn from a grid with a scalar field, the scalar
returned with each sample is the value of the field at the sample.  Stated for the fields that every interpolation
rule reproduces: affine functions of the position. -/
def C76_Claim : Prop :=
  ∀ (d : ℕ) (srt : List ℝ → List ℕ) (edges : List (List ℝ)) (dens sd : NDArr d ℝ) (T : ℝ) (r : Rand d)
    (_ : Spec.ScalarArgs srt edges dens sd T r) (c : ℝ) (a : Fin d → ℝ) (_ : Spec.IsAffineField edges sd c a)
    (g : SampleGrid d) (_ : SampleGrid.init srt edges dens none (some sd) none = .ok g) (n : ℕ)
    (out : List ((Fin d → ℝ) × Option ℝ)) (_ : g.sample r (some n) = .ok out),
    ∀ s ∈ out, s.2 = some (c + ∑ i, a i * s.1 i)

/-- **C76 (restricted to grids all of whose bins have unit volume, still not true of the code).** -/
def C76_unit_Claim : Prop :=
  ∀ (d : ℕ) (srt : List ℝ → List ℕ) (edges : List (List ℝ)) (dens sd : NDArr d ℝ) (T : ℝ) (r : Rand d)
    (_ : Spec.ScalarArgs srt edges dens sd T r) (_ : ∀ b : Fin d → ℕ, (∀ i, b i + 1 < dens.shape i) → Spec.binVolume edges b = 1)
    (c : ℝ) (a : Fin d → ℝ) (_ : Spec.IsAffineField edges sd c a)
    (g : SampleGrid d) (_ : SampleGrid.init srt edges dens none (some sd) none = .ok g) (n : ℕ)
    (out : List ((Fin d → ℝ) × Option ℝ)) (_ : g.sample r (some n) = .ok out),
    ∀ s ∈ out, s.2 = some (c + ∑ i, a i * s.1 i)

lemma mass_get_eq {sd S : NDArr d ℝ} {edges : List (List ℝ)} (h : trapzDensToMass sd edges Finset.univ = .ok S)
    (b : Fin d → ℕ) : S.get b = Spec.binVolume edges b * Spec.cornerMean sd b :=
  (C38_mass_eq h).2 b

/-- **C76 (partial).** What is returned with each of the `n` samples instead: the *volume* of the sample's bin times the
mean of the field over the corners of the bin, plus, with interpolation, for each axis the mean change of the field
across the bin times the offset from 1/2 of the uniform value from which the position was computed.  (Missing: the value
of the field at the sample, see `C76_refuted`, `C76_unit_refuted`.) -/
theorem C76_formula_partial {srt : List ℝ → List ℕ} {edges : List (List ℝ)} {dens sd : NDArr d ℝ} {T : ℝ} {r : Rand d}
    (h : Spec.ScalarArgs srt edges dens sd T r) (n : ℕ) (interp : Bool) :
    ∃ g out, SampleGrid.init srt edges dens none (some sd) none = .ok g ∧
      g.sample r (some (n : ℝ)) interp = .ok out ∧ out.length = n ∧
      ∀ k (hk : k < out.length), ∃ b : Fin d → ℕ, (∀ i, b i + 1 < dens.shape i) ∧ Spec.InBin edges b out[k].1 ∧
        0 < Spec.binVolume edges b * Spec.cornerMean dens b ∧
        out[k].2 = some (Spec.binVolume edges b * Spec.cornerMean sd b + if interp then
          ∑ i, (Spec.faceMean sd i b 1 - Spec.faceMean sd i b 0) * (r.loc k i - 1 / 2) else 0) := by
  obtain ⟨g, out, S, hi, -, hS, ho, hl, hk⟩ := scalar_init_exists h.argsort h.total h.pos h.nonempty h.sorted h.nonneg h.same r
    h.rand n interp
  have hmatch : EdgesMatch dens.shape edges := by
    by_contra hc
    have := h.total
    rw [trapzNd, if_neg hc] at this; cases this
  obtain ⟨M, hM⟩ := trapzDensToMass_ok hmatch Finset.univ h.nonempty
  refine ⟨g, out, hi, ho, hl, fun k hk' => ?_⟩
  obtain ⟨b, h1, h2, h3, h4⟩ := hk k hk'
  refine ⟨b, h1, h2, ?_, ?_⟩
  · rw [← mass_get_eq hM]; exact h3 M hM
  · rw [h4, mass_get_eq hS]

lemma cornerMean_bounds {sd : NDArr d ℝ} {b : Fin d → ℕ} (hb : ∀ i, b i + 1 < sd.shape i) {lo hi : ℝ}
    (h : ∀ idx, ValidIdx sd.shape idx → lo ≤ sd.get idx ∧ sd.get idx ≤ hi) :
    lo ≤ Spec.cornerMean sd b ∧ Spec.cornerMean sd b ≤ hi := by
  have hv : ∀ c : Fin d → Fin 2, ValidIdx sd.shape fun i => b i + c i := by
    intro c i
    have := hb i
    have := (c i).2
    show b i + (c i : ℕ) < _
    omega
  have hcard : (Finset.univ : Finset (Fin d → Fin 2)).card = 2 ^ d := by simp
  have h1 := Finset.card_nsmul_le_sum (Finset.univ : Finset (Fin d → Fin 2))
    (fun c => sd.get fun i => b i + c i) lo fun c _ => (h _ (hv c)).1
  have h2 := Finset.sum_le_card_nsmul (Finset.univ : Finset (Fin d → Fin 2))
    (fun c => sd.get fun i => b i + c i) hi fun c _ => (h _ (hv c)).2
  rw [hcard, nsmul_eq_mul] at h1 h2
  push_cast at h1 h2
  unfold Spec.cornerMean
  rw [le_div_iff₀ (by positivity), div_le_iff₀ (by positivity)]
  constructor <;> linarith

lemma faceMean_const {sd : NDArr d ℝ} {b : Fin d → ℕ} (hb : ∀ i, b i + 1 < sd.shape i) {c : ℝ}
    (h : ∀ idx, ValidIdx sd.shape idx → sd.get idx = c) (i : Fin d) :
    Spec.faceMean sd i b 1 - Spec.faceMean sd i b 0 = 0 := by
  rw [← meanDiff_eq, meanDiff]
  rw [Finset.sum_eq_zero, zero_div]
  intro e he
  have hv : ∀ j, e j ≤ 1 := by
    intro j
    simp only [corners, Finset.mem_filter, mem_validIdx] at he
    have : e j < 2 := he.1 j
    omega
  rw [h, h, sub_self]
  · intro j
    have := hb j
    have := hv j
    show b j + e j < _
    omega
  · intro j
    have := hb j
    have := hv j
    show b j + Function.update e i 1 j < _
    by_cases hj : j = i
    · subst hj; simp; omega
    · simp [hj]; omega

/-- **C76.** Consequences of the formula that do hold: a constant field `c` gives `c` times the volume of the sample's
bin; hence on grids whose bins have unit volume a constant field is reproduced; and there, without interpolation, every
scalar lies between the bounds of the field. -/
theorem C76_constant_partial {srt : List ℝ → List ℕ} {edges : List (List ℝ)} {dens sd : NDArr d ℝ} {T : ℝ} {r : Rand d}
    (h : Spec.ScalarArgs srt edges dens sd T r) (g : SampleGrid d)
    (hg : SampleGrid.init srt edges dens none (some sd) none = .ok g) (n : ℕ) (interp : Bool)
    (out : List ((Fin d → ℝ) × Option ℝ)) (ho : g.sample r (some n) interp = .ok out) :
    (∀ c, (∀ idx, ValidIdx sd.shape idx → sd.get idx = c) → ∀ s ∈ out, ∃ b : Fin d → ℕ, (∀ i, b i + 1 < dens.shape i) ∧
      Spec.InBin edges b s.1 ∧ s.2 = some (Spec.binVolume edges b * c)) ∧
    ((∀ b : Fin d → ℕ, (∀ i, b i + 1 < dens.shape i) → Spec.binVolume edges b = 1) →
      (∀ c, (∀ idx, ValidIdx sd.shape idx → sd.get idx = c) → ∀ s ∈ out, s.2 = some c) ∧
      ∀ lo hi, (∀ idx, ValidIdx sd.shape idx → lo ≤ sd.get idx ∧ sd.get idx ≤ hi) → interp = false →
        ∀ s ∈ out, ∃ v, s.2 = some v ∧ lo ≤ v ∧ v ≤ hi) := by
  obtain ⟨g', out', hg', ho', hl, hk⟩ := C76_formula_partial h n interp
  rw [hg] at hg'
  injection hg' with hg'
  subst hg'
  rw [ho] at ho'
  injection ho' with ho'
  subst ho'
  have key : ∀ c, (∀ idx, ValidIdx sd.shape idx → sd.get idx = c) → ∀ s ∈ out, ∃ b : Fin d → ℕ,
      (∀ i, b i + 1 < dens.shape i) ∧ Spec.InBin edges b s.1 ∧ s.2 = some (Spec.binVolume edges b * c) := by
    intro c hc s hs
    obtain ⟨k, hk', rfl⟩ := List.getElem_of_mem hs
    obtain ⟨b, h1, h2, -, h4⟩ := hk k hk'
    have hb : ∀ i, b i + 1 < sd.shape i := by rw [h.same]; exact h1
    refine ⟨b, h1, h2, ?_⟩
    rw [h4]
    have hm : Spec.cornerMean sd b = c := by
      obtain ⟨e1, e2⟩ := cornerMean_bounds (lo := c) (hi := c) hb fun idx hi => ⟨(hc idx hi).ge, (hc idx hi).le⟩
      exact le_antisymm e2 e1
    rw [hm, Finset.sum_eq_zero fun i _ => by rw [faceMean_const hb hc, zero_mul]]
    simp
  refine ⟨key, fun hu => ⟨fun c hc s hs => ?_, fun lo hi hb hni s hs => ?_⟩⟩
  · obtain ⟨b, h1, -, h3⟩ := key c hc s hs
    rw [h3, hu b h1, one_mul]
  · obtain ⟨k, hk', rfl⟩ := List.getElem_of_mem hs
    obtain ⟨b, h1, h2, -, h4⟩ := hk k hk'
    subst hni
    refine ⟨_, h4, ?_⟩
    simp only [hu b h1, one_mul, Bool.false_eq_true, if_false, add_zero]
    exact cornerMean_bounds (by rw [h.same]; exact h1) hb

lemma init_without_scalars {srt : List ℝ → List ℕ} {edges : List (List ℝ)} {dens : NDArr d ℝ}
    {mass sd sm : Option (NDArr d ℝ)} {g : SampleGrid d} (h : SampleGrid.init srt edges dens mass sd sm = .ok g) :
    SampleGrid.init srt edges dens mass
      = .ok { g with scalarDens := none, scalarMass := none } := by
  obtain ⟨e1, e2, e3, e4, e5⟩ := SampleGrid.init_ok h
  have hm : initMasses edges dens mass none none = .ok (g.mass, none) := by
    unfold initMasses at e4 ⊢
    split at e4
    · rename_i hc
      rw [if_pos hc]
      cases hma : massArg edges dens mass with
      | error e => rw [hma] at e4; cases e4
      | ok m =>
        rw [hma] at e4
        change (scalarMassArg edges sd sm >>= _) = _ at e4
        cases hsa : scalarMassArg edges sd sm with
        | error e => rw [hsa] at e4; cases e4
        | ok s =>
          rw [hsa] at e4
          have e4 : (Except.ok (m, s) : Res _) = .ok (g.mass, g.scalarMass) := e4
          injection e4 with e4
          injection e4 with e4 e4'
          subst e4
          rfl
    · cases e4
  unfold SampleGrid.init
  rw [hm]
  change (dataToCumulative srt g.mass.flat >>= _) = _
  rw [e5, ← e1, ← e2]
  rfl

lemma sampleOne_without_scalars {g : SampleGrid d} {dens : Option (NDArr d ℝ)}
    {scalars : Option (NDArr d ℝ × NDArr d ℝ)} {u : ℝ} {loc : Fin d → ℝ} {s : (Fin d → ℝ) × Option ℝ}
    (h : sampleOne g dens scalars u loc = .ok s) :
    sampleOne { g with scalarDens := none, scalarMass := none } dens none u loc = .ok (s.1, none) := by
  unfold sampleOne at h ⊢
  dsimp only at h ⊢
  cases hp : pickBin g.idx g.csum u with
  | error e => rw [hp] at h; cases h
  | ok k =>
    rw [hp] at h
    dsimp only at h ⊢
    cases hf : finSeq fun i => samplePos g.edges dens (unravelIdx (fun i => g.dens.shape i - 1) k) k (loc i) i with
    | error e => rw [hf] at h; cases h
    | ok v =>
      rw [hf] at h
      dsimp only at h ⊢
      suffices hs : s.1 = v by rw [hs]
      revert h
      split
      · intro h; injection h with h; rw [← h]
      · split_ifs
        · split
          · intro h; cases h
          · intro h; injection h with h; rw [← h]
        · intro h; injection h with h; rw [← h]
        · intro h; cases h

/-- **C76.** The positions of the samples do not depend on the scalars: the same random values give the same positions
as sampling without scalars. -/
theorem C76_positions {srt : List ℝ → List ℕ} {edges : List (List ℝ)} {dens : NDArr d ℝ}
    {mass sd sm : Option (NDArr d ℝ)} {g : SampleGrid d} (hg : SampleGrid.init srt edges dens mass sd sm = .ok g)
    (r : Rand d) (nsamp : Option ℝ) (interp : Bool) (rs : Option Bool) (out : List ((Fin d → ℝ) × Option ℝ))
    (ho : g.sample r nsamp interp rs = .ok out) :
    ∃ g₀, SampleGrid.init srt edges dens mass = .ok g₀ ∧
      g₀.sample r nsamp interp = .ok (out.map fun s => (s.1, none)) := by
  refine ⟨_, init_without_scalars hg, ?_⟩
  obtain ⟨h1, h2, h3⟩ := sample_inv ho
  rw [sample_eq, if_neg (by rintro ⟨h, h'⟩; exact h1 h h'), if_neg (not_lt.mpr h2)]
  rw [listSeq_ok] at h3 ⊢
  rw [List.forall₂_map_right_iff]
  exact h3.imp fun a b hab => sampleOne_without_scalars hab

/-! ### the claims are false -/

/-- Densities on the single bin `[0, w]`. -/
private def oneBin (y0 y1 : ℝ) : NDArr 1 ℝ := ⟨fun _ => 2, fun idx => if idx 0 = 0 then y0 else y1⟩

private lemma oneBin_total (y0 y1 w : ℝ) : trapzNd (oneBin y0 y1) [[0, w]] = .ok (w * (y0 + y1) / 2) := by
  have hmatch : EdgesMatch (oneBin y0 y1).shape [[0, w]] := ⟨rfl, fun i => by fin_cases i; rfl⟩
  obtain ⟨M, hM⟩ := trapzDensToMass_ok hmatch Finset.univ fun i => by simp [oneBin]
  obtain ⟨h1, h2⟩ := C38_mass_eq hM
  rw [C38_mass_sum hM, sum_one, h1 0]
  have : (oneBin y0 y1).shape 0 - 1 = 1 := rfl
  rw [this, Finset.sum_range_one, h2]
  rw [Fintype.sum_equiv (Equiv.funUnique (Fin 1) (Fin 2)) _
    (fun c : Fin 2 => (oneBin y0 y1).get fun _ => 0 + (c : ℕ))
    (by intro c; simp only [Equiv.funUnique_apply]; congr 1; funext i; fin_cases i; rfl)]
  simp [edgeAt, oneBin]
  ring

private lemma oneBin_args {srt : List ℝ → List ℕ} (hs : ∀ l, IsArgsort (srt l) l) (y0 y1 s0 s1 w : ℝ) (h0 : 0 ≤ y0)
    (h1 : 0 ≤ y1) (h : 0 < y0 + y1) (hw : 0 < w) :
    Spec.ScalarArgs srt [[0, w]] (oneBin y0 y1) (oneBin s0 s1) (w * (y0 + y1) / 2) ⟨fun _ => 0, fun _ _ => 1 / 4⟩ where
  dim := one_pos
  argsort := hs
  total := oneBin_total y0 y1 w
  pos := by positivity
  nonempty := fun i => by simp [oneBin]
  sorted := by
    intro e he
    simp only [List.mem_singleton] at he
    subst he
    simp [hw.le]
  nonneg := by
    intro idx _
    simp only [oneBin]
    split <;> assumption
  same := rfl
  rand := ⟨fun _ => by norm_num, fun _ _ => by norm_num⟩

/-- **C76 is false of the code**: on a bin of width 2, the constant field 1 is returned as 2, because the integral over
the bin is used for the average. -/
theorem C76_refuted : ¬ C76_Claim := by
  intro hC
  obtain ⟨srt, hs⟩ := exists_argsort
  have hA := oneBin_args hs 1 1 1 1 2 (by norm_num) (by norm_num) (by norm_num) (by norm_num)
  obtain ⟨g, out, hg, ho, hl, hk⟩ := C76_formula_partial hA 1 true
  have h0 : 0 < out.length := by omega
  have hconst : ∀ idx, ValidIdx (oneBin 1 1).shape idx → (oneBin 1 1).get idx = 1 := by
    intro idx _; simp [oneBin]
  have h1 := hC 1 srt _ _ _ _ _ hA 1 (fun _ => 0) (by intro idx hi; rw [hconst idx hi]; simp) g hg 1 out ho
    out[0] (List.getElem_mem h0)
  obtain ⟨b, hb, -, hv⟩ := (C76_constant_partial hA g hg 1 true out ho).1 1 hconst out[0] (List.getElem_mem h0)
  rw [h1] at hv
  have hb0 : b 0 = 0 := by
    have : b 0 + 1 < 2 := hb 0
    omega
  injection hv with hv
  simp [Spec.binVolume, hb0] at hv

/-- **C76 is false of the code** even if all bins have unit volume: the scalar belongs to the uniform random value, the
position to its image under the inverse cumulative distribution. -/
theorem C76_unit_refuted : ¬ C76_unit_Claim := by
  intro hC
  obtain ⟨srt, hs⟩ := exists_argsort
  have hA := oneBin_args hs 0 1 0 1 1 (by norm_num) (by norm_num) (by norm_num) (by norm_num)
  obtain ⟨g, out, hg, ho, hl, hk⟩ := C76_formula_partial hA 1 true
  have h0 : 0 < out.length := by omega
  have hunit : ∀ b : Fin 1 → ℕ, (∀ i, b i + 1 < (oneBin 0 1).shape i) → Spec.binVolume [[0, 1]] b = 1 := by
    intro b hb
    have hb0 : b 0 = 0 := by
      have : b 0 + 1 < 2 := hb 0
      omega
    simp [Spec.binVolume, hb0]
  have h1 := hC 1 srt _ _ _ _ _ hA hunit 0 (fun _ => 1) (by
    intro idx hi
    have : idx 0 < 2 := hi 0
    have : idx 0 = 0 ∨ idx 0 = 1 := by omega
    rcases this with h | h <;> simp [oneBin, h]) g hg 1 out ho out[0] (List.getElem_mem h0)
  obtain ⟨b, hb, -, -, hv⟩ := hk 0 h0
  have hb0 : b = fun _ => 0 := by
    funext i
    have : b i + 1 < 2 := hb i
    omega
  subst hb0
  rw [h1] at hv
  injection hv with hv
  have hf : ∀ s : Fin 2, Spec.faceMean (oneBin 0 1) 0 (fun _ => 0) s = if s = 0 then 0 else 1 := by
    intro s
    rw [Spec.faceMean, Fintype.sum_equiv (Equiv.funUnique (Fin 1) (Fin 2)) _
      (fun c : Fin 2 => if c = s then (oneBin 0 1).get fun _ => 0 + (c : ℕ) else 0)
      (by intro c; simp only [Equiv.funUnique_apply]
          congr 2; funext i; fin_cases i; rfl)]
    fin_cases s <;> simp [oneBin]
  have hcm : Spec.cornerMean (oneBin 0 1) (fun _ => 0) = 1 / 2 := by
    rw [Spec.cornerMean, Fintype.sum_equiv (Equiv.funUnique (Fin 1) (Fin 2)) _
      (fun c : Fin 2 => (oneBin 0 1).get fun _ => 0 + (c : ℕ))
      (by intro c; simp only [Equiv.funUnique_apply]
          congr 1; funext i; fin_cases i; rfl)]
    simp [oneBin]
  have hx4 : out[0].1 0 = 1 / 4 := by
    simpa [Fin.sum_univ_one, hf, hcm, hunit _ hb] using hv
  obtain ⟨g0, hg0, ho0⟩ := C76_positions hg _ _ _ _ out ho
  have hρ : (1 / 2 : ℝ) = (oneBin 0 1).sum / ∏ i, ((oneBin 0 1).shape i : ℝ) := by
    rw [sum_one]; simp [oneBin, Finset.sum_range_succ]
  obtain ⟨M, hM⟩ := trapzDensToMass_ok (pdf := oneBin 0 1) (edges := [[0, 1]])
    ⟨rfl, fun i => by fin_cases i; rfl⟩ Finset.univ hA.nonempty
  have hMsum : M.sum = 1 / 2 := by
    have := C38_mass_sum hM
    rw [oneBin_total] at this
    injection this with this
    linarith
  obtain ⟨g1, hg1, hgm, -⟩ := init_exists hA.argsort hM (by rw [hMsum]; norm_num)
  rw [hg0] at hg1
  injection hg1 with hg1
  subst hg1
  obtain ⟨out1, ho1, hk1⟩ := C49_position_partial hA.argsort hg0
    (by rw [hgm]; exact C38_mass_nonneg hM hA.nonneg hA.sorted) (by rw [hgm, hMsum]; norm_num) _ hA.rand (some (1 : ℕ))
    (by intro x hx; injection hx with hx; rw [← hx]; norm_num) (1 / 2) hρ (by norm_num)
  rw [ho0] at ho1
  injection ho1 with ho1
  subst ho1
  obtain ⟨b1, t, hb1, -, ht⟩ := hk1 0 (by simpa using h0)
  have hb1 : b1 = fun _ => 0 := by
    funext i
    have : b1 i + 1 < 2 := hb1 i
    omega
  subst hb1
  obtain ⟨-, -, hx, ha, -⟩ := ht 0
  have hlaw := ha (by rw [hf, hf]; norm_num)
  rw [hf, hf, linearCdf_eq] at hlaw
  simp only [List.getElem_map, hx4] at hx
  simp [edgeAt] at hx
  rw [← hx] at hlaw
  norm_num at hlaw

/-! ## C77: proportional sampling -/

/-- **C77 (full statement, not true of the code).** `sample_grid_proportional(edges, dens, portion, n)` draws samples from
`portion` and returns with each the weight that turns them into samples of `dens`: if `dens` is `c` times `portion`, the
weights are all `c`. -/
def C77_Claim : Prop :=
  ∀ (d : ℕ) (srt : List ℝ → List ℕ) (edges : List (List ℝ)) (dens portion : NDArr d ℝ) (T : ℝ) (r : Rand d)
    (_ : Spec.ScalarArgs srt edges portion dens T r) (_ : ∀ idx, 0 < portion.get idx) (c : ℝ)
    (_ : ∀ idx, ValidIdx dens.shape idx → dens.get idx = c * portion.get idx) (n : ℕ),
    ∃ out, sampleGridProportional srt r edges dens portion n = .ok out ∧ out.length = n ∧ ∀ s ∈ out, s.2 = some c

/-- **C77 (partial).** `sample_grid_proportional` returns the requested number of samples, each in a bin in which `portion`
has positive mass, at the positions at which `sample_grid(edges, portion, n)` would put them.  The weight is computed from
the ratio of the two densities at the grid points (zero where `portion` vanishes) in the way described by
`C76_formula_partial`; if `dens` is `c` times `portion`, it is `c` times the volume of the bin, so it is `c` on grids whose bins
have unit volume.  The argument `mass` changes nothing.  Missing: the right weights on other grids. -/
theorem C77_weights_partial {srt : List ℝ → List ℕ} {edges : List (List ℝ)} {dens portion : NDArr d ℝ} {T : ℝ} {r : Rand d}
    (h : Spec.ScalarArgs srt edges portion dens T r) (mass : Option (NDArr d ℝ)) (n : ℕ) (interp : Bool)
    (ratio : NDArr d ℝ) (hratio : ratio.shape = portion.shape ∧ ∀ idx,
      (portion.get idx = 0 → ratio.get idx = 0) ∧ (portion.get idx ≠ 0 → portion.get idx * ratio.get idx = dens.get idx)) :
    ∃ out g, sampleGridProportional srt r edges dens portion n mass interp = .ok out ∧ out.length = n ∧
      SampleGrid.init srt edges portion = .ok g ∧ g.sample r (some (n : ℝ)) interp = .ok (out.map fun s => (s.1, none)) ∧
      (∀ k (hk : k < out.length), ∃ b : Fin d → ℕ, (∀ i, b i + 1 < portion.shape i) ∧ Spec.InBin edges b out[k].1 ∧
        0 < Spec.binVolume edges b * Spec.cornerMean portion b ∧
        out[k].2 = some (Spec.binVolume edges b * Spec.cornerMean ratio b + if interp then
          ∑ i, (Spec.faceMean ratio i b 1 - Spec.faceMean ratio i b 0) * (r.loc k i - 1 / 2) else 0)) ∧
      (∀ c, (∀ idx, ValidIdx dens.shape idx → portion.get idx ≠ 0 ∧ dens.get idx = c * portion.get idx) →
        ∀ s ∈ out, ∃ b : Fin d → ℕ, (∀ i, b i + 1 < portion.shape i) ∧ Spec.InBin edges b s.1 ∧
          s.2 = some (Spec.binVolume edges b * c)) := by
  have hr : portionRatio dens portion = ratio := by
    obtain ⟨e1, e2⟩ := hratio
    unfold portionRatio
    cases ratio with
    | mk s f =>
      simp only at e1 e2
      subst e1
      congr 1
      funext idx
      by_cases h0 : portion.get idx = 0
      · rw [if_pos h0, (e2 idx).1 h0]
      · rw [if_neg h0, ← (e2 idx).2 h0, mul_div_cancel_left₀ _ h0]
  have hA : Spec.ScalarArgs srt edges portion ratio T r := { h with same := hratio.1 }
  obtain ⟨g, out, hg, ho, hl, hk⟩ := C76_formula_partial hA n interp
  obtain ⟨g0, hg0, ho0⟩ := C76_positions hg r _ _ _ out ho
  refine ⟨out, g0, ?_, hl, hg0, ho0, hk, fun c hc s hs => ?_⟩
  · unfold sampleGridProportional
    rw [if_neg (by rw [h.same]; simp), hr, hg]
    simp only [ho]
    rfl
  · refine (C76_constant_partial hA g hg n interp out ho).1 c (fun idx hi => ?_) s hs
    rw [hratio.1, ← h.same] at hi
    obtain ⟨h0, h1⟩ := hc idx hi
    have := (hratio.2 idx).2 h0
    rw [h1] at this
    exact mul_left_cancel₀ h0 (by rw [this]; ring)

/-- **C77 is false of the code**: `dens = portion = 1` on a bin of width 2 gives the weight 2. -/
theorem C77_refuted : ¬ C77_Claim := by
  intro hC
  obtain ⟨srt, hs⟩ := exists_argsort
  have hA := oneBin_args hs 1 1 1 1 2 (by norm_num) (by norm_num) (by norm_num) (by norm_num)
  have hone : ∀ idx, (oneBin 1 1).get idx = 1 := by intro idx; simp [oneBin]
  obtain ⟨out, ho, hl, hw⟩ := hC 1 srt _ _ _ _ _ hA (fun idx => by rw [hone]; norm_num) 1
    (fun idx _ => by ring) 1
  obtain ⟨out', -, ho', -, -, -, -, hc⟩ := C77_weights_partial hA none 1 true (oneBin 1 1)
    ⟨rfl, fun idx => ⟨by rw [hone]; norm_num, by rw [hone]; norm_num⟩⟩
  rw [ho] at ho'
  injection ho' with ho'
  subst ho'
  have h0 : 0 < out.length := by omega
  obtain ⟨b, hb, -, hv⟩ := hc 1 (fun idx _ => by rw [hone]; norm_num) out[0] (List.getElem_mem h0)
  rw [hw _ (List.getElem_mem h0)] at hv
  have hb0 : b 0 = 0 := by
    have : b 0 + 1 < 2 := hb 0
    omega
  injection hv with hv
  simp [Spec.binVolume, hb0] at hv

/-- The hypotheses of C76 and C77 can be met, also with densities that vanish at a grid point. -/
example : ∃ (srt : List ℝ → List ℕ) (dens sd : NDArr 1 ℝ) (T : ℝ) (r : Rand 1),
    Spec.ScalarArgs srt [[0, 3]] dens sd T r ∧ dens.get (fun _ => 0) = 0 ∧ sd.get (fun _ => 1) = 5 := by
  obtain ⟨srt, hs⟩ := exists_argsort
  exact ⟨srt, oneBin 0 2, oneBin 4 5, _, _, oneBin_args hs 0 2 4 5 3 (by norm_num) (by norm_num) (by norm_num)
    (by norm_num), by simp [oneBin], by simp [oneBin]⟩

end Kalepy
