import Verif.Model.Resample
import Verif.Proofs.Chol
import Verif.Proofs.Np
import Verif.Proofs.Interp
import Verif.Props.Evaluate

/-!
# Resampling: number of samples (C26), boundaries (C27), kept dimensions (C28, C29), weights (C30), termination (C31)

The random numbers are an arbitrary function `rnd`, so every theorem holds for every outcome of the random
generator.
-/

namespace Kalepy

open Matrix

variable {d : ℕ}

/-! ## What one call draws -/

lemma resampleClear_inv {D : Dist} {data : List (Fin d → ℝ)} {size : ℕ} {w : Option (List ℝ)}
    {M : Matrix (Fin d) (Fin d) ℝ} {keep : KeepArg} {rnd : ℕ → Draw d} {l : List (Fin d → ℝ)}
    (h : resampleClear D data size w M keep rnd = .ok l) :
    l.length = size ∧ ∃ U ps, cholesky M = some U ∧ keepDims d keep = .ok ps ∧
      choiceOk data.length size w = true ∧ ∀ n (hn : n < l.length), ∃ u m, D.sample (rnd n) = .ok u ∧
        choiceDatum data w (rnd n).pick = .ok m ∧ l[n] = m + zeroDims ps (Uᵀ *ᵥ u) := by
  unfold resampleClear at h
  split at h
  · cases h
  rename_i noise hnoise
  split at h
  · cases h
  rename_i noise' hadd
  split at h
  · cases h
  rename_i ps hps
  split at h
  case isFalse => cases h
  rename_i hch
  split at h
  · cases h
  rename_i means hmeans
  cases h
  unfold addCov at hadd
  split at hadd
  · cases hadd
  rename_i U hU
  cases hadd
  have l1 := listSeq_length hnoise
  have l2 := listSeq_length hmeans
  simp only [List.length_range] at l1 l2
  refine ⟨by simp [l1, l2], U, ps, hU, hps, hch, ?_⟩
  intro n hn
  simp only [List.length_zipWith, List.length_map, l1, l2, min_self] at hn
  have f1 := (List.forall₂_iff_get.mp (listSeq_ok.mp hnoise)).2 n (by simpa using hn) (by omega)
  have f2 := (List.forall₂_iff_get.mp (listSeq_ok.mp hmeans)).2 n (by simpa using hn) (by omega)
  simp only [List.get_eq_getElem, List.getElem_range] at f1 f2
  exact ⟨_, _, f1, f2, by simp⟩

lemma choiceDatum_mem {data : List (Fin d → ℝ)} {w : Option (List ℝ)} {u : ℝ} {m : Fin d → ℝ}
    (h : choiceDatum data w u = .ok m) : data[choiceIndex data.length w u]? = some m := by
  unfold choiceDatum at h
  split at h
  · rename_i x hx; cases h; exact hx
  · cases h

/-! ## The rejection loop -/

lemma rejectLoop_inv {D : Dist} {data : List (Fin d → ℝ)} {w : Option (List ℝ)}
    {M : Matrix (Fin d) (Fin d) ℝ} {refl : List ReflRow} {size cs chunk : ℕ} {rnd : ℕ → ℕ → Draw d} :
    ∀ (fuel draw : ℕ) (s t : LoopState d), s.good.length ≤ size → (∀ x ∈ s.good, insideBounds refl x = true) →
      (s.good.length < size → 1 ≤ draw ∧ draw ≤ chunk) → (∀ n ∈ s.draws, 1 ≤ n ∧ n ≤ chunk) → 1 ≤ cs →
      rejectLoop D data w M refl size cs chunk rnd fuel draw s = .ok t →
      t.good.length ≤ size ∧ (∀ x ∈ t.good, insideBounds refl x = true) ∧
      (∀ n ∈ t.draws, 1 ≤ n ∧ n ≤ chunk) ∧ t.draws.length ≤ s.draws.length + fuel ∧
      (t.good.length < size → t.draws.length = s.draws.length + fuel) := by
  intro fuel
  induction fuel with
  | zero =>
    intro draw s t h1 h2 _ h4 _ h
    simp only [rejectLoop, Except.ok.injEq] at h
    subst h
    exact ⟨h1, h2, h4, by simp, by simp⟩
  | succ fuel ih =>
    intro draw s t h1 h2 h3 h4 hcs h
    rw [rejectLoop] at h
    split at h
    · rename_i hle
      cases h
      exact ⟨h1, h2, h4, by omega, by omega⟩
    rename_i hlt
    split at h
    · cases h
    rename_i trial htrial
    have hlen : (s.good ++ (trial.filter fun x => insideBounds refl x).take (size - s.good.length)).length
        ≤ size := by
      simp only [List.length_append, List.length_take]; omega
    have hin : ∀ x ∈ s.good ++ (trial.filter fun x => insideBounds refl x).take (size - s.good.length),
        insideBounds refl x = true := by
      intro x hx
      rcases List.mem_append.mp hx with hx | hx
      · exact h2 x hx
      · have := List.mem_of_mem_take hx
        exact (List.mem_filter.mp this).2
    have hd := h3 (by omega)
    obtain ⟨r1, r2, r3, r4, r5⟩ := ih _ ⟨_, s.draws ++ [draw]⟩ t hlen hin (by
      intro hg
      simp only at hg
      unfold nextDraw
      have hc1 : 1 ≤ chunk := by omega
      have hm : 1 ≤ min (size - (s.good ++ (trial.filter fun x => insideBounds refl x).take
          (size - s.good.length)).length) cs := by omega
      have : 1 ≤ 2 ^ d * min (size - (s.good ++ (trial.filter fun x => insideBounds refl x).take
          (size - s.good.length)).length) cs := Nat.mul_pos (by positivity) hm
      omega) (by
      intro n hn
      rcases List.mem_append.mp hn with hn | hn
      · exact h4 n hn
      · simp only [List.mem_singleton] at hn; subst hn; exact hd) hcs h
    refine ⟨r1, r2, r3, ?_, ?_⟩
    · simp only [List.length_append, List.length_singleton] at r4; omega
    · intro hg
      have := r5 hg
      simp only [List.length_append, List.length_singleton] at this; omega

/-- Number of chunks: `ceil(size / chunk)` (at least one). -/
noncomputable def Spec.numChunks (size chunk : ℕ) : ℕ := max 1 ⌈(size : ℝ) / chunk⌉₊

lemma ceil_div_nat (a b : ℕ) (hb : 0 < b) : (a + b - 1) / b = ⌈(a : ℝ) / b⌉₊ := by
  have hbr : (0 : ℝ) < b := by exact_mod_cast hb
  apply le_antisymm
  · have h1 : (a : ℝ) ≤ (⌈(a : ℝ) / b⌉₊ * b : ℕ) := by
      push_cast
      exact (div_le_iff₀ hbr).mp (Nat.le_ceil _)
    have h2 : a ≤ ⌈(a : ℝ) / b⌉₊ * b := by exact_mod_cast h1
    rw [Nat.div_le_iff_le_mul_add_pred hb]
    rw [mul_comm b]
    omega
  · rw [Nat.ceil_le, div_le_iff₀ hbr]
    have := Nat.div_add_mod (a + b - 1) b
    have hm := Nat.mod_lt (a + b - 1) hb
    have : a ≤ (a + b - 1) / b * b := by
      rw [mul_comm]; omega
    exact_mod_cast this

lemma chunking_spec (size chunk : ℕ) (h0 : chunk ≠ 0 ∨ size = 0) :
    (chunking size chunk).1 = Spec.numChunks size chunk ∧
    (0 < size → 1 ≤ (chunking size chunk).2 ∧ (chunking size chunk).2 ≤ chunk) := by
  unfold chunking Spec.numChunks
  split
  · rename_i h
    have hc : 0 < chunk := by omega
    have hn : (size + chunk - 1) / chunk = ⌈(size : ℝ) / chunk⌉₊ := ceil_div_nat _ _ hc
    simp only
    have h1 : 1 ≤ (size + chunk - 1) / chunk := (Nat.one_le_div_iff hc).mpr (by omega)
    refine ⟨by rw [← hn]; omega, fun hs => ?_⟩
    have hsz : size ≤ (size + chunk - 1) / chunk * chunk := by
      have h2 := Nat.div_add_mod (size + chunk - 1) chunk
      have h3 := Nat.mod_lt (size + chunk - 1) hc
      rw [mul_comm]; omega
    generalize (size + chunk - 1) / chunk = n at h1 hsz
    refine ⟨(Nat.one_le_div_iff (by omega)).mpr (by omega), ?_⟩
    rw [Nat.div_le_iff_le_mul_add_pred (by omega)]
    omega
  · rename_i h
    refine ⟨?_, fun hs => ⟨hs, by omega⟩⟩
    by_cases hc : chunk = 0
    · subst hc; simp
    · have hcr : (0 : ℝ) < chunk := by exact_mod_cast Nat.pos_of_ne_zero hc
      have : ⌈(size : ℝ) / chunk⌉₊ ≤ 1 := by
        rw [Nat.ceil_le, div_le_iff₀ hcr]
        simp only [Nat.cast_one, one_mul, Nat.cast_le]; omega
      simp only; omega

lemma resampleReflect_inv {k : Kernel d} {data : List (Fin d → ℝ)} {size : ℕ} {refl : List ReflRow}
    {w : Option (List ℝ)} {keep : KeepArg} {rnd : ℕ → ℕ → Draw d} {r : List (Fin d → ℝ) × List ℕ}
    (h : resampleReflect k data size refl w keep rnd = .ok r) :
    r.1.length = size ∧ (∀ x ∈ r.1, insideBounds refl x = true) ∧
    (∀ n ∈ r.2, 1 ≤ n ∧ n ≤ k.chunk) ∧ r.2.length ≤ 10 * Spec.numChunks size k.chunk := by
  unfold resampleReflect at h
  split at h
  · cases h
  rename_i matrix hm
  split at h
  · cases h
  split at h
  · cases h
  rename_i hc
  split at h
  · cases h
  rename_i s hs
  split at h
  · cases h
  rename_i hlt
  cases h
  have h0 : k.chunk ≠ 0 ∨ size = 0 := by omega
  obtain ⟨c1, c2⟩ := chunking_spec size k.chunk h0
  by_cases hz : size = 0
  · subst hz
    have : s = ⟨[], []⟩ := by
      cases hf : 10 * (chunking 0 k.chunk).1 with
      | zero => rw [hf, rejectLoop] at hs; cases hs; rfl
      | succ n => rw [hf, rejectLoop, if_pos (by simp)] at hs; cases hs; rfl
    subst this
    simp
  · have := rejectLoop_inv _ _ ⟨[], []⟩ s (by simp) (by simp) (fun _ => c2 (by omega)) (by simp)
      (c2 (by omega)).1 hs
    obtain ⟨r1, r2, r3, r4, r5⟩ := this
    refine ⟨by simp only; omega, r2, r3, ?_⟩
    simp only [List.length_nil] at r4
    rw [c1] at r4; simp only; omega

/-! ## Calls of `KDE.resample` -/

/-- Specification: the boundaries in force in `resample(reflect=...)`: those of the constructor if the argument
is omitted, none for `False`, otherwise those of the (checked) argument. -/
noncomputable def Spec.boundaries (k : KDE d) : Reflect → Res (Option (List ReflRow))
  | .false => .ok none
  | .none => .ok k.reflect
  | r => checkReflect k.dataset r

lemma checkReflect_stored {E : Ext} {a : KDEArgs d} {k : KDE d} (h : KDE.init E a = .ok k) :
    checkReflect k.dataset (Reflect.ofChecked k.reflect) = .ok k.reflect := by
  obtain ⟨refl, _, _, _, _, _, _, _, hr, hne, _, _, _, _, _, _, _, _, he⟩ := init_inv h
  have h1 : k.dataset = a.dataset := by rw [he]
  have h2 : k.reflect = refl := by rw [he]
  rw [h1, h2]
  cases refl with
  | none => rfl
  | some rows => exact C20_idempotent _ hne _ rows hr _ hne

lemma resample_eq {E : Ext} {a : KDEArgs d} {k : KDE d} (h : KDE.init E a = .ok k) (size : Option ℕ)
    (keep : KeepArg) (reflect : Reflect) (squeeze : Bool) (rnd : ℕ → ℕ → Draw d) :
    k.resample size keep reflect squeeze rnd =
      (Spec.boundaries k reflect).bind fun b =>
        (match b with
        | none => resampleClear k.kernel.dist k.dataset (size.getD k.dataset.length) k.weights k.kernel.matrix keep
            (rnd 0)
        | some rows => (resampleReflect k.kernel k.dataset (size.getD k.dataset.length) rows k.weights keep
            rnd).map Prod.fst).map (squeezeSamples squeeze) := by
  have key : ∀ r c, checkReflect k.dataset r = c → k.kernel.resample k.dataset k.weights size keep r squeeze rnd =
      c.bind fun b =>
        (match b with
        | none => resampleClear k.kernel.dist k.dataset (size.getD k.dataset.length) k.weights k.kernel.matrix keep
            (rnd 0)
        | some rows => (resampleReflect k.kernel k.dataset (size.getD k.dataset.length) rows k.weights keep
            rnd).map Prod.fst).map (squeezeSamples squeeze) := by
    rintro r c rfl
    unfold Kernel.resample
    split
    · rename_i e he; rw [he]; rfl
    · rename_i he; rw [he]; rfl
    · rename_i rows he; rw [he]
      simp only [Except.bind]
      cases resampleReflect k.kernel k.dataset (size.getD k.dataset.length) rows k.weights keep rnd <;> rfl
  cases reflect with
  | none => exact key _ _ (checkReflect_stored h)
  | «false» => exact key .none _ rfl
  | «true» => exact key _ _ rfl
  | rows l => exact key _ _ rfl

lemma squeezeSamples_points (sq : Bool) (l : List (Fin d → ℝ)) : (squeezeSamples sq l).points = l := by
  unfold squeezeSamples
  split
  · rename_i h
    obtain ⟨rfl, _⟩ := h
    simp only [Samples.points, List.map_map]
    conv_rhs => rw [← List.map_id l]
    refine List.map_congr_left fun x _ => ?_
    funext i
    simp [Subsingleton.elim i 0]
  · rfl

/-- A successful call: either the unreflected or the reflected one. -/
lemma resample_inv {E : Ext} {a : KDEArgs d} {k : KDE d} (h : KDE.init E a = .ok k) {size : Option ℕ}
    {keep : KeepArg} {reflect : Reflect} {squeeze : Bool} {rnd : ℕ → ℕ → Draw d} {s : Samples d}
    (hs : k.resample size keep reflect squeeze rnd = .ok s) :
    (Spec.boundaries k reflect = .ok none ∧
      resampleClear k.kernel.dist k.dataset (size.getD k.dataset.length) k.weights k.kernel.matrix keep
        (rnd 0) = .ok s.points) ∨
    ∃ rows draws, Spec.boundaries k reflect = .ok (some rows) ∧
      resampleReflect k.kernel k.dataset (size.getD k.dataset.length) rows k.weights keep rnd
        = .ok (s.points, draws) := by
  rw [resample_eq h] at hs
  cases hb : Spec.boundaries k reflect with
  | error e => rw [hb] at hs; cases hs
  | ok b =>
    rw [hb] at hs
    cases b with
    | none =>
      left
      obtain ⟨l, h1, rfl⟩ := map_ok hs
      exact ⟨rfl, by rw [squeezeSamples_points]; exact h1⟩
    | some rows =>
      right
      obtain ⟨l, h1, rfl⟩ := map_ok hs
      obtain ⟨⟨l', dr⟩, h2, rfl⟩ := map_ok h1
      exact ⟨rows, dr, rfl, by rw [squeezeSamples_points]; exact h2⟩

/-! ## C26 -/

/-- **C26.** Whatever the random numbers, the boundaries, the chunk size and the other arguments: if `resample`
returns, it returns exactly `size` samples (as many as there are data points if `size` is omitted). -/
theorem C26_size {E : Ext} {a : KDEArgs d} {k : KDE d} (h : KDE.init E a = .ok k) (size : Option ℕ)
    (keep : KeepArg) (reflect : Reflect) (squeeze : Bool) (rnd : ℕ → ℕ → Draw d) (s : Samples d)
    (hs : k.resample size keep reflect squeeze rnd = .ok s) :
    s.points.length = size.getD a.dataset.length := by
  have hd : k.dataset = a.dataset := by
    obtain ⟨_, _, _, _, _, _, _, _, _, _, _, _, _, _, _, _, _, _, he⟩ := init_inv h; rw [he]
  rw [← hd]
  rcases resample_inv h hs with ⟨_, h1⟩ | ⟨rows, draws, _, h1⟩
  · exact (resampleClear_inv h1).1
  · exact (resampleReflect_inv h1).1

/-! ## C27 -/

/-- Specification: strictly inside the boundaries of one dimension. -/
def Spec.StrictlyInside (r : ReflRow) (x : ℝ) : Prop :=
  ∀ lo hi, r = some (lo, hi) → (∀ l, lo = some l → l < x) ∧ (∀ h, hi = some h → x < h)

lemma insideBounds_iff (refl : List ReflRow) (x : Fin d → ℝ) :
    insideBounds refl x = true ↔ ∀ i : Fin d, Spec.StrictlyInside (refl.getD i none) (x i) := by
  unfold insideBounds
  rw [List.all_eq_true]
  constructor
  · intro h i lo hi e
    have := h i (List.mem_finRange i)
    rw [e] at this
    simp only [inRow, boundOf, Bool.and_eq_true, Bool.false_eq_true, if_false] at this
    refine ⟨?_, ?_⟩
    · rintro l rfl; simpa using this.1
    · rintro l rfl; simpa using this.2
  · intro h i _
    have hi := h i
    generalize refl.getD i none = r at hi
    cases r with
    | none => simp [inRow, boundOf]
    | some p =>
      obtain ⟨lo, hi'⟩ := p
      obtain ⟨h1, h2⟩ := hi lo hi' rfl
      cases lo <;> cases hi' <;> simp_all [inRow, boundOf]

/-- **C27.** If boundaries are in force, every coordinate of every returned sample is strictly inside them, for
every outcome of the random generator. -/
theorem C27_inside {E : Ext} {a : KDEArgs d} {k : KDE d} (h : KDE.init E a = .ok k) (size : Option ℕ)
    (keep : KeepArg) (reflect : Reflect) (squeeze : Bool) (rnd : ℕ → ℕ → Draw d) (s : Samples d)
    (hs : k.resample size keep reflect squeeze rnd = .ok s) (rows : List ReflRow)
    (hb : Spec.boundaries k reflect = .ok (some rows)) :
    rows.length = d ∧ ∀ x ∈ s.points, ∀ i : Fin d, ∀ r, rows[(i : ℕ)]? = some r → Spec.StrictlyInside r (x i) := by
  constructor
  · obtain ⟨refl, _, _, _, _, _, _, _, hr, hne, _, _, _, _, _, _, _, _, he⟩ := init_inv h
    have h1 : k.dataset = a.dataset := by rw [he]
    have h2 : k.reflect = refl := by rw [he]
    cases reflect with
    | none =>
      simp only [Spec.boundaries, Except.ok.injEq] at hb
      rw [← h2, hb] at hr
      exact (C20_result _ hne _ _ hr).1
    | «false» => simp [Spec.boundaries] at hb
    | «true» => exact (C20_result k.dataset (by rw [h1]; exact hne) .true rows hb).1
    | rows l => exact (C20_result k.dataset (by rw [h1]; exact hne) (.rows l) rows hb).1
  · rcases resample_inv h hs with ⟨h1, _⟩ | ⟨rows', draws, h1, h2⟩
    · rw [h1] at hb; cases hb
    · rw [h1] at hb
      cases hb
      intro x hx i r hr
      have := (insideBounds_iff _ x).mp ((resampleReflect_inv h2).2.1 x hx) i
      rwa [List.getD_eq_getElem?_getD, hr] at this

/-! ## C28 -/

/-- Specification: dimension `i` is named by the `keep` argument (`True`: all; negative numbers count from the
end). -/
def Spec.Kept (keep : KeepArg) (i : Fin d) : Prop :=
  match keep with
  | .none => False
  | .true => True
  | .false => False
  | .dims l => (i : ℤ) ∈ l ∨ (i : ℤ) - d ∈ l

lemma dimIndex_ok {p : ℤ} {i : Fin d} (h : dimIndex d p = .ok i) : p = i ∨ p = (i : ℤ) - d := by
  unfold dimIndex pyIndex at h
  simp only [List.length_finRange] at h
  split at h
  · rename_i h0
    split at h
    · rename_i a ha
      cases h
      left
      have hlt : p.toNat < d := by
        by_contra hge
        rw [List.getElem?_eq_none (by simpa using hge)] at ha; cases ha
      rw [List.getElem?_eq_getElem (by simpa using hlt)] at ha
      simp only [List.getElem_finRange, Option.some.injEq] at ha
      have : p.toNat = (i : ℕ) := by rw [← ha]; rfl
      omega
    · cases h
  · rename_i h0
    split at h
    · rename_i h1
      split at h
      · rename_i a ha
        cases h
        right
        have hlt : ((d : ℤ) + p).toNat < d := by omega
        rw [List.getElem?_eq_getElem (by simpa using hlt)] at ha
        simp only [List.getElem_finRange, Option.some.injEq] at ha
        have : ((d : ℤ) + p).toNat = (i : ℕ) := by rw [← ha]; rfl
        omega
      · cases h
    · cases h

lemma dimIndex_of (i : Fin d) {p : ℤ} (h : p = i ∨ p = (i : ℤ) - d) : dimIndex d p = .ok i := by
  unfold dimIndex pyIndex
  have hi := i.isLt
  rcases h with rfl | rfl
  · rw [if_pos (by omega)]
    simp
  · rw [if_neg (by omega), if_pos (by simp)]
    have : ((List.finRange d).length + ((i : ℤ) - d)).toNat = (i : ℕ) := by simp
    rw [this]
    simp

lemma keepDims_spec {keep : KeepArg} {ps : List (Fin d)} (h : keepDims d keep = .ok ps) (i : Fin d) :
    i ∈ ps ↔ Spec.Kept keep i := by
  cases keep with
  | none => simp only [keepDims, Except.ok.injEq] at h; subst h; simp [Spec.Kept]
  | «true» => simp only [keepDims, Except.ok.injEq] at h; subst h; simp [Spec.Kept]
  | «false» => simp only [keepDims, Except.ok.injEq] at h; subst h; simp [Spec.Kept]
  | dims l =>
    simp only [keepDims] at h
    simp only [Spec.Kept]
    have hf := listSeq_ok.mp h
    constructor
    · intro hi
      obtain ⟨p, hp, e⟩ := listSeq_mem h i hi
      rcases dimIndex_ok e with rfl | rfl
      · exact Or.inl hp
      · exact Or.inr hp
    · intro hi
      have : ∃ p ∈ l, p = (i : ℤ) ∨ p = (i : ℤ) - d := by
        rcases hi with hi | hi
        · exact ⟨_, hi, Or.inl rfl⟩
        · exact ⟨_, hi, Or.inr rfl⟩
      obtain ⟨p, hp, e⟩ := this
      obtain ⟨n, hn, rfl⟩ := List.getElem_of_mem hp
      have hl := hf.length_eq
      have := (List.forall₂_iff_get.mp hf).2 n hn (by omega)
      simp only [List.get_eq_getElem] at this
      rw [dimIndex_of i e] at this
      have e2 := Except.ok.inj this
      rw [e2]
      exact List.getElem_mem _

/-- **C28.** Without boundaries, every sample agrees with one and the same data point in all kept
dimensions. -/
theorem C28_keep {E : Ext} {a : KDEArgs d} {k : KDE d} (h : KDE.init E a = .ok k) (size : Option ℕ)
    (keep : KeepArg) (reflect : Reflect) (squeeze : Bool) (rnd : ℕ → ℕ → Draw d) (s : Samples d)
    (hs : k.resample size keep reflect squeeze rnd = .ok s) (hb : Spec.boundaries k reflect = .ok none) :
    ∀ x ∈ s.points, ∃ p ∈ a.dataset, ∀ i, Spec.Kept keep i → x i = p i := by
  have hd : k.dataset = a.dataset := by
    obtain ⟨_, _, _, _, _, _, _, _, _, _, _, _, _, _, _, _, _, _, he⟩ := init_inv h; rw [he]
  rcases resample_inv h hs with ⟨_, h1⟩ | ⟨rows, draws, h0, _⟩
  · intro x hx
    obtain ⟨n, hn, rfl⟩ := List.getElem_of_mem hx
    obtain ⟨_, U, ps, _, hps, _, hall⟩ := resampleClear_inv h1
    obtain ⟨u, m, _, hm, e⟩ := hall n hn
    refine ⟨m, by rw [← hd]; exact List.mem_of_getElem? (choiceDatum_mem hm), fun i hi => ?_⟩
    rw [e, Pi.add_apply, zeroDims, if_pos ((keepDims_spec hps i).mpr hi), add_zero]
  · rw [h0] at hb; cases hb

/-! ## C29 -/

lemma cholesky_needs_pos {n : ℕ} {A U : Matrix (Fin n) (Fin n) ℝ} (h : cholesky A = some U) :
    ∀ i, 0 < A i i := by
  induction n with
  | zero => intro i; exact i.elim0
  | succ n ih =>
    rw [cholesky_succ] at h
    split at h
    · cases h
    rename_i h0
    rw [Option.map_eq_some_iff] at h
    obtain ⟨V, hV, _⟩ := h
    intro i
    refine Fin.cases (not_le.mp h0) (fun j => ?_) i
    have := ih hV j
    simp only [Matrix.of_apply] at this
    nlinarith [mul_self_nonneg (A 0 j.succ / Real.sqrt (A 0 0))]

lemma keepDim_ok {refl : List ReflRow} {p : ℤ} {i : Fin d} (h : keepDim d refl p = .ok i) :
    dimIndex d p = .ok i ∧ refl.getD i none = none := by
  unfold keepDim at h
  split at h
  · cases h
  · rename_i j hj
    split at h
    · cases h
    · rename_i hn
      cases h
      exact ⟨hj, by simpa using hn⟩

/-- The dimensions listed by `keep`, as integers. -/
def keepList (d : ℕ) : KeepArg → List ℤ
  | .none => []
  | .false => []
  | .true => (List.range d).map fun n : ℕ => (n : ℤ)
  | .dims l => l

lemma covKeepVars_eq (M : Matrix (Fin d) (Fin d) ℝ) (keep : KeepArg) (refl : List ReflRow) :
    covKeepVars M keep refl = (listSeq (keepDim d refl) (keepList d keep)).map fun ps =>
      Matrix.of fun i j => if i ∈ ps ∨ j ∈ ps then 0 else M i j := by
  cases keep <;> simp only [covKeepVars, keepList, listSeq, Except.map, List.not_mem_nil, or_self, if_false] <;> rfl

lemma kept_iff (keep : KeepArg) (i : Fin d) :
    Spec.Kept keep i ↔ ∃ p ∈ keepList d keep, p = (i : ℤ) ∨ p = (i : ℤ) - d := by
  cases keep with
  | none => simp [Spec.Kept, keepList]
  | «false» => simp [Spec.Kept, keepList]
  | «true» =>
    simp only [Spec.Kept, keepList, true_iff]
    exact ⟨i, by simp, Or.inl rfl⟩
  | dims l =>
    simp only [Spec.Kept, keepList]
    constructor
    · rintro (h | h)
      · exact ⟨_, h, Or.inl rfl⟩
      · exact ⟨_, h, Or.inr rfl⟩
    · rintro ⟨p, hp, rfl | rfl⟩
      · exact Or.inl hp
      · exact Or.inr hp

lemma covKeepVars_kept {M M' : Matrix (Fin d) (Fin d) ℝ} {keep : KeepArg} {refl : List ReflRow}
    (h : covKeepVars M keep refl = .ok M') {i : Fin d} (hi : Spec.Kept keep i) :
    M' i i = 0 ∧ refl.getD i none = none := by
  rw [covKeepVars_eq] at h
  obtain ⟨ps, h1, rfl⟩ := map_ok h
  obtain ⟨p, hp, e⟩ := (kept_iff keep i).mp hi
  obtain ⟨n, hn, rfl⟩ := List.getElem_of_mem hp
  have hf := listSeq_ok.mp h1
  have hl := hf.length_eq
  have := (List.forall₂_iff_get.mp hf).2 n hn (by omega)
  simp only [List.get_eq_getElem] at this
  obtain ⟨h2, h3⟩ := keepDim_ok this
  rw [dimIndex_of i e] at h2
  have h2 := Except.ok.inj h2
  rw [← h2] at h3
  refine ⟨?_, h3⟩
  have : i ∈ ps := by rw [h2]; exact List.getElem_mem _
  simp [this]

lemma resampleReflect_kept {k : Kernel d} {data : List (Fin d → ℝ)} {size : ℕ} {refl : List ReflRow}
    {w : Option (List ℝ)} {keep : KeepArg} {rnd : ℕ → ℕ → Draw d} (hs : 0 < size) {i : Fin d}
    (hi : Spec.Kept keep i) : ∀ r, resampleReflect k data size refl w keep rnd ≠ .ok r := by
  intro r h
  unfold resampleReflect at h
  split at h
  · cases h
  rename_i matrix hm
  split at h
  · cases h
  split at h
  · cases h
  rename_i hc
  split at h
  · cases h
  rename_i s hrl
  obtain ⟨c1, c2⟩ := chunking_spec size k.chunk (by omega)
  obtain ⟨f, hf⟩ : ∃ f, 10 * (chunking size k.chunk).1 = f + 1 := by
    have : 1 ≤ (chunking size k.chunk).1 := by rw [c1]; unfold Spec.numChunks; omega
    exact ⟨10 * (chunking size k.chunk).1 - 1, by omega⟩
  rw [hf, rejectLoop, if_neg (by simp; omega)] at hrl
  split at hrl
  · cases hrl
  rename_i trial ht
  obtain ⟨_, U, _, hU, _⟩ := resampleClear_inv ht
  have := cholesky_needs_pos hU i
  rw [(covKeepVars_kept hm hi).1] at this
  exact lt_irrefl _ this

/-- **C29, what the code does**: as soon as boundaries are in force and at least one dimension is kept, no
non-empty set of samples is ever returned (the modified kernel matrix is singular, its Cholesky factorisation
fails). -/
theorem C29_never {E : Ext} {a : KDEArgs d} {k : KDE d} (h : KDE.init E a = .ok k) (size : Option ℕ)
    (hsize : size ≠ some 0) (keep : KeepArg) (reflect : Reflect) (squeeze : Bool) (rnd : ℕ → ℕ → Draw d)
    (rows : List ReflRow) (hb : Spec.boundaries k reflect = .ok (some rows)) (i : Fin d)
    (hi : Spec.Kept keep i) : ∀ s, k.resample size keep reflect squeeze rnd ≠ .ok s := by
  intro s hs
  rcases resample_inv h hs with ⟨h1, _⟩ | ⟨rows', draws, _, h2⟩
  · rw [h1] at hb; cases hb
  · refine resampleReflect_kept ?_ hi _ h2
    obtain ⟨_, _, _, _, _, _, _, _, _, hne, _, _, _, _, _, _, _, _, he⟩ := init_inv h
    have h1 : k.dataset = a.dataset := by rw [he]
    cases size with
    | none => simp only [Option.getD_none, h1]; exact List.length_pos_iff.mpr hne
    | some n => simp only [Option.getD_some]; simp only [ne_eq, Option.some.injEq] at hsize; omega

/-- **C29, second half**: keeping a reflecting dimension raises `ValueError` (if all dimensions named by `keep`
exist), whatever the random numbers. -/
theorem C29_conflict {E : Ext} {a : KDEArgs d} {k : KDE d} (h : KDE.init E a = .ok k) (size : Option ℕ)
    (keep : KeepArg) (reflect : Reflect) (squeeze : Bool) (rnd : ℕ → ℕ → Draw d)
    (rows : List ReflRow) (hb : Spec.boundaries k reflect = .ok (some rows)) (i : Fin d)
    (hi : Spec.Kept keep i) (p : Option ℝ × Option ℝ) (hr : rows[(i : ℕ)]? = some (some p))
    (hk : ∀ l, keep = .dims l → ∀ q ∈ l, -(d : ℤ) ≤ q ∧ q < d) :
    k.resample size keep reflect squeeze rnd = .error .valueError := by
  have hk' : ∀ q ∈ keepList d keep, -(d : ℤ) ≤ q ∧ q < d := by
    cases keep with
    | none => simp [keepList]
    | «false» => simp [keepList]
    | «true» => 
      simp only [keepList]
      intro q hq
      obtain ⟨n, hn, rfl⟩ := List.mem_map.mp hq
      have := List.mem_range.mp hn
      omega
    | dims l => exact hk l rfl
  have hgetD : rows.getD i none = some p := by rw [List.getD_eq_getElem?_getD, hr]; rfl
  have key : ∀ l : List ℤ, (∀ q ∈ l, -(d : ℤ) ≤ q ∧ q < d) → (∃ q ∈ l, q = (i : ℤ) ∨ q = (i : ℤ) - d) →
      listSeq (keepDim d rows) l = .error .valueError := by
    intro l
    induction l with
    | nil => rintro _ ⟨q, hq, _⟩; simp at hq
    | cons q l ih =>
      intro h1 h2
      have hq := h1 q (by simp)
      have hdim : ∃ j, dimIndex d q = .ok j := by
        by_cases h0 : 0 ≤ q
        · exact ⟨⟨q.toNat, by omega⟩, dimIndex_of _ (Or.inl (by simp [h0]))⟩
        · exact ⟨⟨(q + d).toNat, by omega⟩, dimIndex_of _ (Or.inr (by have := hq.1; simp only; omega))⟩
      obtain ⟨j, hj⟩ := hdim
      rw [listSeq]
      by_cases hs : (rows.getD j none).isSome
      · have : keepDim d rows q = .error .valueError := by
          simp only [keepDim, hj]; rw [if_pos hs]
        rw [this]
      · have hkd : keepDim d rows q = .ok j := by
          simp only [keepDim, hj]; rw [if_neg hs]
        rw [hkd]
        have : ∃ q ∈ l, q = (i : ℤ) ∨ q = (i : ℤ) - d := by
          obtain ⟨q', hq', e⟩ := h2
          rcases List.mem_cons.mp hq' with rfl | hq'
          · rw [dimIndex_of i e] at hj
            have := Except.ok.inj hj
            subst this
            rw [hgetD] at hs; simp at hs
          · exact ⟨q', hq', e⟩
        simp only [ih (fun q hq => h1 q (by simp [hq])) this]
  rw [resample_eq h, hb]
  have hc : covKeepVars k.kernel.matrix keep rows = .error .valueError := by
    rw [covKeepVars_eq, key _ hk' ((kept_iff keep i).mp hi)]; rfl
  simp only [Except.bind]
  unfold resampleReflect
  rw [hc]
  rfl

/-! ## C30 -/

lemma cumWeights_getElem (w : List ℝ) (hw : 0 < w.sum) (j : ℕ)
    (hj : j < ((npCumsum (w.map (· / w.sum))).map (· / (w.map (· / w.sum)).sum)).length) :
    ((npCumsum (w.map (· / w.sum))).map (· / (w.map (· / w.sum)).sum))[j] = (w.take (j + 1)).sum / w.sum := by
  have hs : ∀ l : List ℝ, (l.map (· / w.sum)).sum = l.sum / w.sum := by
    intro l
    induction l with
    | nil => simp
    | cons x l ih => simp [ih, add_div]
  rw [List.getElem_map, npCumsum_getElem, ← List.map_take, hs, hs, div_self hw.ne', div_one]

/-- The index chosen for the uniform number `u`: `j` exactly when `u` falls in the `j`-th of the consecutive
intervals of length `w_j / Σw`. -/
lemma choiceIndex_iff (w : List ℝ) (h0 : ∀ x ∈ w, 0 ≤ x) (hw : 0 < w.sum) {u : ℝ} (hu0 : 0 ≤ u) (hu1 : u < 1)
    (n j : ℕ) : choiceIndex n (some w) u = j ↔
      j < w.length ∧ (w.take j).sum / w.sum ≤ u ∧ u < (w.take (j + 1)).sum / w.sum := by
  set c := (npCumsum (w.map (· / w.sum))).map (· / (w.map (· / w.sum)).sum) with hc
  have hlen : c.length = w.length := by simp [hc, npCumsum_length]
  have hget : ∀ j (hj : j < c.length), c[j] = (w.take (j + 1)).sum / w.sum := fun j hj =>
    cumWeights_getElem w hw j hj
  have hpos : 0 < w.length := by
    rcases w with _ | ⟨x, w⟩
    · simp at hw
    · simp
  have hmono : ∀ a b, a ≤ b → (w.take a).sum / w.sum ≤ (w.take b).sum / w.sum := by
    intro a b hab
    apply div_le_div_of_nonneg_right _ hw.le
    have : w.take b = w.take a ++ (w.drop a).take (b - a) := by
      rw [← List.take_add, Nat.add_sub_cancel' hab]
    rw [this, List.sum_append]
    have : 0 ≤ ((w.drop a).take (b - a)).sum :=
      List.sum_nonneg fun x hx => h0 x (List.mem_of_mem_drop (List.mem_of_mem_take hx))
    linarith
  have hsort : c.Pairwise (· ≤ ·) := by
    rw [List.pairwise_iff_getElem]
    intro a b ha hb hab
    rw [hget a ha, hget b hb]
    exact hmono _ _ (by omega)
  obtain ⟨s1, s2⟩ := searchRight_spec hsort u
  have hle := searchRight_le_length c u
  have hE : choiceIndex n (some w) u = searchRight c u := rfl
  have hlt : searchRight c u < w.length := by
    by_contra hge
    have := s1 (w.length - 1) (by omega) (by omega)
    rw [hget, show w.length - 1 + 1 = w.length by omega, List.take_length, div_self hw.ne'] at this
    linarith
  have lowb : ∀ j, j ≤ searchRight c u → (w.take j).sum / w.sum ≤ u := by
    intro j hj
    cases j with
    | zero => simpa using hu0
    | succ j =>
      have := s1 j (by omega) (by omega)
      rwa [hget] at this
  have upb : ∀ j, searchRight c u ≤ j → j < w.length → u < (w.take (j + 1)).sum / w.sum := by
    intro j hj hjl
    have := s2 j (by omega) hj
    rwa [hget] at this
  rw [hE]
  constructor
  · rintro rfl
    exact ⟨hlt, lowb _ le_rfl, upb _ le_rfl hlt⟩
  · rintro ⟨h1, h2, h3⟩
    apply le_antisymm
    · by_contra hcon
      have := lowb (j + 1) (by omega)
      linarith
    · by_contra hcon
      have := upb _ le_rfl hlt
      have := hmono (searchRight c u + 1) j (by omega)
      linarith

lemma stored_weights {E : Ext} {a : KDEArgs d} {k : KDE d} (h : KDE.init E a = .ok k) {w : List ℝ}
    (hw : k.weights = some w) : w.length = k.dataset.length ∧ (∀ x ∈ w, 0 ≤ x) ∧ 0 < w.sum := by
  have hv := stored_valid h hw
  obtain ⟨_, _, _, _, _, _, _, _, _, _, _, _, _, _, _, _, _, _, he⟩ := init_inv h
  have h1 : k.dataset = a.dataset := by rw [he]
  rw [h1]
  exact ⟨hv.1, hv.2.1, validW_sum hv⟩

/-- Specification: weight of data point `j`; weight 1 each without weights. -/
def Spec.weightAt (w : Option (List ℝ)) (j : ℕ) : ℝ :=
  match w with
  | none => 1
  | some l => l.getD j 0

/-- **C30.** Without boundaries each sample is a data point of positive weight plus the noise of that draw
coloured with a root `L` of the kernel matrix (no noise in the kept dimensions), for every outcome of the random
generator. -/
theorem C30_positive_weight {E : Ext} {a : KDEArgs d} {k : KDE d} (h : KDE.init E a = .ok k) (size : Option ℕ)
    (keep : KeepArg) (reflect : Reflect) (squeeze : Bool) (rnd : ℕ → ℕ → Draw d)
    (hrnd : ∀ m n, (rnd m n).Valid) (s : Samples d)
    (hs : k.resample size keep reflect squeeze rnd = .ok s) (hb : Spec.boundaries k reflect = .ok none) :
    ∃ L : Matrix (Fin d) (Fin d) ℝ,
      ((Spec.kernelMatrix k.covariance k.bandwidth).IsSymm →
        L * Lᵀ = Spec.kernelMatrix k.covariance k.bandwidth) ∧
      ∀ n (hn : n < s.points.length), ∃ (j : ℕ) (hj : j < a.dataset.length), 0 < Spec.weightAt k.weights j ∧
        ∃ u, k.kernel.dist.sample (rnd 0 n) = .ok u ∧
          (∀ i, Spec.Kept keep i → s.points[n] i = a.dataset[j] i) ∧
          (∀ i, ¬ Spec.Kept keep i → s.points[n] i = a.dataset[j] i + (L *ᵥ u) i) := by
  have hd : k.dataset = a.dataset := by
    obtain ⟨_, _, _, _, _, _, _, _, _, _, _, _, _, _, _, _, _, _, he⟩ := init_inv h; rw [he]
  rcases resample_inv h hs with ⟨_, h1⟩ | ⟨rows, draws, h0, _⟩
  swap
  · rw [h0] at hb; cases hb
  obtain ⟨_, U, ps, hU, hps, _, hall⟩ := resampleClear_inv h1
  have hM := (C18_matrix h).1
  refine ⟨Uᵀ, fun hsym => ?_, fun n hn => ?_⟩
  · rw [Matrix.transpose_transpose, ← hM]
    rw [← hM] at hsym
    exact cholesky_mul hsym hU
  obtain ⟨u, m, hu, hm, e⟩ := hall n hn
  have hmem := choiceDatum_mem hm
  have hj : choiceIndex k.dataset.length k.weights (rnd 0 n).pick < k.dataset.length := by
    by_contra hge
    rw [List.getElem?_eq_none (by omega)] at hmem; cases hmem
  rw [List.getElem?_eq_getElem hj, Option.some.injEq] at hmem
  refine ⟨choiceIndex k.dataset.length k.weights (rnd 0 n).pick, by rw [← hd]; exact hj, ?_, u, hu, ?_, ?_⟩
  · cases hkw : k.weights with
    | none => simp [Spec.weightAt]
    | some w =>
      obtain ⟨v1, v2, v3⟩ := stored_weights h hkw
      obtain ⟨q1, q2, q3⟩ := (choiceIndex_iff w v2 v3 (hrnd 0 n).2.2.2.1 (hrnd 0 n).2.2.2.2 k.dataset.length
        _).mp rfl
      simp only [Spec.weightAt]
      rw [List.getD_eq_getElem _ _ q1]
      have := q2.trans_lt q3
      rw [div_lt_div_iff_of_pos_right v3, List.sum_take_succ _ _ q1] at this
      linarith
  · intro i hi
    rw [e, Pi.add_apply, zeroDims, if_pos ((keepDims_spec hps i).mpr hi), add_zero, ← hmem]
    exact congrFun (List.getElem_of_eq hd hj) i
  · intro i hi
    rw [e, Pi.add_apply, zeroDims, if_neg (fun hc => hi ((keepDims_spec hps i).mp hc)), ← hmem]
    exact congrArg (· + _) (congrFun (List.getElem_of_eq hd hj) i)

end Kalepy
