import Mathlib.MeasureTheory.Integral.Bochner.Set
import Mathlib.MeasureTheory.Measure.Lebesgue.Basic
import Verif.Props.ResampleLaw
import Verif.Props.Invariance

/-!
# Resampling with reflection: combination with `keep` (C29), termination (C31), the law of the samples (C32), and
the support of the parabola kernel (C33)
-/

namespace Kalepy

open Matrix

variable {d : ℕ}

/-! ## A KDE with boundaries, for the concrete cases -/

lemma checkReflect_ofChecked (data : List (Fin d → ℝ)) (hne : data ≠ []) (rows : List ReflRow)
    (h1 : rows.length = d) (h2 : ∀ lo hi, some (some lo, some hi) ∈ rows → lo < hi) :
    checkReflect data (Reflect.ofChecked (some rows)) = .ok (some rows) := by
  refine ((C20_list data hne _ (by simp; omega)).1 rows).mpr ⟨by simp [h1], h1, ?_⟩
  intro i mn mx he
  have hi : (i : ℕ) < rows.length := by omega
  refine ⟨ReflRow.toDim (rows[(i : ℕ)]), rows[(i : ℕ)], by simp [List.getElem?_eq_getElem hi], by simp, ?_⟩
  have hmem := List.getElem_mem hi
  generalize rows[(i : ℕ)] = r at hmem
  obtain _ | ⟨lo, hi⟩ := r
  · exact Or.inl ⟨rfl, rfl⟩
  · refine Or.inr (Or.inr ⟨_, _, lo, hi, rfl, rfl, ?_, ?_, ?_⟩)
    · cases lo <;> simp [Spec.Boundary]
    · cases hi <;> simp [Spec.Boundary]
    · rintro a b rfl rfl; exact h2 _ _ hmem

/-- With a finite kernel, a covariance with non-negative diagonal, bandwidth 1 and well-formed boundaries in at least one dimension, the
construction succeeds. -/
lemma cov_init_reflect (E : Ext) (data : List (Fin d → ℝ)) (hne : data ≠ []) (D : Dist) (hD : D.finite = true)
    (C : Matrix (Fin d) (Fin d) ℝ) (hC : ∀ i, 0 ≤ C i i)
    (rows : List ReflRow) (h1 : rows.length = d) (h2 : ∀ lo hi, some (some lo, some hi) ∈ rows → lo < hi)
    (h3 : ∃ p, some p ∈ rows) :
    ∃ k, KDE.init E
      { dataset := data
        kernel := .cls D
        bandwidth := .val (.num 1)
        covariance := some C
        reflect := Reflect.ofChecked (some rows) } = .ok k ∧ k.weights = none ∧ k.kernel.dist = D ∧
      Spec.kernelMatrix k.covariance k.bandwidth = C ∧ k.reflect = some rows ∧ k.kernel.chunk = 100000 ∧
      k.dataset = data := by
  obtain ⟨dat, g1, g2⟩ := dataExtrema_spec hne
  have hext : ∀ eff : Fin d → ℝ × ℝ, ∃ ext, parseExtrema eff (extremaArg none (some rows)) = .ok ext := by
    intro eff
    simp only [extremaArg, Option.map_some, parseExtrema, parseExtremaList]
    have hall : (rows.map ReflRow.toExt).all ExtElem.scalar = false := by
      obtain ⟨⟨lo, hi⟩, hp⟩ := h3
      rw [List.all_eq_false]
      exact ⟨_, List.mem_map_of_mem hp, by simp [ReflRow.toExt, ExtElem.scalar]⟩
    rw [if_neg (by simp [hall]), dif_pos (by simpa using h1), if_neg (by simp [hall]), if_neg, if_pos]
    · exact ⟨_, rfl⟩
    · rw [List.all_eq_true]
      intro e he
      obtain ⟨r, _, rfl⟩ := List.mem_map.mp he
      rcases r with _ | ⟨lo, hi⟩ <;> simp [ReflRow.toExt, ExtElem.pair]
    · rw [Bool.not_eq_true, List.any_eq_false]
      intro e he
      obtain ⟨r, _, rfl⟩ := List.mem_map.mp he
      rcases r with _ | ⟨lo, hi⟩ <;> simp [ReflRow.toExt]
  have hnn : ∀ i, 0 ≤ (Kernel.init D (rescaleBw (Matrix.of fun _ _ => (1 : ℝ)) .none)
      C false 100000).matrix i i := by
    intro i
    simp only [Kernel.init, rescaleBw, Matrix.of_apply]
    exact mul_nonneg (hC i) (sq_nonneg _)
  obtain ⟨eff, he⟩ : ∃ eff, effExtrema data (Kernel.init D (rescaleBw (Matrix.of fun _ _ => (1 : ℝ)) .none)
      C false 100000).matrix (1 + numPad) = .ok eff := by
    simp only [effExtrema, g1]
    rw [if_pos hnn]
    exact ⟨_, rfl⟩
  obtain ⟨ext, hx⟩ := hext eff
  have hk := init_of_stages (E := E) (d := d)
    (a := { dataset := data
            kernel := .cls D
            bandwidth := .val (.num 1)
            covariance := some C
            reflect := Reflect.ofChecked (some rows) })
    (checkReflect_ofChecked data hne rows h1 h2) hne (weights := none) rfl (cov := C) rfl
    (bw0 := Matrix.of fun _ _ => 1) rfl (D := D) rfl rfl (out := 1 + numPad)
    (by simp only [kernelOut, hD, if_true]) he hx
  refine ⟨_, hk, rfl, rfl, ?_, rfl, rfl, rfl⟩
  ext i j
  simp [Spec.kernelMatrix, rescaleBw]

lemma unit_init_reflect (E : Ext) (data : List (Fin d → ℝ)) (hne : data ≠ []) (D : Dist) (hD : D.finite = true)
    (rows : List ReflRow) (h1 : rows.length = d) (h2 : ∀ lo hi, some (some lo, some hi) ∈ rows → lo < hi)
    (h3 : ∃ p, some p ∈ rows) :
    ∃ k, KDE.init E
      { dataset := data
        kernel := .cls D
        bandwidth := .val (.num 1)
        covariance := some 1
        reflect := Reflect.ofChecked (some rows) } = .ok k ∧ k.weights = none ∧ k.kernel.dist = D ∧
      Spec.kernelMatrix k.covariance k.bandwidth = 1 ∧ k.reflect = some rows ∧ k.kernel.chunk = 100000 ∧
      k.dataset = data :=
  cov_init_reflect E data hne D hD 1 (by simp) rows h1 h2 h3

/-! ## C29 -/

/-- Property C29, first half, as stated: keeping some dimensions and reflecting only others gives samples (or
gives up with `RuntimeError`), for every KDE with positive definite kernel matrix, some data point inside the
boundaries, and all random numbers. -/
def C29_Claim : Prop :=
  ∀ (d : ℕ) (E : Ext) (a : KDEArgs d) (k : KDE d), KDE.init E a = .ok k →
    (Spec.kernelMatrix k.covariance k.bandwidth).PosDef →
    ∀ (l : List (Fin d)) (rows : List ReflRow), k.reflect = some rows →
      (∀ i ∈ l, rows[(i : ℕ)]? = some none) →
      (∀ x ∈ k.dataset, ∀ i : Fin d, Spec.StrictlyInside (rows.getD i none) (x i)) → 0 < k.kernel.chunk →
      ∀ (size : ℕ) (rnd : ℕ → ℕ → Draw d), (∀ m n, (rnd m n).Valid ∧ rad (rnd m n).gauss ≠ 0) →
        (∃ s, k.resample (some size) (.dims (l.map fun i => ((i : ℕ) : ℤ))) .none true rnd = .ok s) ∨
        k.resample (some size) (.dims (l.map fun i => ((i : ℕ) : ℤ))) .none true rnd = .error .runtimeError

/-- A draw with given symmetric numbers, everything else fixed. -/
noncomputable def Spec.fixedDraw (sym : Fin d → ℝ) (t : ℝ) : Draw d where
  gauss := fun _ => 1
  unif := fun _ => 1 / 2
  sym := sym
  trip := fun _ => (t, t, t)
  pick := 0

lemma fixedDraw_valid {sym : Fin d → ℝ} (h : ∀ i, -1 ≤ sym i ∧ sym i ≤ 1) {t : ℝ} (ht : -1 ≤ t ∧ t ≤ 1) :
    (Spec.fixedDraw sym t).Valid :=
  ⟨fun _ => by norm_num [Spec.fixedDraw], h, fun _ => ⟨ht, ht, ht⟩, by norm_num [Spec.fixedDraw],
    by norm_num [Spec.fixedDraw]⟩

lemma fixedDraw_rad (hd : 0 < d) (sym : Fin d → ℝ) (t : ℝ) : rad (Spec.fixedDraw sym t).gauss ≠ 0 := by
  have : rad (Spec.fixedDraw sym t).gauss = Real.sqrt d := by simp [rad, Spec.fixedDraw]
  rw [this]
  exact (Real.sqrt_pos.mpr (by exact_mod_cast hd)).ne'

/-- An error other than `RuntimeError` is raised when a non-empty sample with kept dimensions and boundaries is
asked for. -/
lemma resampleReflect_kept_error {k : Kernel d} {data : List (Fin d → ℝ)} {size : ℕ} {refl : List ReflRow}
    {w : Option (List ℝ)} {keep : KeepArg} {rnd : ℕ → ℕ → Draw d} (hs : 0 < size)
    {i : Fin d} (hi : Spec.Kept keep i) (hc : 0 < k.chunk) (hD : drawData data refl ≠ [])
    {M : Matrix (Fin d) (Fin d) ℝ} (hM : covKeepVars k.matrix keep refl = .ok M)
    (hrnd : ∀ m n, (rnd m n).Valid ∧ rad (rnd m n).gauss ≠ 0) :
    resampleReflect k data size refl w keep rnd = .error .linAlgError := by
  obtain ⟨c1, c2⟩ := chunking_spec size k.chunk (by omega)
  obtain ⟨f, hf⟩ : ∃ f, 10 * (chunking size k.chunk).1 = f + 1 := by
    have : 1 ≤ (chunking size k.chunk).1 := by rw [c1]; unfold Spec.numChunks; omega
    exact ⟨10 * (chunking size k.chunk).1 - 1, by omega⟩
  have hch : cholesky M = none := by
    cases hU : cholesky M with
    | none => rfl
    | some U =>
      have := cholesky_needs_pos hU i
      rw [(covKeepVars_kept hM hi).1] at this
      exact absurd this (lt_irrefl _)
  have hclear : ∀ n m, resampleClear k.dist (drawData data refl) n (drawWeights data w refl) M .none (rnd m)
      = .error .linAlgError := by
    intro n m
    obtain ⟨noise, hnoise⟩ := listSeq_exists (f := fun j => k.dist.sample (rnd m j))
      (l := List.range n) fun j _ => sample_ok _ (hrnd m j).1 (hrnd m j).2
    unfold resampleClear
    simp only [hnoise, addCov, hch]
  unfold resampleReflect
  simp only [hM, if_neg hD]
  rw [if_neg (by omega), hf, rejectLoop, if_neg (by simp; omega)]
  simp only [hclear]

lemma drawData_ne_nil {data : List (Fin d → ℝ)} {refl : List ReflRow} {x : Fin d → ℝ} (hx : x ∈ data)
    (h : ∀ i : Fin d, Spec.StrictlyInside (refl.getD i none) (x i)) : drawData data refl ≠ [] := by
  apply List.ne_nil_of_mem (a := x)
  unfold drawData truncateData reflectData
  exact List.mem_filter.mpr ⟨List.mem_append_left _ hx, (insideBounds_iff refl x).mpr h⟩

/-- **C29 is false of the code**: in two dimensions, with boundaries 0 and 2 in dimension 0 and dimension 1 kept,
`resample` raises `LinAlgError`. -/
theorem C29_refuted : ¬ C29_Claim := by
  intro hC
  obtain ⟨k, hk, hw, hD, hM, hr, hc, hdat⟩ := unit_init_reflect (d := 2) ⟨fun A => A, id⟩ [![1, 1]] (by simp) .box rfl
    [some (some 0, some 2), none] rfl (by
      intro lo hi h
      simp only [List.mem_cons, Option.some.injEq, Prod.mk.injEq, reduceCtorEq, List.not_mem_nil, or_false] at h
      rw [h.1, h.2]; norm_num) ⟨(some 0, some 2), by simp⟩
  have hin : ∀ x ∈ k.dataset, ∀ i : Fin 2,
      Spec.StrictlyInside (([some (some 0, some 2), none] : List ReflRow).getD i none) (x i) := by
    rw [hdat]
    intro x hx i
    simp only [List.mem_singleton] at hx
    subst hx
    fin_cases i
    · intro lo hi h
      simp only [Fin.zero_eta, Fin.coe_ofNat_eq_mod, Nat.zero_mod, List.getD_cons_zero, Option.some.injEq,
        Prod.mk.injEq] at h
      obtain ⟨rfl, rfl⟩ := h
      constructor <;> (rintro b ⟨⟩; norm_num)
    · intro lo hi h; simp at h
  have hrnd : ∀ m n : ℕ, ((fun _ _ => Spec.fixedDraw (fun _ => 0) 0 : ℕ → ℕ → Draw 2) m n).Valid ∧
      rad ((fun _ _ => Spec.fixedDraw (fun _ => 0) 0 : ℕ → ℕ → Draw 2) m n).gauss ≠ 0 := fun _ _ =>
    ⟨fixedDraw_valid (fun _ => by norm_num) (by norm_num), fixedDraw_rad (by norm_num) _ _⟩
  have hres := hC 2 _ _ k hk (by rw [hM]; exact PosDef.one) [1] _ hr (by simp) hin (by omega) 1 _ hrnd
  have herr : k.resample (some 1) (.dims (([1] : List (Fin 2)).map fun i => ((i : ℕ) : ℤ))) .none true
      (fun _ _ => Spec.fixedDraw (fun _ => 0) 0) = .error .linAlgError := by
    rw [resample_eq hk]
    simp only [Spec.boundaries, hr, Except.bind]
    rw [resampleReflect_kept_error (i := 1) (by simp) (by simp [Spec.Kept]) (by omega)
      (drawData_ne_nil (x := ![1, 1]) (by rw [hdat]; simp) (hin _ (by rw [hdat]; simp))) (M := _) _ hrnd]
    · rfl
    · exact Matrix.of fun i j => if i ∈ [(1 : Fin 2)] ∨ j ∈ [(1 : Fin 2)] then 0 else k.kernel.matrix i j
    · rw [covKeepVars_eq]
      have hl : listSeq (keepDim 2 [some (some 0, some 2), none])
          (keepList 2 (.dims (([1] : List (Fin 2)).map fun i => ((i : ℕ) : ℤ)))) = .ok [1] := by
        have h1 : dimIndex 2 1 = .ok 1 := dimIndex_of (d := 2) 1 (Or.inl rfl)
        simp [keepList, listSeq, keepDim, h1]
      rw [hl]
      rfl
  rw [herr] at hres
  rcases hres with ⟨s, h⟩ | h <;> cases h

/-! ## C31 -/

/-- **C31.** A reflected call that returns has drawn at most `10·ceil(size/chunk)` batches of candidates (ten if
everything fits in one chunk), each of at least one and at most `chunk` candidates. -/
theorem C31_draws (k : Kernel d) (data : List (Fin d → ℝ)) (size : ℕ) (refl : List ReflRow)
    (w : Option (List ℝ)) (keep : KeepArg) (rnd : ℕ → ℕ → Draw d) (s : List (Fin d → ℝ)) (draws : List ℕ)
    (h : resampleReflect k data size refl w keep rnd = .ok (s, draws)) :
    draws.length ≤ 10 * max 1 ⌈(size : ℝ) / k.chunk⌉₊ ∧ ∀ n ∈ draws, 1 ≤ n ∧ n ≤ k.chunk := by
  obtain ⟨_, _, h3, h4⟩ := resampleReflect_inv h
  exact ⟨h4, h3⟩

lemma resampleClear_not_runtime {D : Dist} {data : List (Fin d → ℝ)} {size : ℕ} {w : Option (List ℝ)}
    {M : Matrix (Fin d) (Fin d) ℝ} {rnd : ℕ → Draw d} :
    resampleClear D data size w M .none rnd ≠ .error .runtimeError := by
  have hseq : ∀ {α β : Type} (f : α → Res β) (l : List α), (∀ a ∈ l, f a ≠ .error .runtimeError) →
      listSeq f l ≠ .error .runtimeError := by
    intro α β f l
    induction l with
    | nil => intro _ h; cases h
    | cons a l ih =>
      intro hf h
      rw [listSeq] at h
      split at h
      · rename_i e he
        cases h
        exact hf a (by simp) he
      · split at h
        · rename_i e he
          cases h
          exact ih (fun b hb => hf b (by simp [hb])) he
        · cases h
  have hfin : ∀ {m : ℕ} (f : Fin m → Res ℝ), (∀ a, f a ≠ .error .runtimeError) → finSeq f ≠ .error .runtimeError := by
    intro m
    induction m with
    | zero => intro f _ h; cases h
    | succ m ih =>
      intro f hf h
      rw [finSeq] at h
      split at h
      · rename_i e he
        cases h
        exact hf 0 he
      · split at h
        · rename_i e he
          cases h
          exact ih _ (fun b => hf b.succ) he
        · cases h
  have hsamp : ∀ r : Draw d, D.sample r ≠ .error .runtimeError := by
    intro r h
    cases D with
    | gaussian => cases h
    | box => simp only [Dist.sample] at h; split at h; cases h; split at h <;> cases h
    | parabola => cases h
    | triweight =>
      simp only [Dist.sample] at h
      split at h
      · cases h
      · cases hf : finSeq fun i => triInverse (r.unif i) with
        | error e =>
          rw [hf] at h
          cases h
          refine hfin _ (fun i hi => ?_) hf
          unfold triInverse interp1d at hi
          split at hi <;> cases hi
        | ok v => rw [hf] at h; cases h
  intro h
  unfold resampleClear at h
  split at h
  · rename_i e he; cases h; exact hseq _ _ (fun n _ => hsamp _) he
  split at h
  · rename_i e he
    cases h
    unfold addCov at he
    split at he <;> cases he
  split at h
  · rename_i e he; cases he
  split at h
  · split at h
    · rename_i e he
      cases h
      refine hseq _ _ (fun n _ hn => ?_) he
      unfold choiceDatum at hn
      split at hn <;> cases hn
    · cases h
  · cases h

/-- **C31**, giving up: `RuntimeError` is raised only after exactly `10·ceil(size/chunk)` batches, each of at
least one and at most `chunk` candidates, have produced fewer than `size` points inside the boundaries. -/
theorem C31_gives_up (k : Kernel d) (data : List (Fin d → ℝ)) (size : ℕ) (refl : List ReflRow)
    (w : Option (List ℝ)) (rnd : ℕ → ℕ → Draw d)
    (h : resampleReflect k data size refl w .none rnd = .error .runtimeError) :
    ∃ s, rejectLoop k.dist (drawData data refl) (drawWeights data w refl) k.matrix refl size
        (chunking size k.chunk).2 k.chunk rnd (10 * (chunking size k.chunk).1) (chunking size k.chunk).2
        ⟨[], []⟩ = .ok s ∧ s.draws.length = 10 * max 1 ⌈(size : ℝ) / k.chunk⌉₊ ∧
      (∀ n ∈ s.draws, 1 ≤ n ∧ n ≤ k.chunk) ∧ s.good.length < size := by
  have hloop : ∀ fuel draw s, rejectLoop k.dist (drawData data refl) (drawWeights data w refl) k.matrix refl size
      (chunking size k.chunk).2 k.chunk rnd fuel draw s ≠ .error .runtimeError := by
    intro fuel
    induction fuel with
    | zero => intro _ _ h; cases h
    | succ f ih =>
      intro draw s h
      rw [rejectLoop] at h
      split at h
      · cases h
      · split at h
        · rename_i e he; cases h; exact resampleClear_not_runtime he
        · exact ih _ _ h
  unfold resampleReflect at h
  simp only [covKeepVars] at h
  split at h
  · cases h
  split at h
  · cases h
  rename_i hc
  split at h
  · rename_i e he; cases h; exact absurd he (hloop _ _ _)
  rename_i s hs
  split at h
  swap
  · cases h
  rename_i hlt
  obtain ⟨c1, c2⟩ := chunking_spec size k.chunk (by omega)
  obtain ⟨_, _, r3, _, r5⟩ := rejectLoop_inv _ _ ⟨[], []⟩ s (by simp) (by simp) (fun _ => c2 (by omega)) (by simp)
    (c2 (by omega)).1 hs
  refine ⟨s, hs, ?_, r3, hlt⟩
  have := r5 hlt
  rw [c1] at this
  simpa [Spec.numChunks] using this

/-! ## C32 -/

lemma mirrorDim_outside {data : List (Fin d → ℝ)} {refl : List ReflRow}
    (hin : ∀ x ∈ data, ∀ i : Fin d, Spec.StrictlyInside (refl.getD i none) (x i)) (i : Fin d) :
    ∀ y ∈ mirrorDim data i (refl.getD i none), insideBounds refl y = false := by
  intro y hy
  cases hr : refl.getD i none with
  | none => rw [hr] at hy; simp [mirrorDim] at hy
  | some p =>
    obtain ⟨lo, hi⟩ := p
    rw [hr] at hy
    simp only [mirrorDim, List.mem_append] at hy
    rw [Bool.eq_false_iff]
    intro hc
    have hI := (insideBounds_iff refl y).mp hc i lo hi hr
    rcases hy with hy | hy
    · cases lo with
      | none => simp [mirrorData] at hy
      | some l =>
        simp only [mirrorData, List.mem_map] at hy
        obtain ⟨x, hx, rfl⟩ := hy
        have h1 := (hin x hx i (some l) hi hr).1 l rfl
        have h2 := hI.1 l rfl
        simp only [Function.update_self] at h2
        linarith
    · cases hi with
      | none => simp [mirrorData] at hy
      | some l =>
        simp only [mirrorData, List.mem_map] at hy
        obtain ⟨x, hx, rfl⟩ := hy
        have h1 := (hin x hx i lo (some l) hr).2 l rfl
        have h2 := hI.2 l rfl
        simp only [Function.update_self] at h2
        linarith

/-- If all data are strictly inside the boundaries, no mirror image survives the truncation. -/
lemma drawData_inside {data : List (Fin d → ℝ)} {refl : List ReflRow}
    (hin : ∀ x ∈ data, ∀ i : Fin d, Spec.StrictlyInside (refl.getD i none) (x i)) : drawData data refl = data := by
  unfold drawData truncateData reflectData
  rw [List.filter_append, List.filter_eq_self.mpr, List.filter_eq_nil_iff.mpr, List.append_nil]
  · intro y hy
    obtain ⟨i, _, hy⟩ := List.mem_flatMap.mp hy
    rw [mirrorDim_outside hin i y hy]; simp
  · intro x hx
    exact (insideBounds_iff refl x).mpr (hin x hx)

lemma drawWeights_inside {data : List (Fin d → ℝ)} {refl : List ReflRow} {w : List ℝ}
    (hin : ∀ x ∈ data, ∀ i : Fin d, Spec.StrictlyInside (refl.getD i none) (x i)) (hl : w.length = data.length)
    (hw : 0 < w.sum) : ∃ c, 0 < c ∧ drawWeights data (some w) refl = some (w.map (· / c)) := by
  have hsum : ∀ (l : List ℝ) (c : ℝ), (l.map (· / c)).sum = l.sum / c := by
    intro l c
    induction l with
    | nil => simp
    | cons x l ih => simp [ih, add_div]
  have hflat : ∀ n : ℕ, ((List.replicate n w).flatten).sum = n * w.sum := by
    intro n
    induction n with
    | zero => simp
    | succ n ih => rw [List.replicate_succ, List.flatten_cons, List.sum_append, ih]; push_cast; ring
  simp only [drawWeights, Option.map_some, reflectWeights, truncateWeights]
  set S := (w ++ (List.replicate (numMirrors (d := d) refl) w).flatten).sum with hS
  have hSpos : 0 < S := by
    rw [hS, List.sum_append, hflat]
    positivity
  have hz : (((reflectData data refl).zip
      ((w ++ (List.replicate (numMirrors (d := d) refl) w).flatten).map (· / S))).filter fun p =>
        insideBounds refl p.1).map Prod.snd = w.map (· / S) := by
    unfold reflectData
    rw [List.map_append, List.zip_append (by simp [hl]), List.filter_append, List.map_append]
    have h1 : (data.zip (w.map (· / S))).filter (fun p => insideBounds refl p.1) = data.zip (w.map (· / S)) := by
      rw [List.filter_eq_self]
      intro p hp
      exact (insideBounds_iff refl p.1).mpr (hin _ (List.of_mem_zip hp).1)
    rw [h1, List.map_snd_zip (by simp [hl])]
    rw [List.filter_eq_nil_iff.mpr]
    · simp
    · intro p hp
      obtain ⟨i, _, hy⟩ := List.mem_flatMap.mp (List.of_mem_zip hp).1
      rw [mirrorDim_outside hin i p.1 hy]; simp
  rw [hz, List.map_map, hsum]
  refine ⟨S * (w.sum / S), mul_pos hSpos (div_pos hw hSpos), ?_⟩
  congr 1
  refine List.map_congr_left fun x _ => ?_
  simp only [Function.comp_apply]
  rw [div_div]

lemma choiceIndex_scale {w : List ℝ} (h0 : ∀ x ∈ w, 0 ≤ x) (hw : 0 < w.sum) {c : ℝ} (hc : 0 < c) {u : ℝ}
    (hu0 : 0 ≤ u) (hu1 : u < 1) (n : ℕ) : choiceIndex n (some (w.map (· / c))) u = choiceIndex n (some w) u := by
  have hsum : ∀ l : List ℝ, (l.map (· / c)).sum = l.sum / c := by
    intro l
    induction l with
    | nil => simp
    | cons x l ih => simp [ih, add_div]
  rw [choiceIndex_iff (w.map (· / c)) (by
      intro x hx
      obtain ⟨y, hy, rfl⟩ := List.mem_map.mp hx
      exact div_nonneg (h0 y hy) hc.le) (by rw [hsum]; exact div_pos hw hc) hu0 hu1]
  obtain ⟨q1, q2, q3⟩ := (choiceIndex_iff w h0 hw hu0 hu1 n _).mp rfl
  refine ⟨by simpa using q1, ?_, ?_⟩
  · rw [← List.map_take, hsum, hsum, div_div_div_cancel_right₀ hc.ne']; exact q2
  · rw [← List.map_take, hsum, hsum, div_div_div_cancel_right₀ hc.ne']; exact q3

/-- With all data strictly inside, a batch of candidates is an unreflected resample of the data. -/
lemma candidates_eq {k : KDE d} {E : Ext} {a : KDEArgs d} (h : KDE.init E a = .ok k) {refl : List ReflRow}
    (hin : ∀ x ∈ k.dataset, ∀ i : Fin d, Spec.StrictlyInside (refl.getD i none) (x i)) (n : ℕ) (rnd : ℕ → Draw d)
    (hrnd : ∀ n, 0 ≤ (rnd n).pick ∧ (rnd n).pick < 1) (M : Matrix (Fin d) (Fin d) ℝ) :
    resampleClear k.kernel.dist (drawData k.dataset refl) n (drawWeights k.dataset k.weights refl) M .none rnd
      = resampleClear k.kernel.dist k.dataset n k.weights M .none rnd := by
  rw [drawData_inside hin]
  cases hw : k.weights with
  | none => rfl
  | some w =>
    obtain ⟨v1, v2, v3⟩ := stored_weights h hw
    obtain ⟨c, hc, he⟩ := drawWeights_inside (refl := refl) hin v1 v3
    rw [he]
    have hch : choiceOk k.dataset.length n (some (w.map (· / c))) = choiceOk k.dataset.length n (some w) := by
      have hsum : (w.map (· / c)).sum = w.sum / c := by
        clear he hw v1 v2 v3
        induction w with
        | nil => simp
        | cons x l ih => simp [ih, add_div]
      have hne : 0 < k.dataset.length := by
        obtain ⟨_, _, _, _, _, _, _, _, _, hne, _, _, _, _, _, _, _, _, hk⟩ := init_inv h
        rw [hk]; exact List.length_pos_iff.mpr hne
      simp only [choiceOk]
      rw [decide_eq_true, decide_eq_true]
      · exact ⟨Or.inl (by omega), v1, v3.ne', fun x hx => div_nonneg (v2 x hx) v3.le⟩
      · refine ⟨Or.inl (by omega), by simpa using v1, by rw [hsum]; exact (div_pos v3 hc).ne', ?_⟩
        intro x hx
        obtain ⟨y, hy, rfl⟩ := List.mem_map.mp hx
        rw [hsum]
        exact div_nonneg (div_nonneg (v2 y hy) hc.le) (div_pos v3 hc).le
    have hcd : ∀ m, choiceDatum k.dataset (some (w.map (· / c))) (rnd m).pick
        = choiceDatum k.dataset (some w) (rnd m).pick := by
      intro m
      unfold choiceDatum
      rw [choiceIndex_scale v2 v3 hc (hrnd m).1 (hrnd m).2]
    unfold resampleClear
    simp only [hch, hcd]

lemma rejectLoop_mem {D : Dist} {data : List (Fin d → ℝ)} {w : Option (List ℝ)}
    {M : Matrix (Fin d) (Fin d) ℝ} {refl : List ReflRow} {size cs chunk : ℕ} {rnd : ℕ → ℕ → Draw d} :
    ∀ (fuel draw : ℕ) (s t : LoopState d),
      rejectLoop D data w M refl size cs chunk rnd fuel draw s = .ok t →
      ∀ x ∈ t.good, x ∈ s.good ∨ ∃ m c trial, resampleClear D data c w M .none (rnd m) = .ok trial ∧ x ∈ trial := by
  intro fuel
  induction fuel with
  | zero => intro draw s t h x hx; cases h; exact Or.inl hx
  | succ f ih =>
    intro draw s t h x hx
    rw [rejectLoop] at h
    split at h
    · cases h; exact Or.inl hx
    · split at h
      · cases h
      · rename_i trial ht
        rcases ih _ _ _ h x hx with hx | hx
        · rcases List.mem_append.mp hx with hx | hx
          · exact Or.inl hx
          · exact Or.inr ⟨_, _, trial, ht, (List.mem_filter.mp (List.mem_of_mem_take hx)).1⟩
        · exact Or.inr hx

/-- **C32, what the code does instead**: if all data are strictly inside the boundaries, every sample returned with
reflection is one of the samples that `resample(reflect=False)` returns for (part of) the same random numbers — the
mirror images of the data are never drawn from.  Missing for the full property: samples from the mirror images,
which the reflected density requires. -/
theorem C32_candidates_partial {E : Ext} {a : KDEArgs d} {k : KDE d} (h : KDE.init E a = .ok k) (size : Option ℕ)
    (reflect : Reflect) (squeeze : Bool) (rnd : ℕ → ℕ → Draw d) (hrnd : ∀ m n, (rnd m n).Valid) (s : Samples d)
    (rows : List ReflRow) (hb : Spec.boundaries k reflect = .ok (some rows))
    (hin : ∀ x ∈ k.dataset, ∀ i : Fin d, Spec.StrictlyInside (rows.getD i none) (x i))
    (hs : k.resample size .none reflect squeeze rnd = .ok s) :
    ∀ x ∈ s.points, ∃ m c s', k.resample (some c) .none .false squeeze (fun _ => rnd m) = .ok s' ∧
      x ∈ s'.points := by
  rcases resample_inv h hs with ⟨h1, _⟩ | ⟨rows', draws, h1, h2⟩
  · rw [h1] at hb; cases hb
  rw [h1] at hb
  cases hb
  unfold resampleReflect at h2
  simp only [covKeepVars] at h2
  split at h2
  · cases h2
  split at h2
  · cases h2
  split at h2
  · cases h2
  rename_i t ht
  split at h2
  · cases h2
  have e := Except.ok.inj h2
  intro x hx
  have hx' : x ∈ t.good := by
    have : t.good = s.points := congrArg Prod.fst e
    rw [this]; exact hx
  rcases rejectLoop_mem _ _ _ _ ht x hx' with hx' | ⟨m, c, trial, hr, hx'⟩
  · simp at hx'
  · rw [candidates_eq h hin _ _ fun n => (hrnd m n).2.2.2] at hr
    refine ⟨m, c, squeezeSamples squeeze trial, ?_, by rw [squeezeSamples_points]; exact hx'⟩
    rw [resample_eq h]
    simp only [Spec.boundaries, Except.bind, Option.getD_some, hr]
    rfl

end Kalepy
