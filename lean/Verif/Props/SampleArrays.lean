import Verif.Model.SampleArrays
import Verif.Props.ResampleLaw
import Verif.Props.ResampleReflect
import Verif.Props.Outliers

/-!
# C169: shapes of the returned samples
-/

namespace Kalepy

open Matrix

variable {d : ℕ}

/-! ## Specification -/

/-- The array documented for the samples `l`: of shape `(D, N)`, or `(N,)` if `flat`; entry `n` of row `i` is coordinate `i`
of sample `n`. -/
def Spec.SampleArray (flat : Prop) [Decidable flat] (a : Arr) (l : List (Fin d → ℝ)) : Prop :=
  a.shape = (if flat then [l.length] else [d, l.length]) ∧
    ∀ (i : Fin d) (n : ℕ) (x : Fin d → ℝ), l[n]? = some x → a.vals[i * l.length + n]? = some (x i)

lemma flatMap_rows {α : Type*} (l : List α) (f : α → Fin d → ℝ) (S : List (Fin d)) (i n : ℕ) (q : Fin d) (hi : S[i]? = some q) (x : α)
    (hx : l[n]? = some x) : (S.flatMap fun j => l.map fun x => f x j)[i * l.length + n]? = some (f x q) := by
  induction S generalizing i with
  | nil => simp at hi
  | cons s S ih =>
    have hn : n < l.length := by
      by_contra hc
      rw [List.getElem?_eq_none (by omega)] at hx
      exact absurd hx (by simp)
    rw [List.flatMap_cons]
    cases i with
    | zero =>
      simp only [List.getElem?_cons_zero, Option.some.injEq] at hi
      subst hi
      rw [zero_mul, zero_add, List.getElem?_append_left (by simpa using hn), List.getElem?_map, hx]
      rfl
    | succ i =>
      rw [List.getElem?_cons_succ] at hi
      rw [List.getElem?_append_right (by rw [List.length_map]; nlinarith), List.length_map,
        show (i + 1) * l.length + n - l.length = i * l.length + n by
          rw [Nat.succ_mul]; omega]
      exact ih i hi

lemma sampleArr_vals (s : Bool) (l : List (Fin d → ℝ)) (i : Fin d) (n : ℕ) (x : Fin d → ℝ) (hx : l[n]? = some x) :
    (sampleArr s l).vals[i * l.length + n]? = some (x i) :=
  flatMap_rows l (fun x i => x i) (List.finRange d) i n i (by simp) x hx

lemma sampleArr_documented {s : Bool} {flat : Prop} [Decidable flat] (hs : s = decide flat) (hflat : flat → d = 1)
    {l : List (Fin d → ℝ)} (h : flat → l.length ≠ 1) : Spec.SampleArray flat (sampleArr s l) l := by
  refine ⟨?_, fun i n x hx => sampleArr_vals s l i n x hx⟩
  unfold sampleArr
  by_cases hf : flat
  · subst hs
    simp [hf, squeezeShape, hflat hf, h hf]
  · subst hs
    simp [hf]

lemma sampleArr_single {l : List (Fin d → ℝ)} (hd : d = 1) (h : l.length = 1) : (sampleArr true l).shape = [] := by
  simp [sampleArr, squeezeShape, hd, h]

/-! ## resample -/

/-- **C169**, `resample`: the returned array has shape `(D, L)`, or `(L,)` for one-dimensional data (unless
`squeeze=False`), where `L` is the requested number.  Missing: one sample of one-dimensional data (`C169_resample_single`). -/
theorem C169_resample_partial {E : Ext} {a : KDEArgs d} {k : KDE d} (h : KDE.init E a = .ok k) (size : Option ℕ) (keep : KeepArg)
    (reflect : Reflect) (squeeze : Bool) (rnd : ℕ → ℕ → Draw d) {A : Arr}
    (hA : k.resampleArr size keep reflect squeeze rnd = .ok A) (h1 : d = 1 → squeeze = true → size.getD a.dataset.length ≠ 1) :
    ∃ s, k.resample size keep reflect squeeze rnd = .ok s ∧ s.points.length = size.getD a.dataset.length ∧
      Spec.SampleArray (d = 1 ∧ squeeze = true) A s.points := by
  obtain ⟨s, hs, rfl⟩ := map_ok hA
  have hl := C26_size h size keep reflect squeeze rnd s hs
  refine ⟨s, hs, hl, sampleArr_documented ?_ (fun h => h.1) fun h => ?_⟩
  · by_cases hd : d = 1 <;> cases squeeze <;> simp [hd]
  · rw [hl]
    exact h1 h.1 h.2

/-- One sample of one-dimensional data is returned as an array without axes. -/
theorem C169_resample_single {E : Ext} {a : KDEArgs 1} {k : KDE 1} (h : KDE.init E a = .ok k) (size : Option ℕ) (keep : KeepArg)
    (reflect : Reflect) (rnd : ℕ → ℕ → Draw 1) {A : Arr} (hA : k.resampleArr size keep reflect true rnd = .ok A)
    (h1 : size.getD a.dataset.length = 1) : A.shape = [] := by
  obtain ⟨s, hs, rfl⟩ := map_ok hA
  exact sampleArr_single rfl (by rw [C26_size h size keep reflect true rnd s hs, h1])

/-! ## sample_grid -/

/-- **C169**, `sample_grid`: shape `(D, N)`, or `(N,)` for one-dimensional grids, and one scalar for each sample.  Missing: a single
sample from a one-dimensional grid (`C169_grid_single`). -/
theorem C169_grid_partial {srt : List ℝ → List ℕ} {r : Rand d} {edges : List (List ℝ)} {dens : NDArr d ℝ} {nsamp : Option ℝ}
    {mass sd sm : Option (NDArr d ℝ)} {interp : Bool} {rs : Option Bool} {A : Arr × List (Option ℝ)}
    (hA : sampleGridArr srt r edges dens nsamp mass sd sm none interp rs = .ok A) (h1 : d = 1 → A.2.length ≠ 1) :
    ∃ out, sampleGridFn srt r edges dens nsamp mass sd sm none interp rs = .ok out ∧
      Spec.SampleArray (d = 1) A.1 (out.map Prod.fst) ∧ A.2 = out.map Prod.snd := by
  obtain ⟨out, ho, rfl⟩ := map_ok hA
  refine ⟨out, ho, sampleArr_documented rfl id fun h => ?_, rfl⟩
  simpa using h1 h

/-- A single sample from a one-dimensional grid is returned as an array without axes. -/
theorem C169_grid_single {srt : List ℝ → List ℕ} {r : Rand 1} {edges : List (List ℝ)} {dens : NDArr 1 ℝ} {nsamp : Option ℝ}
    {mass sd sm : Option (NDArr 1 ℝ)} {interp : Bool} {rs : Option Bool} {A : Arr × List (Option ℝ)}
    (hA : sampleGridArr srt r edges dens nsamp mass sd sm none interp rs = .ok A) (h1 : A.2.length = 1) : A.1.shape = [] := by
  obtain ⟨out, ho, rfl⟩ := map_ok hA
  exact sampleArr_single rfl (by simpa using h1)

/-- `sample_grid` of a density on three edges succeeds for every number of samples. -/
lemma sampleGridArr_witness : ∃ (srt : List ℝ → List ℕ) (r : Rand 1), ∀ L : ℕ, ∃ A : Arr × List (Option ℝ),
    sampleGridArr srt r [[0, 1, 2]] exDens1 (some L) = .ok A ∧ A.2.length = L := by
  obtain ⟨srt, hs⟩ := exists_argsort
  obtain ⟨M, hM, hsh, hm0, hm1⟩ := exDens1_mass
  have hinc' : ∀ e ∈ [[(0 : ℝ), 1, 2]], e.Pairwise (· ≤ ·) := by
    intro e he; simp only [List.mem_singleton] at he; subst he; norm_num
  have hd : ∀ idx, ValidIdx exDens1.shape idx → 0 ≤ exDens1.get idx := by
    intro idx _; simp only [exDens1]; split <;> norm_num
  have hMsum : M.sum = 1 / 2 := by
    rw [sum_one, hsh 0, Finset.sum_range_succ, Finset.sum_range_one, hm0, hm1]; norm_num
  have hT : trapzNd exDens1 [[(0 : ℝ), 1, 2]] = .ok (1 / 2) := by rw [C38_mass_sum hM, hMsum]
  have hr : (⟨fun _ => 0, fun _ _ => 1 / 4⟩ : Rand 1).InRange :=
    ⟨fun _ => by norm_num, fun _ _ => by norm_num⟩
  refine ⟨srt, ⟨fun _ => 0, fun _ _ => 1 / 4⟩, fun L => ?_⟩
  obtain ⟨out, ho, hl, -⟩ := C46_sample_grid hs hT (by norm_num) (fun i => by simp [exDens1]) hinc' hd _ hr (some (L : ℝ))
    (fun x hx => by cases hx; positivity) true
  refine ⟨(sampleArr (decide ((1 : ℕ) = 1)) (out.map Prod.fst), out.map Prod.snd), ?_, by simpa using hl⟩
  rw [sampleGridArr, ho]
  rfl

/-- Concrete cases of the hypotheses of `C169_grid_partial` and `C169_grid_single`: three samples, and one. -/
example : ∃ (srt : List ℝ → List ℕ) (r : Rand 1) (A B : Arr × List (Option ℝ)),
    sampleGridArr srt r [[0, 1, 2]] exDens1 (some 3) = .ok A ∧ A.1.shape = [3] ∧
    sampleGridArr srt r [[0, 1, 2]] exDens1 (some 1) = .ok B ∧ B.1.shape = [] := by
  obtain ⟨srt, r, h⟩ := sampleGridArr_witness
  obtain ⟨A, hA, hl⟩ := h 3
  obtain ⟨B, hB, hm⟩ := h 1
  norm_num at hA hB
  obtain ⟨out, -, ⟨hs, -⟩, he⟩ := C169_grid_partial hA (fun _ => by omega)
  refine ⟨srt, r, A, B, hA, ?_, hB, C169_grid_single hB hm⟩
  rw [hs, if_pos rfl, List.length_map, ← hl, he, List.length_map]

/-! ## sample_outliers -/

/-- **C169**, `sample_outliers`: values of shape `(D, N)`, or `(N,)` for one-dimensional grids, where `N` is the number of weights.
Missing: a single value from a one-dimensional grid (`C169_outliers_single`). -/
theorem C169_outliers_partial {srt : List ℝ → List ℕ} {r : Rand d} {pr : PoissonRand} {edges : List (List ℝ)} {dens : NDArr d ℝ}
    {thr : ℝ} {nsamp : Option ℝ} {mass : Option (NDArr d ℝ)} {pin pout interp : Bool} {A : Arr × List ℝ}
    (hA : sampleOutliersArr srt r pr edges dens thr nsamp mass pin pout interp = .ok A) (h1 : d = 1 → A.2.length ≠ 1) :
    ∃ out, sampleOutliersFn srt r pr edges dens thr nsamp mass pin pout interp = .ok out ∧
      Spec.SampleArray (d = 1) A.1 (out.map Prod.fst) ∧ A.2 = out.map Prod.snd := by
  obtain ⟨out, ho, rfl⟩ := map_ok hA
  refine ⟨out, ho, sampleArr_documented rfl id fun h => ?_, rfl⟩
  simpa using h1 h

/-- A single value from a one-dimensional grid is returned without axes, although its weight is an array of length one. -/
theorem C169_outliers_single {srt : List ℝ → List ℕ} {r : Rand 1} {pr : PoissonRand} {edges : List (List ℝ)} {dens : NDArr 1 ℝ}
    {thr : ℝ} {nsamp : Option ℝ} {mass : Option (NDArr 1 ℝ)} {pin pout interp : Bool} {A : Arr × List ℝ}
    (hA : sampleOutliersArr srt r pr edges dens thr nsamp mass pin pout interp = .ok A) (h1 : A.2.length = 1) : A.1.shape = [] := by
  obtain ⟨out, ho, rfl⟩ := map_ok hA
  exact sampleArr_single rfl (by simpa using h1)

/-! ## The full claim -/

/-- The documented shape of `resample` for every size. -/
def C169_Claim : Prop :=
  ∀ (d : ℕ) (E : Ext) (a : KDEArgs d) (k : KDE d) (L : ℕ) (rnd : ℕ → ℕ → Draw d) (A : Arr), KDE.init E a = .ok k →
    k.resampleArr (some L) .none .none true rnd = .ok A → A.shape = if d = 1 then [L] else [d, L]

/-- A kernel density of two points on a line, whose `resample` succeeds for every size. -/
lemma resampleArr_witness : ∃ (E : Ext) (a : KDEArgs 1) (k : KDE 1) (rnd : ℕ → ℕ → Draw 1), KDE.init E a = .ok k ∧
    ∀ L : ℕ, ∃ A, k.resampleArr (some L) .none .none true rnd = .ok A := by
  obtain ⟨k, hk, -, -, hM⟩ := unit_init (d := 1) ⟨fun A => A, id⟩ [fun _ => 0, fun _ => 1] (by simp) [1, 1]
    ⟨rfl, by simp, ⟨1, by simp⟩⟩ .box rfl
  have hr : k.reflect = none := by
    obtain ⟨_, _, _, _, _, _, _, _, hr, _, _, _, _, _, _, _, _, _, he⟩ := init_inv hk
    rw [he]
    simpa [checkReflect, eq_comm] using hr
  refine ⟨_, _, k, fun _ _ => Spec.fixedDraw (fun _ => 0) 0, hk, fun L => ?_⟩
  obtain ⟨s, hs, -⟩ := C26_succeeds hk (by rw [hM]; exact PosDef.one) (some L) .none (fun l hl => by cases hl) .none true
    (fun _ _ => Spec.fixedDraw (fun _ => 0) 0)
    (fun _ _ => ⟨fixedDraw_valid (fun _ => by norm_num) (by norm_num), fixedDraw_rad (by norm_num) _ _⟩)
    (by simp [Spec.boundaries, hr])
  exact ⟨sampleArr true s.points, by rw [KDE.resampleArr, hs]; rfl⟩

/-- **C169**, refutation: one sample of two one-dimensional points. -/
theorem C169_refuted : ¬ C169_Claim := by
  intro h
  obtain ⟨E, a, k, rnd, hk, hA⟩ := resampleArr_witness
  obtain ⟨A, hA⟩ := hA 1
  have h1 := h 1 E a k 1 rnd A hk hA
  rw [C169_resample_single hk (some 1) .none .none _ hA rfl] at h1
  simp at h1

/-- Concrete case of the hypotheses of `C169_resample_partial` (three samples). -/
example : ∃ (E : Ext) (a : KDEArgs 1) (k : KDE 1) (rnd : ℕ → ℕ → Draw 1) (A : Arr), KDE.init E a = .ok k ∧
    k.resampleArr (some 3) .none .none true rnd = .ok A ∧ A.shape = [3] := by
  obtain ⟨E, a, k, rnd, hk, hA⟩ := resampleArr_witness
  obtain ⟨A, hA⟩ := hA 3
  obtain ⟨s, -, hl, h, -⟩ := C169_resample_partial hk (some 3) .none .none true rnd hA (by simp)
  exact ⟨E, a, k, rnd, A, hk, hA, by rw [h, hl]; rfl⟩

end Kalepy
