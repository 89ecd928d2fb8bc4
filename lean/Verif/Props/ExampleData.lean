import Mathlib.Algebra.Order.Star.Real
import Mathlib.LinearAlgebra.Matrix.PosDef
import Verif.Model.ExampleData
import Verif.Proofs.Np
import Verif.Props.Minmax
import Verif.Props.Sample

/-!
# C159, C160: example data in two and three dimensions
-/

namespace Kalepy

open Matrix

/-! ### Arrays -/

lemma length_putAt {α : Type*} (idx : List ℕ) : ∀ (arr vals : List α), (putAt arr idx vals).length = arr.length := by
  induction idx with
  | nil => intro arr vals; simp [putAt]
  | cons i idx ih =>
    intro arr vals
    cases vals with
    | nil => simp [putAt]
    | cons v vals =>
      have := ih (arr.set i v) vals
      simp only [putAt, List.zip_cons_cons, List.foldl_cons] at this ⊢
      rw [this, List.length_set]

lemma putAt_other {α : Type*} (idx : List ℕ) : ∀ (arr vals : List α) {j : ℕ}, j ∉ idx → (putAt arr idx vals)[j]? = arr[j]? := by
  induction idx with
  | nil => intro arr vals j _; simp [putAt]
  | cons i idx ih =>
    intro arr vals j hj
    cases vals with
    | nil => simp [putAt]
    | cons v vals =>
      rw [List.mem_cons, not_or] at hj
      have := ih (arr.set i v) vals hj.2
      simp only [putAt, List.zip_cons_cons, List.foldl_cons] at this ⊢
      rw [this, List.getElem?_set_ne (fun h => hj.1 h.symm)]

lemma putAt_at {α : Type*} (idx : List ℕ) : ∀ (arr vals : List α) {k : ℕ} (hk : k < idx.length) (hv : k < vals.length),
    idx.Nodup → idx[k] < arr.length → (putAt arr idx vals)[idx[k]]? = some vals[k] := by
  induction idx with
  | nil => intro arr vals k hk; simp at hk
  | cons i idx ih =>
    intro arr vals k hk hv hd hl
    cases vals with
    | nil => simp at hv
    | cons v vals =>
      rw [List.nodup_cons] at hd
      have e : putAt arr (i :: idx) (v :: vals) = putAt (arr.set i v) idx vals := by
        simp [putAt]
      rw [e]
      cases k with
      | zero =>
        simp only [List.getElem_cons_zero] at hl ⊢
        rw [putAt_other idx _ _ hd.1, List.getElem?_set_self hl]
      | succ k =>
        simp only [List.getElem_cons_succ] at hl ⊢
        exact ih _ _ (by simpa using hk) (by simpa using hv) hd.2 (by simpa using hl)

lemma takeAt_perm {α : Type*} (x : α) (l : List α) {idx : List ℕ} (h : idx.Perm (List.range l.length)) : (takeAt x l idx).Perm l := by
  have := h.map fun i => l.getD i x
  have e : (List.range l.length).map (fun i => l.getD i x) = l := by
    apply List.ext_getElem (by simp)
    intro i h1 h2
    simp [h2]
  rwa [e] at this

lemma choice_ok {perm : ℕ → List ℕ} (hp : ∀ n, (perm n).Perm (List.range n)) {n : ℕ} {size : ℤ} (h0 : 0 ≤ size) (h1 : size ≤ n) :
    ∃ sel, npChoiceDistinct perm n size = .ok sel ∧ sel.Nodup ∧ sel.length = size.toNat ∧ (∀ i ∈ sel, i < n) ∧
      sel.Sublist (perm n) := by
  have hn : ¬ (size < 0 ∨ (n : ℤ) < size) := by omega
  refine ⟨(perm n).take size.toNat, if_neg hn, ?_, ?_, ?_, List.take_sublist _ _⟩
  · exact List.Nodup.sublist (List.take_sublist _ _) ((hp n).nodup_iff.mpr List.nodup_range)
  · rw [List.length_take, (hp n).length_eq, List.length_range]; omega
  · intro i hi
    have := (hp n).mem_iff.mp (List.mem_of_mem_take hi)
    simpa using this

lemma arrMin_ok {l : List ℝ} (h : l ≠ []) : ∃ m, arrMin l = .ok m ∧ m ∈ l ∧ ∀ x ∈ l, m ≤ x := by
  cases l with
  | nil => exact absurd rfl h
  | cons a l => exact ⟨_, rfl, npMin_spec a l⟩

lemma arrMax_ok {l : List ℝ} (h : l ≠ []) : ∃ m, arrMax l = .ok m ∧ m ∈ l ∧ ∀ x ∈ l, x ≤ m := by
  cases l with
  | nil => exact absurd rfl h
  | cons a l => exact ⟨_, rfl, npMax_spec a l⟩

/-! ### Scaled normal numbers -/

/-- The numbers `x` in order, each multiplied by the root of its coordinate `axis` above the least one, relative to the greatest one. -/
def Spec.IsScaled {d : ℕ} (axis : Fin d) (x : ℕ → Fin d → ℝ) (n : ℕ) (y : ℕ → Fin d → ℝ) : Prop :=
  ∃ lo hi, IsLeast {t | ∃ j < n, t = x j axis} lo ∧ IsGreatest {t | ∃ j < n, t = x j axis} hi ∧
    ∀ j < n, ∀ l, y j l = x j l * Real.sqrt ((x j axis - lo) / hi)

lemma scaled_ok {d : ℕ} {axis : Fin d} {mv : Matrix (Fin d) (Fin d) ℝ → ℕ → (Fin d → ℝ)} {cov : Matrix (Fin d) (Fin d) ℝ} {num : ℤ}
    (hpos : ∃ j : ℕ, j < num ∧ 0 < mv cov j axis) :
    ∃ y, Spec.IsScaled axis (mv cov) num.toNat y ∧ exampleScaled axis mv cov num = .ok ((List.range num.toNat).map y) := by
  obtain ⟨j, hj, hj0⟩ := hpos
  have hnum : ¬ num < 0 := by omega
  have hne : ((List.range num.toNat).map (mv cov)).map (fun x => x axis) ≠ [] := by
    simp; omega
  obtain ⟨mn, e1, m1, m2⟩ := arrMin_ok hne
  obtain ⟨mx, e2, m3, m4⟩ := arrMax_ok hne
  have hmx : ¬ mx ≤ 0 := by
    have := m4 (mv cov j axis) (by
      simp only [List.map_map, List.mem_map, List.mem_range, Function.comp]
      exact ⟨j, by omega, rfl⟩)
    push Not
    linarith
  refine ⟨fun j l => mv cov j l * Real.sqrt ((mv cov j axis - mn) / mx), ⟨mn, mx, ⟨?_, ?_⟩, ⟨?_, ?_⟩, fun _ _ _ => rfl⟩, ?_⟩
  · simp only [List.map_map, List.mem_map, List.mem_range, Function.comp] at m1
    obtain ⟨i, hi, rfl⟩ := m1
    exact ⟨i, hi, rfl⟩
  · rintro t ⟨i, hi, rfl⟩
    exact m2 _ (by simp only [List.map_map, List.mem_map, List.mem_range, Function.comp]; exact ⟨i, hi, rfl⟩)
  · simp only [List.map_map, List.mem_map, List.mem_range, Function.comp] at m3
    obtain ⟨i, hi, rfl⟩ := m3
    exact ⟨i, hi, rfl⟩
  · rintro t ⟨i, hi, rfl⟩
    exact m4 _ (by simp only [List.map_map, List.mem_map, List.mem_range, Function.comp]; exact ⟨i, hi, rfl⟩)
  · simp only [exampleScaled, hnum, if_false, bind, Except.bind, pure, Except.pure, e1, e2, hmx]
    rw [List.map_map]
    rfl

lemma scaled_error {d : ℕ} (axis : Fin d) (mv : Matrix (Fin d) (Fin d) ℝ → ℕ → (Fin d → ℝ)) (cov : Matrix (Fin d) (Fin d) ℝ)
    {num : ℤ} (h : num ≤ 0) : exampleScaled axis mv cov num = .error .valueError := by
  rcases h.lt_or_eq with h | rfl
  · simp [exampleScaled, h, bind, Except.bind]
  · simp [exampleScaled, bind, Except.bind, pure, Except.pure, arrMin]

/-- **C159 (noise).** `_random_data_2d_01` and `_random_data_3d_02` return `num` points: exactly `int(num * noise)` of them, in
different places, are normal numbers around the mean of the others, and the remaining ones are the scaled normal numbers in the
places where they were drawn.  The largest of the numbers that scale has to be positive. -/
theorem C159_noise {d : ℕ} (axis : Fin d) (mv : Matrix (Fin d) (Fin d) ℝ → ℕ → (Fin d → ℝ)) (z : Fin d → ℕ → ℝ)
    {perm : ℕ → List ℕ} (hp : ∀ n, (perm n).Perm (List.range n)) {sigma : Fin d → ℝ} (hs : ∀ l, 0 ≤ sigma l)
    (corr : Matrix (Fin d) (Fin d) ℝ) (num : ℤ) {noise : ℝ} (h0 : 0 ≤ noise) (h1 : noise ≤ 1)
    (hpos : ∃ j : ℕ, j < num ∧ 0 < mv (exampleCov sigma corr) j axis) :
    ∃ out y, exampleNoisy axis mv z perm sigma corr num noise = .ok out ∧ (out.length : ℤ) = num ∧
      Spec.IsScaled axis (mv (exampleCov sigma corr)) num.toNat y ∧
      ∃ S : Finset ℕ, (S.card : ℤ) = ⌊num * noise⌋ ∧ (∀ j ∈ S, j < num) ∧
        (∀ j (h : j < out.length), j ∉ S → out[j] = y j) ∧
        ∀ j (h : j < out.length), j ∈ S → ∃ k, ∀ l,
          out[j] l = (∑ i ∈ Finset.range num.toNat, y i l) / num + 2 * sigma l * z l k := by
  obtain ⟨y, hy, ey⟩ := scaled_ok hpos
  obtain ⟨j, hj, _⟩ := hpos
  have hnum : (0 : ℝ) ≤ num := by exact_mod_cast (by omega : (0 : ℤ) ≤ num)
  obtain ⟨nn, hnn⟩ : ∃ nn, nn = pyInt ((num : ℝ) * noise) := ⟨_, rfl⟩
  have hfl : nn = ⌊(num : ℝ) * noise⌋ := by rw [hnn, pyInt, if_pos (mul_nonneg hnum h0)]
  have hn0 : 0 ≤ nn := by rw [hfl]; exact Int.floor_nonneg.mpr (mul_nonneg hnum h0)
  have hn1 : nn ≤ num := by
    have : (nn : ℝ) ≤ num := by
      rw [hfl]
      exact (Int.floor_le _).trans (by nlinarith)
    exact_mod_cast this
  obtain ⟨sel, es, hd, hl, hm, _⟩ := choice_ok hp (n := num.toNat) hn0 (by omega)
  have erow : finSeq (fun l => npNormal (rowMean ((List.range num.toNat).map y) l) (2 * sigma l) (z l) nn)
      = .ok fun l => (stream (z l) nn.toNat).map fun t => rowMean ((List.range num.toNat).map y) l + 2 * sigma l * t := by
    rw [finSeq_ok]
    intro l
    refine if_neg ?_
    rw [not_or, not_lt, not_lt]
    exact ⟨hn0, mul_nonneg (by norm_num) (hs l)⟩
  have hmean : ∀ l, rowMean ((List.range num.toNat).map y) l = (∑ i ∈ Finset.range num.toNat, y i l) / num := by
    intro l
    rw [rowMean, List.length_map, List.length_range, List.map_map]
    have e1 : ((num.toNat : ℤ) : ℝ) = num := by
      congr 1
      omega
    have e2 : (num.toNat : ℝ) = num := by exact_mod_cast e1
    rw [e2, Finset.sum_range, ← List.sum_ofFn]
    congr 2
    apply List.ext_getElem (by simp)
    intro i h1 h2
    simp
  obtain ⟨vals, hvals⟩ : ∃ vals : List (Fin d → ℝ), vals = (List.range nn.toNat).map fun k l =>
    ((stream (z l) nn.toNat).map fun t => rowMean ((List.range num.toNat).map y) l + 2 * sigma l * t).getD k 0 := ⟨_, rfl⟩
  have hlen : (putAt ((List.range num.toNat).map y) sel vals).length = num.toNat := by
    rw [length_putAt]; simp
  refine ⟨putAt ((List.range num.toNat).map y) sel vals, y, ?_, ?_, hy, sel.toFinset, ?_, ?_, ?_, ?_⟩
  · simp only [exampleNoisy, ey, bind, Except.bind, ← hnn, erow, es, pure, Except.pure, hvals]
  · rw [hlen]; omega
  · rw [List.toFinset_card_of_nodup hd, hl, ← hfl]; omega
  · intro j hj
    have := hm j (by simpa using hj)
    omega
  · intro j h hj
    have h2 := putAt_other sel ((List.range num.toNat).map y) vals (j := j) (by simpa using hj)
    rw [List.getElem?_eq_getElem h] at h2
    rw [hlen] at h
    rw [List.getElem?_eq_getElem (by simpa using h)] at h2
    simpa using h2
  · intro j h hj
    obtain ⟨k, hk, rfl⟩ := List.mem_iff_getElem.mp (List.mem_toFinset.mp hj)
    have hkn : k < nn.toNat := by omega
    have h2 := putAt_at sel ((List.range num.toNat).map y) vals hk (by rw [hvals]; simpa using hkn) hd (by
      simpa using hm _ (List.getElem_mem hk))
    rw [List.getElem?_eq_getElem h] at h2
    have h3 := Option.some.inj h2
    refine ⟨k, fun l => ?_⟩
    have h4 : vals[k]'(by rw [hvals]; simpa using hkn) = fun l =>
        ((stream (z l) nn.toNat).map fun t => rowMean ((List.range num.toNat).map y) l + 2 * sigma l * t).getD k 0 := by
      subst hvals
      rw [List.getElem_map, List.getElem_range]
    rw [h3, ← hmean, h4]
    simp [stream, List.getD_eq_getElem?_getD, hkn]

/-- **C159 (noise, errors).** Without points, or with more noise than points, these functions raise a `ValueError`. -/
theorem C159_noise_errors {d : ℕ} (axis : Fin d) (mv : Matrix (Fin d) (Fin d) ℝ → ℕ → (Fin d → ℝ)) (z : Fin d → ℕ → ℝ)
    (perm : ℕ → List ℕ) {sigma : Fin d → ℝ} (hs : ∀ l, 0 ≤ sigma l)
    (corr : Matrix (Fin d) (Fin d) ℝ) (num : ℤ) (noise : ℝ) :
    (num ≤ 0 → exampleNoisy axis mv z perm sigma corr num noise = .error .valueError) ∧
    ((∃ j : ℕ, j < num ∧ 0 < mv (exampleCov sigma corr) j axis) → num + 1 ≤ num * noise →
      exampleNoisy axis mv z perm sigma corr num noise = .error .valueError) := by
  constructor
  · intro h
    simp [exampleNoisy, scaled_error axis mv _ h, bind, Except.bind]
  · intro hpos hlarge
    obtain ⟨y, hy, ey⟩ := scaled_ok hpos
    obtain ⟨j, hj, _⟩ := hpos
    have hnum : (0 : ℝ) ≤ num := by exact_mod_cast (by omega : (0 : ℤ) ≤ num)
    obtain ⟨nn, hnn⟩ : ∃ nn, nn = pyInt ((num : ℝ) * noise) := ⟨_, rfl⟩
    have hn1 : num < nn := by
      rw [hnn, pyInt, if_pos (by linarith)]
      exact Int.lt_iff_add_one_le.mpr (Int.le_floor.mpr (by push_cast; exact hlarge))
    have erow : finSeq (fun l => npNormal (rowMean ((List.range num.toNat).map y) l) (2 * sigma l) (z l) nn)
        = .ok fun l => (stream (z l) nn.toNat).map fun t => rowMean ((List.range num.toNat).map y) l + 2 * sigma l * t := by
      rw [finSeq_ok]
      intro l
      refine if_neg ?_
      rw [not_or, not_lt, not_lt]
      exact ⟨by omega, mul_nonneg (by norm_num) (hs l)⟩
    have es : npChoiceDistinct perm num.toNat nn = .error .valueError := if_pos (by omega)
    simp only [exampleNoisy, ey, bind, Except.bind, ← hnn, erow, es]

/-- **C159 (range).** `_random_data_3d_01` returns the `num` scaled normal points followed by `num // 5` points that do not leave the
range of the first ones in any coordinate. -/
theorem C159_range {d : ℕ} (axis : Fin d) (mv : Matrix (Fin d) (Fin d) ℝ → ℕ → (Fin d → ℝ)) {u : Fin d → ℕ → ℝ}
    (hu : ∀ l i, 0 ≤ u l i ∧ u l i < 1) (sigma : Fin d → ℝ)
    (corr : Matrix (Fin d) (Fin d) ℝ) (num : ℤ) (hpos : ∃ j : ℕ, j < num ∧ 0 < mv (exampleCov sigma corr) j axis) :
    ∃ a b y, exampleAppended axis mv u sigma corr num = .ok (a ++ b) ∧ (a.length : ℤ) = num ∧ (b.length : ℤ) = num / 5 ∧
      Spec.IsScaled axis (mv (exampleCov sigma corr)) num.toNat y ∧ (∀ j (h : j < a.length), a[j] = y j) ∧
      ∀ p ∈ b, ∀ l, ∃ q ∈ a, ∃ r ∈ a, q l ≤ p l ∧ p l ≤ r l := by
  obtain ⟨y, hy, ey⟩ := scaled_ok hpos
  obtain ⟨j, hj, _⟩ := hpos
  obtain ⟨a, ha⟩ : ∃ a, a = (List.range num.toNat).map y := ⟨_, rfl⟩
  have hne : ∀ l : Fin d, a.map (fun x => x l) ≠ [] := by
    intro l
    rw [ha]
    simp; omega
  choose mn e1 m1 _ using fun l => arrMin_ok (hne l)
  choose mx e2 m2 m3 using fun l => arrMax_ok (hne l)
  have hle : ∀ l, mn l ≤ mx l := fun l => m3 l _ (m1 l)
  have erow : (finSeq fun l => do
      let lo ← arrMin (a.map fun x => x l)
      let hi ← arrMax (a.map fun x => x l)
      npUniform lo hi (u l) (num / 5))
      = .ok fun l => (stream (u l) (num / 5).toNat).map fun t => mn l + (mx l - mn l) * t := by
    rw [finSeq_ok]
    intro l
    simp only [e1, e2, bind, Except.bind]
    exact if_neg (by omega)
  refine ⟨a, (List.range (num / 5).toNat).map fun k l =>
      ((stream (u l) (num / 5).toNat).map fun t => mn l + (mx l - mn l) * t).getD k 0, y, ?_, ?_, ?_, hy, ?_, ?_⟩
  · rw [← ha] at ey
    rw [exampleAppended, ey]
    simp only [bind, Except.bind, pure, Except.pure] at erow ⊢
    rw [erow]
  · rw [ha]; simp; omega
  · simp; omega
  · intro j h
    simp [ha]
  · intro p hp l
    obtain ⟨k, hk, rfl⟩ := List.mem_map.mp hp
    have hk' : k < (num / 5).toNat := by simpa using hk
    obtain ⟨q, hq, eq⟩ := List.mem_map.mp (m1 l)
    obtain ⟨r, hr, er⟩ := List.mem_map.mp (m2 l)
    refine ⟨q, hq, r, hr, ?_⟩
    have e : ((stream (u l) (num / 5).toNat).map fun t => mn l + (mx l - mn l) * t).getD k 0 = mn l + (mx l - mn l) * u l k := by
      simp [stream, List.getD_eq_getElem?_getD, hk']
    simp only [e]
    rw [eq, er]
    have := hu l k
    have := hle l
    constructor <;> nlinarith

/-- **C159 (covariance).** The matrices that describe the normal numbers are positive definite, so that such numbers exist. -/
theorem C159_covariance : (exampleCov sigma2 corr2).PosDef ∧ (exampleCov sigma3 corr3).PosDef := by
  constructor
  · refine PosDef.of_dotProduct_mulVec_pos ?_ fun x hx => ?_
    · ext i j
      fin_cases i <;> fin_cases j <;> simp [exampleCov, sigma2, corr2]
    · have e : star x ⬝ᵥ (exampleCov sigma2 corr2 *ᵥ x) = 5 / 4 * (x 0) ^ 2 + (x 0 / 2 - x 1 / 5) ^ 2 := by
        simp [dotProduct, mulVec, Fin.sum_univ_two, exampleCov, sigma2, corr2]
        ring
      rw [e]
      by_contra hc
      push Not at hc
      have h0 : x 0 = 0 := by nlinarith [sq_nonneg (x 0), sq_nonneg (x 0 / 2 - x 1 / 5)]
      have h1 : x 1 = 0 := by
        rw [h0] at hc
        nlinarith [sq_nonneg (x 1)]
      exact hx (by ext i; fin_cases i <;> simp [h0, h1])
  · refine PosDef.of_dotProduct_mulVec_pos ?_ fun x hx => ?_
    · ext i j
      fin_cases i <;> fin_cases j <;> simp [exampleCov, sigma3, corr3] <;> norm_num
    · have e : star x ⬝ᵥ (exampleCov sigma3 corr3 *ᵥ x) = (x 1 / 5 + 4 / 5 * x 0 - 3 / 8 * x 2) ^ 2
          + 19 / 25 * (x 0 + 45 / 38 * x 2) ^ 2 + 1269 / 1216 * (x 2) ^ 2 := by
        simp [dotProduct, mulVec, Fin.sum_univ_three, exampleCov, sigma3, corr3]
        ring
      rw [e]
      by_contra hc
      push Not at hc
      have q0 := sq_nonneg (x 1 / 5 + 4 / 5 * x 0 - 3 / 8 * x 2)
      have q1 := sq_nonneg (x 0 + 45 / 38 * x 2)
      have q2 := sq_nonneg (x 2)
      have h2 : x 2 = 0 := pow_eq_zero_iff (two_ne_zero) |>.mp (by linarith)
      have h0 : x 0 + 45 / 38 * x 2 = 0 := pow_eq_zero_iff (two_ne_zero) |>.mp (by linarith)
      have h1 : x 1 / 5 + 4 / 5 * x 0 - 3 / 8 * x 2 = 0 := pow_eq_zero_iff (two_ne_zero) |>.mp (by linarith)
      have h0' : x 0 = 0 := by rw [h2] at h0; linarith
      have h1' : x 1 = 0 := by rw [h2, h0'] at h1; linarith
      exact hx (by ext i; fin_cases i <;> simp [h0', h1', h2])

/-! ### Sorted and shuffled numbers -/

/-- **C160 (sorted).** `_random_data_2d_02` returns two arrays of `num` numbers: the first one holds normal numbers in nondecreasing
order, the second one numbers of [0, 2) that were drawn, in nondecreasing order but for at most a quarter of the places. -/
theorem C160_sorted (z : ℕ → ℝ) {u : ℕ → ℝ} (hu : ∀ i, 0 ≤ u i ∧ u i < 1) {perm perm' : ℕ → List ℕ}
    (hp : ∀ n, (perm n).Perm (List.range n)) (hp' : ∀ n, (perm' n).Perm (List.range n)) (num : ℕ) :
    ∃ xx yy s : List ℝ, exampleSorted z u perm perm' num = .ok (xx, yy) ∧ xx.length = num ∧ yy.length = num ∧
      xx.Pairwise (· ≤ ·) ∧ xx.Perm ((List.range num).map fun i => 1 + z i / 2) ∧
      s.Pairwise (· ≤ ·) ∧ s.Perm ((List.range num).map fun i => 2 * u i) ∧
      (∀ y ∈ yy, y ∈ s ∧ 0 ≤ y ∧ y < 2) ∧
      ∃ S : Finset ℕ, S.card = num / 4 ∧ ∀ j (h : j < yy.length) (h' : j < s.length), j ∉ S → yy[j] = s[j] := by
  have hq : (0 : ℤ) ≤ (num : ℤ) / 4 ∧ (num : ℤ) / 4 ≤ ((num : ℤ).toNat : ℕ) := by omega
  obtain ⟨sel, es, hd, hl, hm, _⟩ := choice_ok hp (n := (num : ℤ).toNat) hq.1 hq.2
  obtain ⟨new, en, hd', hl', hm', _⟩ := choice_ok hp' (n := (num : ℤ).toNat) hq.1 hq.2
  have e1 : npNormal 1 (1 / 2) z num = .ok ((stream z num).map fun t => 1 + 1 / 2 * t) := by
    have : ¬ ((num : ℤ) < 0 ∨ (1 / 2 : ℝ) < 0) := by norm_num
    exact if_neg this
  have e2 : npUniform 0 2 u num = .ok ((stream u num).map fun t => 0 + (2 - 0) * t) := if_neg (by omega)
  have hT : (num : ℤ).toNat = num := by simp
  rw [hT] at es en hm hm'
  obtain ⟨s, hs⟩ : ∃ s, s = npSort ((stream u num).map fun t => 0 + (2 - 0) * t) := ⟨_, rfl⟩
  have sperm : s.Perm ((List.range num).map fun i => 2 * u i) := by
    rw [hs]
    refine (npSort_perm _).trans (List.Perm.of_eq ?_)
    rw [stream, List.map_map]
    refine List.map_congr_left fun i _ => ?_
    simp only [Function.comp]; ring
  have slen : s.length = num := by simpa using sperm.length_eq
  obtain ⟨idx, hidx⟩ : ∃ idx, idx = putAt (List.range num) sel new := ⟨_, rfl⟩
  have ilen : idx.length = num := by rw [hidx, length_putAt]; simp
  have ilt : ∀ i ∈ idx, i < num := by
    intro i hi
    obtain ⟨j, hj, rfl⟩ := List.mem_iff_getElem.mp hi
    have hj' : j < num := by rwa [ilen] at hj
    by_cases hjs : j ∈ sel
    · obtain ⟨k, hk, rfl⟩ := List.mem_iff_getElem.mp hjs
      have hk' : k < new.length := by omega
      have := putAt_at sel (List.range num) new hk hk' hd (by simpa using hj')
      rw [← hidx, List.getElem?_eq_getElem hj] at this
      rw [Option.some.inj this]
      exact hm' _ (List.getElem_mem hk')
    · have := putAt_other sel (List.range num) new hjs
      rw [← hidx, List.getElem?_eq_getElem hj, List.getElem?_eq_getElem (by simpa using hj')] at this
      rw [Option.some.inj this]
      simpa using hj'
  refine ⟨npSort ((stream z num).map fun t => 1 + 1 / 2 * t), takeAt 0 s idx, s, ?_, ?_, ?_, npSort_pairwise _, ?_, ?_, sperm, ?_,
    sel.toFinset, ?_, ?_⟩
  · simp only [exampleSorted, bind, Except.bind, pure, Except.pure, e1, e2, hT, es, en, hs, hidx]
  · rw [(npSort_perm _).length_eq]; simp [stream]
  · simp [takeAt, ilen]
  · refine (npSort_perm _).trans (List.Perm.of_eq ?_)
    rw [stream, List.map_map]
    refine List.map_congr_left fun i _ => ?_
    simp only [Function.comp]; ring
  · rw [hs]; exact npSort_pairwise _
  · intro y hy
    obtain ⟨i, hi, rfl⟩ := List.mem_map.mp hy
    have hi' : i < s.length := by rw [slen]; exact ilt i hi
    have e : s.getD i 0 = s[i] := by simp [List.getD_eq_getElem?_getD, hi']
    rw [e]
    have hmem := List.getElem_mem hi'
    refine ⟨hmem, ?_⟩
    obtain ⟨j, _, hj⟩ := List.mem_map.mp (sperm.mem_iff.mp hmem)
    rw [← hj]
    constructor <;> linarith [(hu j).1, (hu j).2]
  · rw [List.toFinset_card_of_nodup hd, hl]; omega
  · intro j h h' hj
    have hj' : j < num := by rwa [slen] at h'
    have := putAt_other sel (List.range num) new (j := j) (by simpa using hj)
    rw [← hidx, List.getElem?_eq_getElem (by rw [ilen]; exact hj'), List.getElem?_eq_getElem (by simpa using hj')] at this
    have e := Option.some.inj this
    simp only [takeAt, List.getElem_map]
    rw [e]
    simp [List.getD_eq_getElem?_getD, h']

lemma zip_takeAt {a b : List ℝ} (h : a.length = b.length) {idx : List ℕ} (hi : ∀ i ∈ idx, i < a.length) :
    (takeAt 0 a idx).zip (takeAt 0 b idx) = takeAt (0, 0) (a.zip b) idx := by
  simp only [takeAt, List.zip_map']
  refine List.map_congr_left fun i hm => ?_
  have h1 := hi i hm
  have h2 : i < b.length := h ▸ h1
  simp [List.getD_eq_getElem?_getD, h1, h2, List.getElem?_zip_eq_some]

/-- **C160 (covariance).** The two covariant arrays of these functions consist of the given numbers.  They come from the sorted numbers
`s` of the first array and an arrangement `c` of the second one, in which the numbers are in the order of the noisy score
`√(s[i] / max) + (cc[i] / max)² + cov * z[i]`; the pairs are then shuffled as pairs. -/
theorem C160_covary {srt : List ℝ → List ℕ} (hsrt : ∀ l, IsArgsort (srt l) l) {shuf : ℕ → List ℕ}
    (hsh : ∀ n, (shuf n).Perm (List.range n)) (z : ℕ → ℝ) {cov : ℝ} (hcov : 0 ≤ cov) {aa cc : List ℝ} (hlen : aa.length = cc.length)
    (ha : ∀ a ∈ aa, 0 < a) (hc : ∃ c ∈ cc, 0 < c) :
    ∃ aa' cc' s c : List ℝ, exampleCovary srt shuf z cov aa cc = .ok (aa', cc') ∧ aa'.Perm aa ∧ cc'.Perm cc ∧
      s.Pairwise (· ≤ ·) ∧ s.Perm aa ∧ (aa'.zip cc').Perm (s.zip c) ∧
      ∃ (order : List ℕ) (amax cmax : ℝ), order.Perm (List.range cc.length) ∧ c = order.map (fun i => cc.getD i 0) ∧
        amax ∈ aa ∧ (∀ a ∈ aa, a ≤ amax) ∧ cmax ∈ cc ∧ (∀ c ∈ cc, c ≤ cmax) ∧
        (order.map fun i => Real.sqrt (s.getD i 0 / amax) + (cc.getD i 0 / cmax) ^ 2 + cov * z i).Pairwise (· ≤ ·) := by
  obtain ⟨c, hcm, hc0⟩ := hc
  obtain ⟨cmax, e1, m0, m1⟩ := arrMax_ok (l := cc) (fun h => by simp [h] at hcm)
  have hcmax : cmax ≠ 0 := by
    have := m1 c hcm
    linarith
  have hA : (npSort aa).length = aa.length := (npSort_perm aa).length_eq
  obtain ⟨amax, e2, n0, n1⟩ := arrMax_ok (l := npSort aa) (fun h => by
    have h2 : cc.length = 0 := by rw [← hlen, ← hA, h]; rfl
    rw [List.length_eq_zero_iff.mp h2] at hcm
    simp at hcm)
  have e3 : npNormal 0 cov z (npSort aa).length = .ok ((stream z (npSort aa).length).map fun t => 0 + cov * t) := by
    refine if_neg ?_
    rw [not_or, not_lt, not_lt]
    exact ⟨by omega, hcov⟩
  obtain ⟨xx, hxx⟩ : ∃ xx, xx = (List.range (npSort aa).length).map fun i =>
    (((npSort aa).getD i 0 / amax) ^ (1 / 4 : ℝ)) ^ 2 + (cc.getD i 0 / cmax) ^ 2
      + ((stream z (npSort aa).length).map fun t => 0 + cov * t).getD i 0 := ⟨_, rfl⟩
  have hxl : xx.length = cc.length := by rw [hxx]; simp [hA, hlen]
  have p1 := takeAt_perm (0 : ℝ) cc (idx := srt xx) (by rw [← hxl]; exact (hsrt xx).1)
  have p2 := takeAt_perm (0 : ℝ) (npSort aa) (hsh _)
  have hl : (npSort aa).length = (takeAt 0 cc (srt xx)).length := by rw [p1.length_eq, hA, hlen]
  refine ⟨takeAt 0 (npSort aa) (shuf (npSort aa).length), takeAt 0 (takeAt 0 cc (srt xx)) (shuf (npSort aa).length),
    npSort aa, takeAt 0 cc (srt xx), ?_, p2.trans (npSort_perm aa), ?_, npSort_pairwise _, npSort_perm aa, ?_,
    srt xx, amax, cmax, ?_, rfl, ?_, ?_, m0, m1, ?_⟩
  · simp only [exampleCovary, bind, Except.bind, pure, Except.pure, e1, hcmax, if_false, e2, e3, hxx]
  · refine (takeAt_perm 0 _ ?_).trans p1
    rw [← hl]
    exact hsh _
  · rw [zip_takeAt hl]
    · refine takeAt_perm _ _ ?_
      rw [List.length_zip, ← hl, min_self]
      exact hsh _
    · intro i hi
      simpa using (hsh _).mem_iff.mp hi
  · rw [← hxl]; exact (hsrt xx).1
  · exact (npSort_perm aa).mem_iff.mp n0
  · intro a ha'
    exact n1 a ((npSort_perm aa).mem_iff.mpr ha')
  · have h2 := (hsrt xx).2
    have e : (srt xx).map (fun i => Real.sqrt ((npSort aa).getD i 0 / amax) + (cc.getD i 0 / cmax) ^ 2 + cov * z i)
        = (srt xx).map fun i => xx.getD i 0 := by
      refine List.map_congr_left fun i hi => ?_
      have hi1 : i < xx.length := by simpa using (hsrt xx).1.mem_iff.mp hi
      have hi2 : i < aa.length := by rw [hlen, ← hxl]; exact hi1
      have hi3 : i < (npSort aa).length := by rw [hA]; exact hi2
      have hpos : 0 ≤ (npSort aa).getD i 0 / amax := by
        have q1 : 0 < amax := ha _ ((npSort_perm aa).mem_iff.mp n0)
        have q2 : (npSort aa).getD i 0 = (npSort aa)[i] := by simp [List.getD_eq_getElem?_getD, hi3]
        rw [q2]
        exact div_nonneg (ha _ ((npSort_perm aa).mem_iff.mp (List.getElem_mem hi3))).le q1.le
      have q3 : Real.sqrt ((npSort aa).getD i 0 / amax) = (((npSort aa).getD i 0 / amax) ^ (1 / 4 : ℝ)) ^ 2 := by
        rw [Real.sqrt_eq_rpow, ← Real.rpow_natCast, ← Real.rpow_mul hpos]
        norm_num
      have q4 : ((stream z (npSort aa).length).map fun t => 0 + cov * t).getD i 0 = cov * z i := by
        simp [stream, List.getD_eq_getElem?_getD, hi3]
      have q5 : xx.getD i 0 = (((npSort aa).getD i 0 / amax) ^ (1 / 4 : ℝ)) ^ 2 + (cc.getD i 0 / cmax) ^ 2
          + ((stream z (npSort aa).length).map fun t => 0 + cov * t).getD i 0 := by
        rw [List.getD_eq_getElem?_getD, List.getElem?_eq_getElem hi1, Option.getD_some]
        simp only [hxx, List.getElem_map, List.getElem_range]
      rw [q5, q4, ← q3]
    rw [e]
    exact h2

lemma covary_ok {srt : List ℝ → List ℕ} (hsrt : ∀ l, IsArgsort (srt l) l) {shuf : ℕ → List ℕ}
    (hsh : ∀ n, (shuf n).Perm (List.range n)) (z : ℕ → ℝ) {cov : ℝ} (hcov : 0 ≤ cov) {aa cc : List ℝ} (hlen : aa.length = cc.length)
    (ha : ∀ a ∈ aa, 0 < a) (hc : ∃ c ∈ cc, 0 < c) :
    ∃ aa' cc', exampleCovary srt shuf z cov aa cc = .ok (aa', cc') ∧ aa'.Perm aa ∧ cc'.Perm cc := by
  obtain ⟨a, c, _, _, h1, h2, h3, _⟩ := C160_covary hsrt hsh z hcov hlen ha hc
  exact ⟨a, c, h1, h2, h3⟩

lemma covary_empty (srt : List ℝ → List ℕ) (shuf : ℕ → List ℕ) (z : ℕ → ℝ) (cov : ℝ) (aa : List ℝ) :
    exampleCovary srt shuf z cov aa [] = .error .valueError := by
  simp [exampleCovary, arrMax, bind, Except.bind]

lemma takeAt_subperm {l : List ℝ} {sel : List ℕ} {p : List ℕ} (hp : p.Perm (List.range l.length)) (h : sel.Sublist p) :
    (takeAt 0 l sel).Subperm l :=
  (List.Sublist.map _ h).subperm.trans (takeAt_perm 0 l hp).subperm

/-- **C160 (positive, three dimensions).** `_random_data_3d_03` keeps the positive ones of `3 num` lognormal numbers minus one.  If at
least `num` of them are positive it returns three arrays of `num` numbers: positive numbers among those, normal numbers, and numbers
of [0, 1); with fewer positive numbers, or without points, it raises a `ValueError`. -/
theorem C160_positive3 (z zb z' : ℕ → ℝ) {p : ℕ → ℝ} (hp01 : ∀ i, 0 ≤ p i ∧ p i < 1) {perm shuf : ℕ → List ℕ}
    (hp : ∀ n, (perm n).Perm (List.range n)) (hsh : ∀ n, (shuf n).Perm (List.range n))
    {srt : List ℝ → List ℕ} (hsrt : ∀ l, IsArgsort (srt l) l) (num : ℤ) {par : ℝ × ℝ} (hpar : 0 ≤ par.2) {cov : ℝ} (hcov : 0 ≤ cov)
    (hpc : 0 < num → ∃ i : ℕ, i < num ∧ 0 < p i) (pos : List ℝ)
    (hpos : pos = ((List.range (3 * num).toNat).map fun i => Real.exp (par.1 + par.2 * z i) - 1).filter (0 < ·)) :
    (0 < num → num ≤ pos.length → ∃ aa bb cc : List ℝ,
      examplePositive3 z perm zb p srt shuf z' num par cov = .ok (aa, bb, cc) ∧
      (aa.length : ℤ) = num ∧ (bb.length : ℤ) = num ∧ (cc.length : ℤ) = num ∧
      aa.Subperm pos ∧ (∀ a ∈ aa, 0 < a) ∧ bb = (List.range num.toNat).map (fun i => par.2 * zb i) ∧
      cc.Perm ((List.range num.toNat).map fun i => Real.sqrt (p i)) ∧ ∀ c ∈ cc, 0 ≤ c ∧ c < 1) ∧
    (num ≤ 0 ∨ pos.length < num → examplePositive3 z perm zb p srt shuf z' num par cov = .error .valueError) := by
  have epos : 0 ≤ num → ((stream z (3 * num).toNat).map (fun t => Real.exp (par.1 + par.2 * t)) |>.map (· - 1)).filter (0 < ·) = pos := by
    intro _
    rw [hpos, stream, List.map_map, List.map_map]
    rfl
  have e0 : 0 ≤ num → npLognormal par.1 par.2 z (3 * num)
      = .ok ((stream z (3 * num).toNat).map fun t => Real.exp (par.1 + par.2 * t)) := by
    intro h
    refine if_neg ?_
    rw [not_or, not_lt, not_lt]
    exact ⟨by omega, hpar⟩
  constructor
  · intro h0 h1
    obtain ⟨sel, es, hd, hl, hm, hsub⟩ := choice_ok hp (n := pos.length) h0.le h1
    have e1 : npNormal 0 par.2 zb num = .ok ((stream zb num.toNat).map fun t => 0 + par.2 * t) := by
      refine if_neg ?_
      rw [not_or, not_lt, not_lt]
      exact ⟨h0.le, hpar⟩
    have e2 : npPower2 p num = .ok ((stream p num.toNat).map Real.sqrt) := if_neg (by omega)
    obtain ⟨i, hi, hi0⟩ := hpc h0
    have hpp : ∀ a ∈ pos, 0 < a := by
      intro a ha
      rw [hpos] at ha
      simpa using (List.mem_filter.mp ha).2
    obtain ⟨aa, cc, e3, p1, p2⟩ := covary_ok hsrt hsh z' hcov (aa := takeAt 0 pos sel) (cc := (stream p num.toNat).map Real.sqrt)
      (by simp [takeAt, stream, hl])
      (fun a ha => hpp a ((takeAt_subperm (hp _) hsub).subset ha))
      ⟨Real.sqrt (p i), by
        simp only [stream, List.map_map, List.mem_map, List.mem_range, Function.comp]
        exact ⟨i, by omega, rfl⟩, Real.sqrt_pos.mpr hi0⟩
    have hsp : aa.Subperm pos := p1.subperm.trans (takeAt_subperm (hp _) hsub)
    have p2' : cc.Perm ((List.range num.toNat).map fun i => Real.sqrt (p i)) := by
      rw [stream, List.map_map] at p2
      exact p2
    refine ⟨aa, (stream zb num.toNat).map fun t => 0 + par.2 * t, cc, ?_, ?_, ?_, ?_, hsp, ?_, ?_, p2', ?_⟩
    · simp only [examplePositive3, bind, Except.bind, pure, Except.pure, e0 h0.le, epos h0.le, es, e1, e2, e3]
    · rw [p1.length_eq]; simp [takeAt, hl]; omega
    · simp [stream]; omega
    · rw [p2.length_eq]; simp [stream]; omega
    · exact fun a ha => hpp a (hsp.subset ha)
    · rw [stream, List.map_map]
      refine List.map_congr_left fun i _ => ?_
      simp
    · intro c hc
      obtain ⟨i, _, rfl⟩ := List.mem_map.mp (p2'.mem_iff.mp hc)
      refine ⟨Real.sqrt_nonneg _, ?_⟩
      rw [Real.sqrt_lt' one_pos]
      simpa using (hp01 i).2
  · intro h
    rcases lt_trichotomy num 0 with h0 | rfl | h0
    · have : npLognormal par.1 par.2 z (3 * num) = .error .valueError := if_pos (Or.inl (by omega))
      simp only [examplePositive3, bind, Except.bind, this]
    · have e1 : npNormal 0 par.2 zb 0 = .ok ((stream zb (0 : ℤ).toNat).map fun t => 0 + par.2 * t) := by
        refine if_neg ?_
        rw [not_or, not_lt, not_lt]
        exact ⟨le_rfl, hpar⟩
      have e2 : npPower2 p 0 = .ok [] := by simp [npPower2, stream]
      obtain ⟨sel, es, _⟩ := choice_ok hp (n := pos.length) (size := 0) le_rfl (by omega)
      simp only [examplePositive3, bind, Except.bind, e0 le_rfl, epos le_rfl, es, e1, e2, covary_empty]
    · have es : npChoiceDistinct perm pos.length num = .error .valueError := if_pos (by omega)
      simp only [examplePositive3, bind, Except.bind, e0 h0.le, epos h0.le, es]

/-- **C160 (positive, two dimensions).** The same for `_random_data_2d_03`, where a uniform number of [-1, 1) is added to each of the
`3 num` lognormal numbers. -/
theorem C160_positive2 (z u z' : ℕ → ℝ) {p : ℕ → ℝ} (hp01 : ∀ i, 0 ≤ p i ∧ p i < 1) {perm shuf : ℕ → List ℕ}
    (hp : ∀ n, (perm n).Perm (List.range n)) (hsh : ∀ n, (shuf n).Perm (List.range n))
    {srt : List ℝ → List ℕ} (hsrt : ∀ l, IsArgsort (srt l) l) (num : ℤ)
    (hpc : 0 < num → ∃ i : ℕ, i < num ∧ 0 < p i) (pos : List ℝ)
    (hpos : pos = ((List.range (3 * num).toNat).map fun i => Real.exp (3 / 10 * z i) - 2 + 2 * u i).filter (0 < ·)) :
    (0 < num → num ≤ pos.length → ∃ aa cc : List ℝ,
      examplePositive2 z u perm p srt shuf z' num = .ok (aa, cc) ∧
      (aa.length : ℤ) = num ∧ (cc.length : ℤ) = num ∧
      aa.Subperm pos ∧ (∀ a ∈ aa, 0 < a) ∧
      cc.Perm ((List.range num.toNat).map fun i => Real.sqrt (p i)) ∧ ∀ c ∈ cc, 0 ≤ c ∧ c < 1) ∧
    (num ≤ 0 ∨ pos.length < num → examplePositive2 z u perm p srt shuf z' num = .error .valueError) := by
  have e0 : 0 ≤ num → npLognormal 0 (3 / 10) z (3 * num)
      = .ok ((stream z (3 * num).toNat).map fun t => Real.exp (0 + 3 / 10 * t)) := by
    intro h
    refine if_neg ?_
    rw [not_or, not_lt, not_lt]
    exact ⟨by omega, by norm_num⟩
  have hlen3 : (((stream z (3 * num).toNat).map fun t => Real.exp (0 + 3 / 10 * t)).map (· - 1)).length = (3 * num).toNat := by
    simp [stream]
  have eu : npUniform (-1) 1 u ((3 * num).toNat : ℕ) = .ok ((stream u (3 * num).toNat).map fun t => -1 + (1 - -1) * t) :=
    if_neg (by omega)
  have epos : (List.zipWith (· + ·) (((stream z (3 * num).toNat).map fun t => Real.exp (0 + 3 / 10 * t)).map (· - 1))
      ((stream u (3 * num).toNat).map fun t => -1 + (1 - -1) * t)).filter (0 < ·) = pos := by
    rw [hpos, stream, stream, List.map_map, List.map_map, List.map_map]
    congr 1
    apply List.ext_getElem (by simp)
    intro i h1 h2
    simp
    ring
  constructor
  · intro h0 h1
    obtain ⟨sel, es, hd, hl, hm, hsub⟩ := choice_ok hp (n := pos.length) h0.le h1
    have e2 : npPower2 p num = .ok ((stream p num.toNat).map Real.sqrt) := if_neg (by omega)
    obtain ⟨i, hi, hi0⟩ := hpc h0
    have hpp : ∀ a ∈ pos, 0 < a := by
      intro a ha
      rw [hpos] at ha
      simpa using (List.mem_filter.mp ha).2
    obtain ⟨aa, cc, e3, p1, p2⟩ := covary_ok hsrt hsh z' (cov := 1 / 10) (by norm_num) (aa := takeAt 0 pos sel)
      (cc := (stream p num.toNat).map Real.sqrt)
      (by simp [takeAt, stream, hl])
      (fun a ha => hpp a ((takeAt_subperm (hp _) hsub).subset ha))
      ⟨Real.sqrt (p i), by
        simp only [stream, List.map_map, List.mem_map, List.mem_range, Function.comp]
        exact ⟨i, by omega, rfl⟩, Real.sqrt_pos.mpr hi0⟩
    have hsp : aa.Subperm pos := p1.subperm.trans (takeAt_subperm (hp _) hsub)
    have p2' : cc.Perm ((List.range num.toNat).map fun i => Real.sqrt (p i)) := by
      rw [stream, List.map_map] at p2
      exact p2
    refine ⟨aa, cc, ?_, ?_, ?_, hsp, ?_, p2', ?_⟩
    · simp only [examplePositive2, bind, Except.bind, e0 h0.le, hlen3, eu, epos, es, e2, e3]
    · rw [p1.length_eq]; simp [takeAt, hl]; omega
    · rw [p2.length_eq]; simp [stream]; omega
    · exact fun a ha => hpp a (hsp.subset ha)
    · intro c hc
      obtain ⟨i, _, rfl⟩ := List.mem_map.mp (p2'.mem_iff.mp hc)
      refine ⟨Real.sqrt_nonneg _, ?_⟩
      rw [Real.sqrt_lt' one_pos]
      simpa using (hp01 i).2
  · intro h
    rcases lt_trichotomy num 0 with h0 | rfl | h0
    · have : npLognormal 0 (3 / 10) z (3 * num) = .error .valueError := if_pos (Or.inl (by omega))
      simp only [examplePositive2, bind, Except.bind, this]
    · have e2 : npPower2 p 0 = .ok [] := by simp [npPower2, stream]
      obtain ⟨sel, es, _⟩ := choice_ok hp (n := pos.length) (size := 0) le_rfl (by omega)
      simp only [examplePositive2, bind, Except.bind, e0 le_rfl, hlen3, eu, epos, es, e2, covary_empty]
    · have es : npChoiceDistinct perm pos.length num = .error .valueError := if_pos (by omega)
      simp only [examplePositive2, bind, Except.bind, e0 h0.le, hlen3, eu, epos, es]

/-! ### Examples -/

/-- Five points of growing coordinates, one of them noise. -/
example : ∃ out y, exampleNoisy (1 : Fin 2) (fun _ j => ![(j : ℝ), j + 1]) (fun _ _ => 0) List.range sigma2 corr2 5 (1 / 5) = .ok out ∧
    (out.length : ℤ) = 5 ∧ Spec.IsScaled (1 : Fin 2) (fun j => ![(j : ℝ), j + 1]) 5 y := by
  obtain ⟨out, y, h1, h2, h3, _⟩ := C159_noise (1 : Fin 2) (fun _ j => ![(j : ℝ), j + 1]) (fun _ _ => 0) (perm := List.range)
    (fun n => List.Perm.refl _) (sigma := sigma2) (fun l => by fin_cases l <;> norm_num [sigma2]) corr2 5 (noise := 1 / 5)
    (by norm_num) (by norm_num) ⟨0, by norm_num, by simp⟩
  exact ⟨out, y, h1, h2, h3⟩

/-- If all numbers are positive there are enough of them. -/
example {srt : List ℝ → List ℕ} (hsrt : ∀ l, IsArgsort (srt l) l) : ∃ aa bb cc : List ℝ,
    examplePositive3 (fun _ => 0) List.range (fun _ => 0) (fun _ => 1 / 4) srt List.range (fun _ => 0) 7 (1, 1) 0 = .ok (aa, bb, cc) ∧
    (aa.length : ℤ) = 7 ∧ ∀ a ∈ aa, 0 < a := by
  obtain ⟨aa, bb, cc, h, h1, _, _, _, h2, _⟩ := (C160_positive3 (fun _ => 0) (fun _ => 0) (fun _ => 0) (p := fun _ => 1 / 4)
    (fun _ => by norm_num) (perm := List.range) (shuf := List.range) (fun n => List.Perm.refl _) (fun n => List.Perm.refl _)
    hsrt 7 (par := (1, 1)) (by norm_num) (cov := 0) le_rfl (fun _ => ⟨0, by norm_num, by norm_num⟩) _ rfl).1 (by norm_num) (by
      rw [List.filter_eq_self.mpr]
      · simp
      · intro a ha
        obtain ⟨_, _, rfl⟩ := List.mem_map.mp ha
        simp)
  exact ⟨aa, bb, cc, h, h1, h2⟩

/-- If no number is positive, for instance without scatter around one, the function fails. -/
example {srt : List ℝ → List ℕ} (hsrt : ∀ l, IsArgsort (srt l) l) :
    examplePositive3 (fun _ => 0) List.range (fun _ => 0) (fun _ => 1 / 4) srt List.range (fun _ => 0) 7 (0, 1) 0
      = .error .valueError := by
  refine (C160_positive3 (fun _ => 0) (fun _ => 0) (fun _ => 0) (p := fun _ => 1 / 4)
    (fun _ => by norm_num) (perm := List.range) (shuf := List.range) (fun n => List.Perm.refl _) (fun n => List.Perm.refl _)
    hsrt 7 (par := (0, 1)) (by norm_num) (cov := 0) le_rfl (fun _ => ⟨0, by norm_num, by norm_num⟩) _ rfl).2 (Or.inr ?_)
  rw [List.filter_eq_nil_iff.mpr]
  · norm_num
  · intro a ha
    obtain ⟨_, _, rfl⟩ := List.mem_map.mp ha
    simp

end Kalepy
