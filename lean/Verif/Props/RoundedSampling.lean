import Verif.Props.Sample
import Verif.Proofs.Interp
import Verif.Props.Rounding

/-!
# C136, C137: sampling in rounded arithmetic
-/

namespace Kalepy

open Spec

variable {p : ℕ} {fl : ℝ → ℝ}

/-! ### cumulative sums -/

lemma cumsumFrom_length (acc : ℝ) (l : List ℝ) : (cumsumFrom fl acc l).length = l.length := by
  induction l generalizing acc with
  | nil => rfl
  | cons x l ih => simp [cumsumFrom, ih]

/-- What the loop of `np.cumsum` produces: `A` has one element more than `l`. -/
structure Steps (fl : ℝ → ℝ) (l A : List ℝ) : Prop where
  len : A.length = l.length + 1
  step : ∀ k (h : k < l.length), A[k + 1]'(by omega) = fl (A[k]'(by omega) + l[k])

lemma steps_cumsum (acc : ℝ) (l : List ℝ) : Steps fl l (acc :: cumsumFrom fl acc l) := by
  induction l generalizing acc with
  | nil => exact ⟨rfl, fun k h => absurd h (by simp)⟩
  | cons x l ih =>
    refine ⟨by simp [cumsumFrom_length], fun k h => ?_⟩
    cases k with
    | zero => rfl
    | succ k =>
      have := (ih (fl (acc + x))).step k (by simpa using h)
      simpa [cumsumFrom] using this

/-- What these proofs use of a rounding to the numbers of a set `F`. -/
structure Rounds (F : ℝ → Prop) (fl : ℝ → ℝ) : Prop where
  float : ∀ x, F (fl x)
  fix : ∀ {x}, F x → fl x = x
  mono : Monotone fl
  zero : F 0
  one : F 1

lemma Spec.Nearest.rounds (h : Nearest p fl) : Rounds (IsFloat p) fl := ⟨h.float, h.fix, h.mono, isFloat_zero, isFloat_one⟩

variable {F : ℝ → Prop}

lemma Steps.fixed (hfl : Rounds F fl) {l A : List ℝ} (h : Steps fl l A)
    (h0 : A[0]'(by rw [h.len]; omega) = 0) : ∀ k (hk : k < A.length), fl A[k] = A[k] := by
  intro k hk
  cases k with
  | zero => rw [h0, hfl.fix hfl.zero]
  | succ k => rw [h.step k (by rw [h.len] at hk; omega), hfl.fix (hfl.float _)]

lemma Steps.mono (hfl : Rounds F fl) {l A : List ℝ} (h : Steps fl l A)
    (h0 : A[0]'(by rw [h.len]; omega) = 0) (hl : ∀ x ∈ l, 0 ≤ x) : A.Pairwise (· ≤ ·) := by
  rw [← List.isChain_iff_pairwise, List.isChain_iff_getElem]
  intro k hk
  have hk' : k < l.length := by rw [h.len] at hk; omega
  rw [h.step k hk']
  calc A[k] = fl A[k] := (h.fixed hfl h0 k (by omega)).symm
    _ ≤ fl (A[k] + l[k]) := hfl.mono (by linarith [hl _ (List.getElem_mem hk')])

lemma pairwise_get {A : List ℝ} (h : A.Pairwise (· ≤ ·)) {i j : ℕ} (hj : j < A.length) (hij : i ≤ j) :
    A[i]'(by omega) ≤ A[j] := by
  rcases hij.eq_or_lt with rfl | hlt
  · exact le_rfl
  · exact List.pairwise_iff_getElem.mp h _ _ _ _ hlt

lemma Steps.last_pos (hfl : Rounds F fl) {l A : List ℝ} (h : Steps fl l A)
    (h0 : A[0]'(by rw [h.len]; omega) = 0) (hl : ∀ x ∈ l, 0 ≤ x) (hk : ∀ x ∈ l, 0 < x → ∀ a, 0 ≤ a → 0 < fl (a + x))
    (hpos : ∃ x ∈ l, 0 < x) :
    0 < A[l.length]'(by rw [h.len]; omega) := by
  obtain ⟨x, hx, hx0⟩ := hpos
  obtain ⟨k, hk', rfl⟩ := List.getElem_of_mem hx
  have hm := h.mono hfl h0 hl
  have hk0 : 0 ≤ A[k]'(by rw [h.len]; omega) := by
    rw [← h0]; exact pairwise_get hm (by rw [h.len]; omega) (Nat.zero_le k)
  have hk1 : 0 < A[k + 1]'(by rw [h.len]; omega) := by
    rw [h.step k hk']
    exact hk _ hx hx0 _ hk0
  exact hk1.trans_le (pairwise_get hm (by rw [h.len]; omega) (by omega))

/-- The normalised cumulative sums. -/
lemma Steps.normed (hfl : Rounds F fl) {l A : List ℝ} (h : Steps fl l A)
    (h0 : A[0]'(by rw [h.len]; omega) = 0) (hl : ∀ x ∈ l, 0 ≤ x) {T : ℝ} (hTpos : 0 < T)
    (hT : T = A[l.length]'(by rw [h.len]; omega)) :
    (A.map fun x => fl (x / T)).Pairwise (· ≤ ·) ∧ fl (A[0]'(by rw [h.len]; omega) / T) = 0 ∧
      fl (A[l.length]'(by rw [h.len]; omega) / T) = 1 ∧
      ∀ k (hk : k < l.length), l[k] = 0 → fl (A[k + 1]'(by rw [h.len]; omega) / T) = fl (A[k]'(by rw [h.len]; omega) / T) := by
  refine ⟨?_, ?_, ?_, ?_⟩
  · rw [List.pairwise_map]
    exact (h.mono hfl h0 hl).imp fun {a b} hab => hfl.mono (by gcongr)
  · rw [h0, zero_div, hfl.fix hfl.zero]
  · rw [← hT, div_self hTpos.ne', hfl.fix hfl.one]
  · intro k hk hz
    rw [h.step k hk, hz, add_zero, h.fixed hfl h0]

/-! ### The chosen bin -/

/-- `_data_to_cumulative` and the choice of a bin. -/
lemma pickBinFl_of (hfl : Rounds F fl) {srt : List ℝ → List ℕ} (hs : ∀ l, IsArgsort (srt l) l)
    {mass : List ℝ} (hm : ∀ x ∈ mass, 0 ≤ x) (hkeep : ∀ x ∈ mass, 0 < x → ∀ a, 0 ≤ a → 0 < fl (a + x)) (hpos : ∃ x ∈ mass, 0 < x) {u : ℝ} (h0 : 0 ≤ u) (h1 : u < 1) :
    ∃ idx csum, dataToCumulativeFl fl srt mass = .ok (idx, csum) ∧
      ∃ k, pickBin idx csum u = .ok k ∧ k < mass.length ∧ 0 < mass.getD k 0 := by
  set idx := srt mass with hidx
  set l := idx.map fun i => mass.getD i 0 with hl
  have hperm : l.Perm mass := (hs mass).perm
  have hlen : idx.length = mass.length := by simpa using (hs mass).1.length_eq
  have hll : l.length = idx.length := by simp [hl]
  have hl0 : ∀ x ∈ l, 0 ≤ x := fun x hx => hm x (hperm.mem_iff.mp hx)
  have hlpos : ∃ x ∈ l, 0 < x := by
    obtain ⟨x, hx, hx0⟩ := hpos
    exact ⟨x, hperm.mem_iff.mpr hx, hx0⟩
  have hlne : 0 < l.length := by
    obtain ⟨x, hx, -⟩ := hlpos
    exact List.length_pos_of_mem hx
  have hst := steps_cumsum (fl := fl) 0 l
  have hA0 : ((0 : ℝ) :: cumsumFrom fl 0 l)[0]'(by simp) = 0 := rfl
  set A := (0 : ℝ) :: cumsumFrom fl 0 l with hA
  have hlast : (cumsumFrom fl 0 l).getLast? = some (A[l.length]'(by rw [hst.len]; omega)) := by
    rw [List.getLast?_eq_getElem?, cumsumFrom_length, List.getElem?_eq_getElem (by rw [cumsumFrom_length]; omega)]
    congr 1
    obtain ⟨n, hn⟩ := Nat.exists_eq_succ_of_ne_zero hlne.ne'
    simp only [hA, hn, Nat.succ_eq_add_one, Nat.add_sub_cancel, List.getElem_cons_succ]
  set T := A[l.length]'(by rw [hst.len]; omega) with hT
  have hTpos : 0 < T := hst.last_pos hfl hA0 hl0 (fun x hx => hkeep x (hperm.mem_iff.mp hx)) hlpos
  obtain ⟨hmono, hq0, hq1, hqz⟩ := hst.normed hfl hA0 hl0 hTpos hT
  have hcs : (0 : ℝ) :: (cumsumFrom fl 0 l).map (fun x => fl (x / T)) = A.map fun x => fl (x / T) := by
    rw [hA, List.map_cons, zero_div, hfl.fix hfl.zero]
  refine ⟨idx, A.map fun x => fl (x / T), ?_, ?_⟩
  · simp only [dataToCumulativeFl, ← hidx, ← hl, hlast]
    rw [if_neg hTpos.ne', hcs]
  · have hqlen : (A.map fun x => fl (x / T)).length = l.length + 1 := by rw [List.length_map, hst.len]
    obtain ⟨s1, s2⟩ := searchLeft_spec hmono u
    set s := searchLeft (A.map fun x => fl (x / T)) u with hsdef
    have hsle : s ≤ l.length := by
      by_contra hc
      have := s1 l.length (by rw [hqlen]; omega) (by omega)
      rw [List.getElem_map, hq1] at this
      linarith
    rcases Nat.eq_zero_or_pos s with hs0 | hspos
    · -- the random number 0: the last index, with the largest mass
      have hlt : idx.length - 1 < idx.length := by omega
      refine ⟨idx[idx.length - 1], ?_, ?_, ?_⟩
      · rw [pickBin, ← hsdef, hs0, pyIndex]
        have e1 : ¬ (0 : ℤ) ≤ ((0 : ℕ) : ℤ) - 1 := by norm_num
        have e2 : (0 : ℤ) ≤ (idx.length : ℤ) + (((0 : ℕ) : ℤ) - 1) := by push_cast; omega
        have e3 : ((idx.length : ℤ) + (((0 : ℕ) : ℤ) - 1)).toNat = idx.length - 1 := by push_cast; omega
        rw [if_neg e1, if_pos e2, e3, List.getElem?_eq_getElem hlt]
      · have := (hs mass).1.mem_iff.mp (List.getElem_mem hlt)
        simpa using this
      · obtain ⟨x, hx, hx0⟩ := hlpos
        obtain ⟨j, hj, rfl⟩ := List.getElem_of_mem hx
        have hsort := (hs mass).2
        have := pairwise_get (A := l) hsort (i := j) (j := idx.length - 1) (by omega) (by omega)
        have e : l[idx.length - 1]'(by omega) = mass.getD (idx[idx.length - 1]) 0 := by
          simp only [hl, List.getElem_map]
        rw [← e]
        linarith
    · have hlt : s - 1 < idx.length := by omega
      refine ⟨idx[s - 1], ?_, ?_, ?_⟩
      · rw [pickBin, ← hsdef]
        have e1 : (s : ℤ) - 1 = ((s - 1 : ℕ) : ℤ) := by omega
        rw [e1, pyIndex_nat _ _ hlt]
      · have := (hs mass).1.mem_iff.mp (List.getElem_mem hlt)
        simpa using this
      · have hk : s - 1 < l.length := by omega
        have e : l[s - 1] = mass.getD (idx[s - 1]) 0 := by
          simp only [hl, List.getElem_map]
        rw [← e]
        refine lt_of_le_of_ne (hl0 _ (List.getElem_mem hk)) fun hz => ?_
        have h3 := s1 (s - 1) (by rw [hqlen]; omega) (by omega)
        have h4 := s2 s (by rw [hqlen]; omega) le_rfl
        have h5 := hqz (s - 1) hk hz.symm
        rw [List.getElem_map] at h3 h4
        have e6 : A[s - 1 + 1]'(by rw [hst.len]; omega) = A[s]'(by rw [hst.len]; omega) := by
          congr 1; omega
        rw [e6] at h5
        rw [h5] at h4
        linarith

lemma pickBinFl_ok (hp : 1 ≤ p) (hfl : Nearest p fl) {srt : List ℝ → List ℕ} (hs : ∀ l, IsArgsort (srt l) l)
    {mass : List ℝ} (hm : ∀ x ∈ mass, 0 ≤ x) (hpos : ∃ x ∈ mass, 0 < x) {u : ℝ} (h0 : 0 ≤ u) (h1 : u < 1) :
    ∃ idx csum, dataToCumulativeFl fl srt mass = .ok (idx, csum) ∧
      ∃ k, pickBin idx csum u = .ok k ∧ k < mass.length ∧ 0 < mass.getD k 0 :=
  pickBinFl_of hfl.rounds hs hm (fun _ _ hx _ ha => (hfl.accurate hp).pos
    (pow_lt_one₀ (by norm_num) (by norm_num) (by omega)) (by linarith)) hpos h0 h1

/-- Uniform positions stay in the bin, although the width is rounded. -/
lemma place_mem (hp : 1 ≤ p) (hfl : Nearest p fl) {a b loc : ℝ} (ha : IsFloat p a) (hb : IsFloat p b) (hab : a ≤ b)
    (h0 : 0 ≤ loc) (h1 : loc ≤ 1 - (1 / 2) ^ p) :
    a ≤ fl (a + fl (fl (b - a) * loc)) ∧ fl (a + fl (fl (b - a) * loc)) ≤ b := by
  have hu := hfl.accurate hp
  have hupos : (0 : ℝ) < (1 / 2) ^ p := by positivity
  have hu1 : ((1 : ℝ) / 2) ^ p ≤ 1 := pow_le_one₀ (by norm_num) (by norm_num)
  set w := fl (b - a) with hw
  have hw0 : 0 ≤ w := hu.nonneg hu1 (by linarith)
  have hq0 : 0 ≤ fl (w * loc) := hu.nonneg hu1 (mul_nonneg hw0 h0)
  constructor
  · calc a = fl a := (hfl.fix ha).symm
      _ ≤ _ := hfl.mono (by linarith)
  · have key : fl (w * loc) ≤ b - a := by
      by_contra hc
      push Not at hc
      have hqw : fl (w * loc) ≤ w := by
        calc fl (w * loc) ≤ fl w := hfl.mono (by nlinarith)
          _ = w := hfl.idem _
      have h2 := hfl.near (b - a) (fl (w * loc)) (hfl.float _)
      rw [← hw, abs_of_nonneg (by linarith), abs_of_nonneg (by linarith)] at h2
      have heq : fl (w * loc) = w := by linarith
      have h3 := hu (w * loc)
      rw [heq, abs_of_nonneg (by nlinarith), abs_of_nonneg (mul_nonneg hw0 h0)] at h3
      have hwpos : 0 < w := by linarith
      have h4 : 0 < ((1 : ℝ) / 2) ^ p * w := mul_pos hupos hwpos
      nlinarith
    calc fl (a + fl (w * loc)) ≤ fl b := hfl.mono (by linarith)
      _ = b := hfl.fix hb

/-- Plain grid samples, for roundings that keep uniform positions in their bins. -/
lemma samplesFl_of {d : ℕ} (hfl : Rounds F fl) {srt : List ℝ → List ℕ}
    (hs : ∀ l, IsArgsort (srt l) l) {edges : List (List ℝ)} {mass : NDArr d ℝ}
    (hshape : edges.length = d ∧ ∀ i : Fin d, (edges.getD i []).length = mass.shape i + 1)
    (hedges : ∀ e ∈ edges, e.Pairwise (· ≤ ·) ∧ ∀ x ∈ e, F x)
    (hm : ∀ b, ValidIdx mass.shape b → 0 ≤ mass.get b) (hpos : ∃ b, ValidIdx mass.shape b ∧ 0 < mass.get b)
    (hkeep : ∀ x ∈ mass.flat, 0 < x → ∀ a, 0 ≤ a → 0 < fl (a + x))
    {u : ℝ} (h0 : 0 ≤ u) (h1 : u < 1) (loc : Fin d → ℝ)
    (hplace : ∀ i a b, F a → F b → a ≤ b → a ≤ fl (a + fl (fl (b - a) * loc i)) ∧ fl (a + fl (fl (b - a) * loc i)) ≤ b) :
    ∃ x, sampleUniformFl fl srt edges mass u loc = .ok x ∧
      ∃ b, ValidIdx mass.shape b ∧ 0 < mass.get b ∧ Spec.InBin edges b x := by
  have hpos' : ∃ x ∈ mass.flat, 0 < x := by
    obtain ⟨b, hb, hb0⟩ := hpos
    have hk := ravelIdx_lt hb
    refine ⟨mass.flat[ravelIdx mass.shape b]'(by rw [NDArr.flat_length]; exact hk), List.getElem_mem _, ?_⟩
    rw [NDArr.flat_getElem, unravel_ravelIdx hb]
    exact hb0
  obtain ⟨idx, csum, hc, k, hk, hlt, hk0⟩ := pickBinFl_of hfl hs (flat_nonneg hm) hkeep hpos' h0 h1
  have hlt' : k < ∏ i, mass.shape i := by rwa [NDArr.flat_length] at hlt
  have hvalid := unravelIdx_valid hlt'
  have hout : sampleUniformFl fl srt edges mass u loc = .ok fun i =>
      fl (edgeAt edges i (unravelIdx mass.shape k i) + fl (fl (edgeAt edges i (unravelIdx mass.shape k i + 1)
        - edgeAt edges i (unravelIdx mass.shape k i)) * loc i)) := by
    simp only [sampleUniformFl, hc, hk]
  refine ⟨_, hout, unravelIdx mass.shape k, hvalid, ?_, ?_⟩
  · rw [← flat_getD mass hlt]; exact hk0
  · intro i
    have hi : (i : ℕ) < edges.length := by rw [hshape.1]; exact i.2
    have hmem : edges.getD i [] ∈ edges := by rw [List.getD_eq_getElem _ _ hi]; exact List.getElem_mem hi
    obtain ⟨hsort, hfloat⟩ := hedges _ hmem
    have hb1 : unravelIdx mass.shape k i + 1 < (edges.getD i []).length := by
      rw [hshape.2]; have := hvalid i; omega
    have ea : edgeAt edges i (unravelIdx mass.shape k i) = (edges.getD i [])[unravelIdx mass.shape k i]'(by omega) := by
      rw [edgeAt, List.getD_eq_getElem _ _ (by omega)]
    have eb : edgeAt edges i (unravelIdx mass.shape k i + 1) = (edges.getD i [])[unravelIdx mass.shape k i + 1] := by
      rw [edgeAt, List.getD_eq_getElem _ _ hb1]
    have := hplace i (edgeAt edges i (unravelIdx mass.shape k i))
      (edgeAt edges i (unravelIdx mass.shape k i + 1))
      (by rw [ea]; exact hfloat _ (List.getElem_mem _)) (by rw [eb]; exact hfloat _ (List.getElem_mem _))
      (by rw [ea, eb]; exact pairwise_get hsort hb1 (by omega))
    exact this

/-- **C136 (grid).** In floating point arithmetic, sampling a grid without interpolation succeeds for all random
numbers, and every sample lies in a bin of positive mass: no rounding error carries it across an edge. -/
theorem C136_samples_in_grid {d : ℕ} (hp : 1 ≤ p) (hfl : Nearest p fl) {srt : List ℝ → List ℕ}
    (hs : ∀ l, IsArgsort (srt l) l) {edges : List (List ℝ)} {mass : NDArr d ℝ}
    (hshape : edges.length = d ∧ ∀ i : Fin d, (edges.getD i []).length = mass.shape i + 1)
    (hedges : ∀ e ∈ edges, e.Pairwise (· ≤ ·) ∧ ∀ x ∈ e, IsFloat p x)
    (hm : ∀ b, ValidIdx mass.shape b → 0 ≤ mass.get b) (hpos : ∃ b, ValidIdx mass.shape b ∧ 0 < mass.get b)
    {u : ℝ} (h0 : 0 ≤ u) (h1 : u < 1) (loc : Fin d → ℝ) (hloc : ∀ i, 0 ≤ loc i ∧ loc i ≤ 1 - (1 / 2) ^ p) :
    ∃ x, sampleUniformFl fl srt edges mass u loc = .ok x ∧
      ∃ b, ValidIdx mass.shape b ∧ 0 < mass.get b ∧ Spec.InBin edges b x := by
  exact samplesFl_of hfl.rounds hs hshape hedges hm hpos (fun _ _ hx _ ha => (hfl.accurate hp).pos
    (pow_lt_one₀ (by norm_num) (by norm_num) (by omega)) (by linarith)) h0 h1 loc
    fun i _ _ ha hb hab => place_mem hp hfl ha hb hab (hloc i).1 (hloc i).2

/-- The choice of a data point, for weights that do not all vanish when they are divided by their sum. -/
lemma choiceFl_of (hfl : Rounds F fl) {w : List ℝ} (hw : ∀ x ∈ w, 0 ≤ x)
    {total : ℝ} (ht : 0 < total) (hpos : ∃ x ∈ w, 0 < fl (x / total)) {u : ℝ} (h0 : 0 ≤ u) (h1 : u < 1) :
    choiceIndexFl fl total w u < w.length ∧ 0 < w.getD (choiceIndexFl fl total w u) 0 := by
  have hz0 : fl 0 = 0 := hfl.fix hfl.zero
  set l := w.map fun x => fl (x / total) with hl
  have hll : l.length = w.length := by simp [hl]
  have hl0 : ∀ x ∈ l, 0 ≤ x := by
    intro x hx
    obtain ⟨y, hy, rfl⟩ := List.mem_map.mp hx
    rw [← hz0]
    exact hfl.mono (div_nonneg (hw y hy) ht.le)
  have hlpos : ∃ x ∈ l, 0 < x := by
    obtain ⟨y, hy, hy0⟩ := hpos
    exact ⟨fl (y / total), List.mem_map.mpr ⟨y, hy, rfl⟩, hy0⟩
  have hlne : 0 < l.length := by
    obtain ⟨x, hx, -⟩ := hlpos
    exact List.length_pos_of_mem hx
  have hst := steps_cumsum (fl := fl) 0 l
  have hA0 : ((0 : ℝ) :: cumsumFrom fl 0 l)[0]'(by simp) = 0 := rfl
  have hClen : (cumsumFrom fl 0 l).length = l.length := cumsumFrom_length 0 l
  have hlast : (cumsumFrom fl 0 l).getD ((cumsumFrom fl 0 l).length - 1) 0
      = ((0 : ℝ) :: cumsumFrom fl 0 l)[l.length]'(by rw [hst.len]; omega) := by
    rw [List.getD_eq_getElem _ _ (by omega)]
    obtain ⟨n, hn⟩ := Nat.exists_eq_succ_of_ne_zero hlne.ne'
    simp only [hClen, hn, Nat.succ_eq_add_one, Nat.add_sub_cancel, List.getElem_cons_succ]
  have hlF : ∀ x ∈ l, 0 < x → ∀ a, 0 ≤ a → 0 < fl (a + x) := by
    intro x hx hx0 a ha
    obtain ⟨y, hy, rfl⟩ := List.mem_map.mp hx
    calc 0 < fl (y / total) := hx0
      _ = fl (fl (y / total)) := (hfl.fix (hfl.float _)).symm
      _ ≤ fl (a + fl (y / total)) := hfl.mono (by linarith)
  obtain ⟨hmono, hq0, hq1, hqz⟩ := hst.normed hfl hA0 hl0 (by rw [hlast]; exact hst.last_pos hfl hA0 hl0 hlF hlpos) hlast
  have hch : choiceIndexFl fl total w u = searchRight ((cumsumFrom fl 0 l).map fun x =>
      fl (x / (cumsumFrom fl 0 l).getD ((cumsumFrom fl 0 l).length - 1) 0)) u := rfl
  rw [hch]
  set C := cumsumFrom fl 0 l with hC
  set T := C.getD (C.length - 1) 0 with hT
  rw [List.map_cons] at hmono
  have hmono' := (List.pairwise_cons.mp hmono).2
  obtain ⟨s1, s2⟩ := searchRight_spec hmono' u
  set s := searchRight (C.map fun x => fl (x / T)) u with hs
  have hqlen : (C.map fun x => fl (x / T)).length = l.length := by rw [List.length_map, hClen]
  have hslt : s < l.length := by
    by_contra hc
    have h3 := s1 (l.length - 1) (by omega) (by omega)
    rw [List.getElem_map] at h3
    obtain ⟨n, hn⟩ := Nat.exists_eq_succ_of_ne_zero hlne.ne'
    have e : C[l.length - 1]'(by omega) = ((0 : ℝ) :: C)[l.length]'(by rw [hst.len]; omega) := by
      simp only [hn, Nat.succ_eq_add_one, Nat.add_sub_cancel, List.getElem_cons_succ]
    rw [e, hq1] at h3
    linarith
  refine ⟨by omega, ?_⟩
  have hsw : s < w.length := by omega
  rw [List.getD_eq_getElem _ _ hsw]
  refine lt_of_le_of_ne (hw _ (List.getElem_mem hsw)) fun hz => ?_
  have hlz : l[s] = 0 := by
    simp only [hl, List.getElem_map, ← hz, zero_div, hz0]
  have h5 := hqz s hslt hlz
  have h4 := s2 s (by omega) le_rfl
  rw [List.getElem_map] at h4
  rw [List.getElem_cons_succ] at h5
  rw [h5] at h4
  rcases Nat.eq_zero_or_pos s with hs0 | hspos
  · have : ((0 : ℝ) :: C)[s]'(by rw [hst.len]; omega) = 0 := by
      simp only [hs0, List.getElem_cons_zero]
    rw [this, zero_div, hz0] at h4
    linarith
  · have h3 := s1 (s - 1) (by omega) (by omega)
    rw [List.getElem_map] at h3
    obtain ⟨n, hn⟩ := Nat.exists_eq_succ_of_ne_zero hspos.ne'
    have : ((0 : ℝ) :: C)[s]'(by rw [hst.len]; omega) = C[s - 1]'(by omega) := by
      simp only [hn, Nat.succ_eq_add_one, Nat.add_sub_cancel, List.getElem_cons_succ]
    rw [this] at h4
    linarith

/-- **C136 (choice).** In floating point arithmetic, the data point chosen for a new sample exists and has a positive
weight, for all random numbers and all nonnegative weights that are not all zero. -/
theorem C136_choice (hp : 1 ≤ p) (hfl : Nearest p fl) {w : List ℝ} (hw : ∀ x ∈ w, 0 ≤ x) (hpos : ∃ x ∈ w, 0 < x)
    {total : ℝ} (ht : 0 < total) {u : ℝ} (h0 : 0 ≤ u) (h1 : u < 1) :
    choiceIndexFl fl total w u < w.length ∧ 0 < w.getD (choiceIndexFl fl total w u) 0 := by
  obtain ⟨x, hx, hx0⟩ := hpos
  exact choiceFl_of hfl.rounds hw ht ⟨x, hx, (hfl.accurate hp).pos
    (pow_lt_one₀ (by norm_num) (by norm_num) (by omega)) (div_pos hx0 ht)⟩ h0 h1

/-! ### Examples -/

/-- Two data points of positive weight and one of weight zero, in double precision. -/
example : ∃ fl, Nearest 53 fl ∧ ∀ u, 0 ≤ u → u < 1 →
    choiceIndexFl fl 3 [1, 0, 2] u < 3 ∧ choiceIndexFl fl 3 [1, 0, 2] u ≠ 1 := by
  obtain ⟨fl, h⟩ := exists_nearest (p := 53) (by norm_num)
  refine ⟨fl, h, fun u h0 h1 => ?_⟩
  obtain ⟨a, b⟩ := C136_choice (w := [1, 0, 2]) (by norm_num) h (by simp) ⟨1, by simp, by norm_num⟩
    (total := 3) (by norm_num) h0 h1
  refine ⟨a, fun hc => ?_⟩
  rw [hc] at b
  simp at b

/-! ## C137 -/

/-- **C137, full claim.** In double precision, `Sample_Grid([edges], dens).sample(1)` returns a point of the grid. -/
def C137_Claim : Prop :=
  ∀ (fl : ℝ → ℝ), Nearest 53 fl → ∀ (srt : List ℝ → List ℕ), (∀ l, IsArgsort (srt l) l) →
    ∀ (edges dens : List ℝ), edges.Pairwise (· < ·) → (∀ x ∈ edges, IsFloat 53 x) →
      dens.length = edges.length → 2 ≤ dens.length → (∀ x ∈ dens, 0 < x ∧ IsFloat 53 x) →
      ∀ (u loc : ℝ), 0 ≤ u → u < 1 → 0 ≤ loc → loc ≤ 1 - (1 / 2) ^ 53 → IsFloat 53 loc →
        ∀ x, sampleInterpFl fl srt edges dens u loc = .ok x → edges.getD 0 0 ≤ x ∧ x ≤ edges.getD (edges.length - 1) 0

/-- The relative position in the bin, for a gradient of `-11/2^56` (about `-1.5e-16`). -/
lemma intrabin_out (h : Nearest 53 fl) : 5 / 4 ≤ intrabinFl fl (31 / 32) (-11 / 2 ^ 56) := by
  have hg : (1 : ℝ) / 10 ^ 16 < |(-11 / 2 ^ 56 : ℝ)| := by
    rw [abs_of_neg (by norm_num)]; norm_num
  have e1 : fl ((-11 / 2 ^ 56 : ℝ) / 2) = -11 / 2 ^ 57 := by
    rw [show (-11 / 2 ^ 56 : ℝ) / 2 = -11 / 2 ^ 57 by norm_num]
    exact h.fix ⟨-11, -57, by norm_num, by norm_num⟩
  have e2 : fl (1 - -11 / 2 ^ 57 : ℝ) = 1 := by
    rw [h.down (n := 2 ^ 52) (e := -52) (by norm_num) (by norm_num) (by norm_num) (by norm_num)]
    norm_num
  have e3 : fl (2 * (31 / 32) : ℝ) = 31 / 16 := by
    rw [show (2 * (31 / 32) : ℝ) = 31 / 16 by norm_num]
    exact h.fix ⟨31, -4, by norm_num, by norm_num⟩
  have e4 : fl (31 / 16 * (-11 / 2 ^ 56) : ℝ) = -341 / 2 ^ 60 := by
    rw [show (31 / 16 * (-11 / 2 ^ 56) : ℝ) = -341 / 2 ^ 60 by norm_num]
    exact h.fix ⟨-341, -60, by norm_num, by norm_num⟩
  have e5 : fl (-341 / 2 ^ 60 + 1 : ℝ) = 1 - 3 / 2 ^ 53 := by
    rw [h.down (n := 2 ^ 53 - 3) (e := -53) (by norm_num) (by norm_num) (by norm_num) (by norm_num)]
    norm_num
  have e6 : fl (Real.sqrt (1 - 3 / 2 ^ 53)) = 1 - 2 / 2 ^ 53 := by
    rw [h.down (n := 2 ^ 53 - 2) (e := -53) (by norm_num) (by norm_num)]
    · norm_num
    · apply Real.le_sqrt_of_sq_le; norm_num
    · rw [Real.sqrt_lt' (by norm_num)]; norm_num
  have e7 : fl (1 - 2 / 2 ^ 53 - 1 : ℝ) = -1 / 2 ^ 52 := by
    rw [show (1 - 2 / 2 ^ 53 - 1 : ℝ) = -1 / 2 ^ 52 by norm_num]
    exact h.fix ⟨-1, -52, by norm_num, by norm_num⟩
  have e8 : (-1 / 2 ^ 52 : ℝ) / (-11 / 2 ^ 56) = 16 / 11 := by norm_num
  rw [intrabinFl, if_pos hg]
  simp only [e1, e2, e3, e4, mul_one, h.one, e5, e6, e7, e8]
  calc (5 / 4 : ℝ) = fl (5 / 4) := (h.fix ⟨5, -2, by norm_num, by norm_num⟩).symm
    _ ≤ fl (16 / 11) := h.mono (by norm_num)

/-- **C137 is violated.** For the density 2.75, 0.125, `0.125 - 11/2^56` on the grid 0, 1, 2 there are random numbers for
which the sample is larger than 2.25. -/
theorem C137_refuted : ¬ C137_Claim := by
  intro hclaim
  obtain ⟨fl, h⟩ := exists_nearest (p := 53) (by norm_num)
  obtain ⟨srt, hs⟩ := exists_argsort
  have f1 : IsFloat 53 (1 / 8 - 11 / 2 ^ 56 : ℝ) := ⟨2 ^ 53 - 11, -56, by norm_num, by norm_num⟩
  have h2 : fl 2 = 2 := h.fix ⟨2, 0, by norm_num, by norm_num⟩
  have h11 : fl (11 / 4) = 11 / 4 := h.fix ⟨11, -2, by norm_num, by norm_num⟩
  have h8 : fl (1 / 8) = 1 / 8 := h.fix ⟨1, -3, by norm_num, by norm_num⟩
  have h23 : fl (23 / 8) = 23 / 8 := h.fix ⟨23, -3, by norm_num, by norm_num⟩
  have hm1 : fl (23 / 16) = 23 / 16 := h.fix ⟨23, -4, by norm_num, by norm_num⟩
  have h3 : fl (23 / 8 + (1 / 8 - 11 / 2 ^ 56)) = 3 := by
    rw [h.up (n := 3 * 2 ^ 51 - 1) (e := -51) (by norm_num) (by norm_num) (by norm_num) (by norm_num)]
    norm_num
  have hgr : fl (1 / 8 - 11 / 2 ^ 56 - 1 / 8) = -11 / 2 ^ 56 := by
    rw [show (1 / 8 - 11 / 2 ^ 56 - 1 / 8 : ℝ) = -11 / 2 ^ 56 by norm_num]
    exact h.fix ⟨-11, -56, by norm_num, by norm_num⟩
  set m2 := fl (fl (1 / 8 + (1 / 8 - 11 / 2 ^ 56)) / 2) with hm2
  have b1 : 1 / 8 ≤ fl (1 / 8 + (1 / 8 - 11 / 2 ^ 56)) := by
    rw [← h8]; exact h.mono (by rw [h8]; norm_num)
  have b2 : fl (1 / 8 + (1 / 8 - 11 / 2 ^ 56)) ≤ 1 / 4 := by
    rw [← h.fix (x := 1 / 4) ⟨1, -2, by norm_num, by norm_num⟩]; exact h.mono (by norm_num)
  have b3 : 1 / 16 ≤ m2 := by
    rw [← h.fix (x := 1 / 16) ⟨1, -4, by norm_num, by norm_num⟩]; exact h.mono (by linarith)
  have b4 : m2 ≤ 1 / 8 := by
    rw [← h8]; exact h.mono (by linarith)
  have hmass : mass1dFl fl [0, 1, 2] [11 / 4, 1 / 8, 1 / 8 - 11 / 2 ^ 56] = [23 / 16, m2] := by
    have e : List.range (([11 / 4, 1 / 8, 1 / 8 - 11 / 2 ^ 56] : List ℝ).length - 1) = [0, 1] := rfl
    simp only [mass1dFl, e, List.map_cons, List.map_nil, List.getD_cons_zero, List.getD_cons_succ, zero_add]
    rw [show (1 : ℝ) - 0 = 1 by norm_num, show (2 : ℝ) - 1 = 1 by norm_num, h.one]
    simp only [mul_one, h11, h8, h.fix f1]
    rw [show (11 / 4 + 1 / 8 : ℝ) = 23 / 8 by norm_num, h23, show (23 / 8 / 2 : ℝ) = 23 / 16 by norm_num, hm1]
  have hsrt : srt [23 / 16, m2] = [1, 0] := by
    obtain ⟨hp, hsort⟩ := hs [23 / 16, m2]
    have hp' : (srt [23 / 16, m2]).Perm [0, 1] := hp
    have hmem : srt [23 / 16, m2] ∈ [[0, 1], [1, 0]] := by
      have := List.mem_permutations.mpr hp'
      simpa [List.permutations, List.permutationsAux, List.permutationsAux.rec, List.permutationsAux2] using this
    simp only [List.mem_cons, List.not_mem_nil, or_false] at hmem
    rcases hmem with h' | h'
    · rw [h'] at hsort
      simp only [List.map_cons, List.map_nil, List.getD_cons_zero, List.getD_cons_succ, List.pairwise_cons,
        List.mem_cons, List.not_mem_nil, or_false, forall_eq] at hsort
      linarith [hsort.1]
    · exact h'
  set A := fl (m2 + 23 / 16) with hA
  have a1 : 23 / 16 ≤ A := by rw [← hm1]; exact h.mono (by linarith)
  have a2 : A ≤ 2 := by rw [← h2]; exact h.mono (by linarith)
  have hcum : dataToCumulativeFl fl srt [23 / 16, m2] = .ok ([1, 0], [0, fl (m2 / A), 1]) := by
    have hi : fl (0 + m2) = m2 := by rw [zero_add, hm2, h.idem]
    simp only [dataToCumulativeFl, hsrt, List.map_cons, List.map_nil, List.getD_cons_zero, List.getD_cons_succ,
      cumsumFrom, hi, ← hA, List.getLast?_cons_cons, List.getLast?_singleton]
    rw [if_neg (by linarith), div_self (by linarith), h.one]
  have hq : 1 / 32 ≤ fl (m2 / A) := by
    rw [← h.fix (x := 1 / 32) ⟨1, -5, by norm_num, by norm_num⟩]
    refine h.mono ?_
    rw [le_div_iff₀ (by linarith)]
    linarith
  have hpick : pickBin [1, 0] [0, fl (m2 / A), 1] (1 / 32) = .ok 1 := by
    have : searchLeft [0, fl (m2 / A), 1] (1 / 32 : ℝ) = 1 := by
      rw [searchLeft, List.countP_cons_of_pos (by norm_num), List.countP_cons_of_neg (by simpa using hq),
        List.countP_cons_of_neg (by norm_num)]
      rfl
    rw [pickBin, this]; rfl
  have hdn : normDensFl fl [11 / 4, 1 / 8, 1 / 8 - 11 / 2 ^ 56] = [11 / 4, 1 / 8, 1 / 8 - 11 / 2 ^ 56] := by
    have e : (cumsumFrom fl 0 [11 / 4, 1 / 8, 1 / 8 - 11 / 2 ^ 56]).getLastD 0 = 3 := by
      simp only [cumsumFrom, zero_add, h11]
      rw [show (11 / 4 + 1 / 8 : ℝ) = 23 / 8 by norm_num, h23, h3]
      rfl
    simp only [normDensFl, e, List.length_cons, List.length_nil, List.map_cons, List.map_nil]
    rw [show ((3 : ℝ) / ((0 + 1 + 1 + 1 : ℕ) : ℝ)) = 1 by norm_num, h.one]
    simp only [div_one, h11, h8, h.fix f1]
  have hrun : sampleInterpFl fl srt [0, 1, 2] [11 / 4, 1 / 8, 1 / 8 - 11 / 2 ^ 56] (1 / 32) (31 / 32)
      = .ok (fl (1 + fl (1 * intrabinFl fl (31 / 32) (-11 / 2 ^ 56)))) := by
    simp only [sampleInterpFl, hmass, hcum, hpick, hdn, List.getD_cons_zero, List.getD_cons_succ, hgr]
    rw [show (2 : ℝ) - 1 = 1 by norm_num, h.one]
  have hout := intrabin_out h
  have hx : 9 / 4 ≤ fl (1 + fl (1 * intrabinFl fl (31 / 32) (-11 / 2 ^ 56))) := by
    have c1 : 5 / 4 ≤ fl (1 * intrabinFl fl (31 / 32) (-11 / 2 ^ 56)) := by
      rw [← h.fix (x := 5 / 4) ⟨5, -2, by norm_num, by norm_num⟩]; exact h.mono (by linarith)
    rw [← h.fix (x := 9 / 4) ⟨9, -2, by norm_num, by norm_num⟩]
    exact h.mono (by linarith)
  have := (hclaim fl h srt hs [0, 1, 2] [11 / 4, 1 / 8, 1 / 8 - 11 / 2 ^ 56] (by norm_num)
    (by
      simp only [List.mem_cons, List.not_mem_nil, or_false, forall_eq_or_imp, forall_eq]
      exact ⟨isFloat_zero, isFloat_one, 2, 0, by norm_num, by norm_num⟩)
    rfl (by norm_num)
    (by
      simp only [List.mem_cons, List.not_mem_nil, or_false, forall_eq_or_imp, forall_eq]
      exact ⟨⟨by norm_num, 11, -2, by norm_num, by norm_num⟩, ⟨by norm_num, 1, -3, by norm_num, by norm_num⟩,
        by norm_num, f1⟩)
    (1 / 32) (31 / 32) (by norm_num) (by norm_num) (by norm_num) (by norm_num) ⟨31, -5, by norm_num, by norm_num⟩ _ hrun).2
  have e : ([0, 1, 2] : List ℝ).getD (([0, 1, 2] : List ℝ).length - 1) 0 = 2 := rfl
  rw [e] at this
  linarith

/-! ### What holds: the error of the position is at most a multiple of `u` over the gradient -/

lemma round_close {u a b E B : ℝ} (hu : Accurate u fl) (hu0 : 0 ≤ u) (h : |a - b| ≤ E) (hb : |b| ≤ B) :
    |fl a - b| ≤ E + u * (B + E) := by
  have h1 := hu a
  have h2 := abs_sub_le (fl a) a b
  have h3 : |a| ≤ B + E := by
    have := abs_sub_abs_le_abs_sub a b
    linarith
  have h4 := mul_le_mul_of_nonneg_left h3 hu0
  linarith

lemma sqrt_close {v V : ℝ} (hV : 1 / 4 ≤ V) : |Real.sqrt v - Real.sqrt V| ≤ 2 * |v - V| := by
  have hsV : 1 / 2 ≤ Real.sqrt V := Real.le_sqrt_of_sq_le (by linarith)
  have hsq : Real.sqrt V * Real.sqrt V = V := Real.mul_self_sqrt (by linarith)
  have hsv := Real.sqrt_nonneg v
  rcases le_or_gt 0 v with hv0 | hv0
  · have hsv2 : Real.sqrt v * Real.sqrt v = v := Real.mul_self_sqrt hv0
    have e : v - V = (Real.sqrt v - Real.sqrt V) * (Real.sqrt v + Real.sqrt V) := by
      rw [sub_mul, mul_add, mul_add, hsv2, hsq]; ring
    rw [e, abs_mul, abs_of_nonneg (by linarith : 0 ≤ Real.sqrt v + Real.sqrt V)]
    have := mul_le_mul_of_nonneg_left (by linarith : 1 / 2 ≤ Real.sqrt v + Real.sqrt V) (abs_nonneg (Real.sqrt v - Real.sqrt V))
    linarith
  · rw [Real.sqrt_eq_zero_of_nonpos hv0.le, zero_sub, abs_neg, abs_of_nonneg (by linarith), abs_of_neg (by linarith)]
    nlinarith

lemma mean_square_bounds {loc g : ℝ} (h0 : 0 ≤ loc) (h1 : loc ≤ 1) (hg1 : -1 ≤ g) (hg2 : g ≤ 1) :
    1 / 4 ≤ 2 * loc * g + (1 - g / 2) ^ 2 ∧ 2 * loc * g + (1 - g / 2) ^ 2 ≤ 9 / 4 := by
  have e : 2 * loc * g + (1 - g / 2) ^ 2 = (1 - loc) * (1 - g / 2) ^ 2 + loc * (1 + g / 2) ^ 2 := by ring
  have q1 : 1 / 4 ≤ (1 - g / 2) ^ 2 ∧ (1 - g / 2) ^ 2 ≤ 9 / 4 := ⟨by nlinarith, by nlinarith⟩
  have q2 : 1 / 4 ≤ (1 + g / 2) ^ 2 ∧ (1 + g / 2) ^ 2 ≤ 9 / 4 := ⟨by nlinarith, by nlinarith⟩
  rw [e]
  constructor <;> nlinarith

/-- Error of the relative position in the bin. -/
lemma intrabinFl_error {u : ℝ} (hu : Accurate u fl) (hu0 : 0 ≤ u) (hu1 : u ≤ 1 / 100) {loc g : ℝ} (h0 : 0 ≤ loc)
    (h1 : loc ≤ 1) (hg : |g| ≤ 1) (hg' : 1 / 10 ^ 16 < |g|) :
    |intrabinFl fl loc g - intrabin loc g| ≤ 120 * u / |g| := by
  have hgpos : 0 < |g| := lt_trans (by norm_num) hg'
  have hgne : g ≠ 0 := abs_pos.mp hgpos
  obtain ⟨hg1, hg2⟩ := abs_le.mp hg
  have hb : 1 ≤ 1 + u := by linarith
  rw [intrabinFl, intrabin, if_pos hg', if_pos hg']
  simp only []
  set y := fl (1 - fl (g / 2)) with hy
  set Y := 1 - g / 2 with hY
  have ay : Approx ((1 + u) ^ 2) (3 / 2) y Y := by
    have a := (Approx.exact (g / 2)).round hu hu0
    have b : Approx (1 * (1 + u)) 1 1 1 := by
      have := (Approx.exact 1).le (show (1 : ℝ) ≤ 1 * (1 + u) by linarith)
      rwa [abs_one] at this
    have c := (b.sub a).round hu hu0
    rw [one_mul, ← pow_two] at c
    refine c.le_size (one_le_pow₀ hb) ?_
    rw [abs_div, abs_of_pos (by norm_num : (0 : ℝ) < 2)]
    linarith
  have av : Approx ((1 + u) ^ 6) (17 / 4) (fl (fl (fl (2 * loc) * g) + fl (y * y))) (2 * loc * g + Y ^ 2) := by
    have a := (ay.mul ay).round hu hu0
    have b1 := (Approx.exact (2 * loc)).round hu hu0
    have b2 := ((b1.mul (Approx.exact g)).round hu hu0)
    have b3 : Approx ((1 + u) ^ 2 * (1 + u) ^ 2 * (1 + u)) 2 (fl (fl (2 * loc) * g)) (2 * loc * g) := by
      refine (b2.le ?_).le_size ?_ ?_
      · rw [one_mul, mul_one, ← pow_two, ← pow_add, ← pow_succ]
        exact pow_le_pow_right₀ hb (by norm_num)
      · rw [← pow_add, ← pow_succ]; exact one_le_pow₀ hb
      · rw [abs_of_nonneg (by linarith)]
        nlinarith
    have c := (b3.add a).round hu hu0
    have e : (1 + u) ^ 2 * (1 + u) ^ 2 * (1 + u) * (1 + u) = (1 + u) ^ 6 := by ring
    rw [e] at c
    rw [pow_two Y]
    refine c.le_size (one_le_pow₀ hb) (by norm_num)
  have p6 : (1 + u) ^ 6 - 1 ≤ 2 * ((6 : ℕ) * u) := pow_sub_one_le hu0 (by push_cast; linarith)
  have p2 : (1 + u) ^ 2 - 1 ≤ 2 * ((2 : ℕ) * u) := pow_sub_one_le hu0 (by push_cast; linarith)
  push_cast at p6 p2
  set v := fl (fl (fl (2 * loc) * g) + fl (y * y)) with hv
  set V := 2 * loc * g + Y ^ 2 with hV
  have ev : |v - V| ≤ 51 * u := av.err.trans (by linarith)
  have ey : |y - Y| ≤ 6 * u := ay.err.trans (by linarith)
  have hVle : 1 / 4 ≤ V ∧ V ≤ 9 / 4 := mean_square_bounds h0 h1 hg1 hg2
  have hsV2 : |Real.sqrt V| ≤ 3 / 2 := by
    rw [abs_of_nonneg (Real.sqrt_nonneg V)]
    exact Real.sqrt_le_iff.mpr ⟨by norm_num, by linarith [hVle.2]⟩
  have es : |Real.sqrt v - Real.sqrt V| ≤ 102 * u := (sqrt_close hVle.1).trans (by linarith)
  have uu : u * u ≤ u * (1 / 100) := mul_le_mul_of_nonneg_left hu1 hu0
  have es' : |fl (Real.sqrt v) - Real.sqrt V| ≤ 105 * u :=
    (round_close hu hu0 es hsV2).trans (by rw [mul_add, mul_left_comm]; linarith)
  set s := fl (Real.sqrt v) with hs
  have ed : |s - y - (Real.sqrt V - Y)| ≤ 111 * u := by
    have := abs_sub (s - Real.sqrt V) (y - Y)
    rw [show s - y - (Real.sqrt V - Y) = (s - Real.sqrt V) - (y - Y) by ring]
    linarith
  have hpos := intrabin_mem (g := g) h0 h1
  rw [intrabin, if_pos hg'] at hpos
  simp only [] at hpos
  rw [← hY, ← hV] at hpos
  set t := (Real.sqrt V - Y) / g with ht
  have hd : |Real.sqrt V - Y| ≤ 1 := by
    have e2 : Real.sqrt V - Y = t * g := by rw [ht]; field_simp
    rw [e2, abs_mul, abs_of_nonneg hpos.1]
    exact mul_le_one₀ hpos.2 (abs_nonneg _) hg
  have ed' : |fl (s - y) - (Real.sqrt V - Y)| ≤ 114 * u :=
    (round_close hu hu0 ed hd).trans (by rw [mul_add, mul_left_comm]; linarith)
  set D := fl (s - y) with hD
  have eq : |D / g - t| ≤ 114 * u / |g| := by
    rw [ht, ← sub_div, abs_div]; gcongr
  have ht1 : |t| ≤ 1 / |g| := by
    rw [abs_of_nonneg hpos.1, le_div_iff₀ hgpos]
    exact mul_le_one₀ hpos.2 hgpos.le hg
  refine (round_close hu hu0 eq ht1).trans ?_
  rw [← add_div, mul_div_assoc', ← add_div]
  gcongr
  rw [mul_add, mul_left_comm]
  linarith

/-- Relative positions that stray by at most `δ` give samples that stray by little more. -/
lemma place_error {u δ e w t t' : ℝ} (hu : Accurate u fl) (hu0 : 0 ≤ u) (hw : 0 ≤ w) (ht : 0 ≤ t ∧ t ≤ 1)
    (htt : |t' - t| ≤ δ) :
    |fl (e + fl (fl w * t')) - (e + w * t)| ≤ u * |e| + ((1 + u) ^ 3 * (1 + δ) - 1) * w := by
  have a : Approx (1 + u) w (fl w) w := by
    have := (Approx.exact w).round hu hu0
    rwa [one_mul, abs_of_nonneg hw] at this
  have b : Approx (1 + δ) 1 t' t := ⟨by simpa using htt, by rw [abs_of_nonneg ht.1]; exact ht.2⟩
  have c := (a.mul b).round hu hu0
  rw [mul_one] at c
  set q := fl (fl w * t')
  have h1 := hu (e + q)
  have h2 : |q| ≤ (1 + u) * (1 + δ) * (1 + u) * w := c.abs_le
  have h3 := c.err
  have h4 : |fl (e + q) - (e + w * t)| ≤ |fl (e + q) - (e + q)| + |q - w * t| := by
    have := abs_sub_le (fl (e + q)) (e + q) (e + w * t)
    rwa [show e + q - (e + w * t) = q - w * t by ring] at this
  have h5 := abs_add_le e q
  have h6 : u * |e + q| ≤ u * (|e| + (1 + u) * (1 + δ) * (1 + u) * w) :=
    mul_le_mul_of_nonneg_left (h5.trans (by linarith)) hu0
  have e7 : ((1 + u) ^ 3 * (1 + δ) - 1) * w
      = u * ((1 + u) * (1 + δ) * (1 + u) * w) + ((1 + u) * (1 + δ) * (1 + u) - 1) * w := by ring
  rw [e7]
  linarith

/-- The gradient that the code uses in the bin `b`. -/
noncomputable def Spec.usedGradient (fl : ℝ → ℝ) (dens : List ℝ) (b : ℕ) : ℝ :=
  fl ((normDensFl fl dens).getD (b + 1) 0 - (normDensFl fl dens).getD b 0)

lemma mass1dFl_get (edges dens : List ℝ) {b : ℕ} (hb : b < (mass1dFl fl edges dens).length) :
    b + 1 < dens.length := by
  simp [mass1dFl] at hb; omega

/-- **C137, proved part.** Sampling with interpolation succeeds for all random numbers.  If no gradient is larger than
the mean density, and each is either taken as zero or at least `γ`, the sample strays from its bin by at most `120 u / γ`
of its width, up to the last roundings; here `u = 2⁻ᵖ`.  (For `γ = 10⁻¹⁶`, the threshold of the code, and double precision
this is more than the width of the bin.) -/
theorem C137_partial (hp : 7 ≤ p) (hfl : Nearest p fl) {srt : List ℝ → List ℕ} (hs : ∀ l, IsArgsort (srt l) l)
    {edges dens : List ℝ} (hedges : edges.Pairwise (· < ·)) (hlen : dens.length = edges.length) (h2 : 2 ≤ dens.length)
    (hd : ∀ x ∈ dens, 0 < x) {γ : ℝ} (hγ : 0 < γ)
    (hgrad : ∀ b, b + 1 < dens.length → |Spec.usedGradient fl dens b| ≤ 1 / 10 ^ 16 ∨
      γ ≤ |Spec.usedGradient fl dens b| ∧ |Spec.usedGradient fl dens b| ≤ 1)
    {u loc : ℝ} (h0 : 0 ≤ u) (h1 : u < 1) (hl0 : 0 ≤ loc) (hl1 : loc ≤ 1) :
    ∃ x, sampleInterpFl fl srt edges dens u loc = .ok x ∧ ∃ b, b + 1 < edges.length ∧
      ∃ t, 0 ≤ t ∧ t ≤ 1 ∧ |x - (edges.getD b 0 + (edges.getD (b + 1) 0 - edges.getD b 0) * t)|
        ≤ (1 / 2) ^ p * |edges.getD b 0|
          + ((1 + (1 / 2) ^ p) ^ 3 * (1 + 120 * (1 / 2) ^ p / γ) - 1) * (edges.getD (b + 1) 0 - edges.getD b 0) := by
  have hp1 : 1 ≤ p := by omega
  have hu := hfl.accurate hp1
  have hupos : (0 : ℝ) < (1 / 2) ^ p := by positivity
  have hu1 : ((1 : ℝ) / 2) ^ p ≤ 1 / 100 := by
    calc ((1 : ℝ) / 2) ^ p ≤ (1 / 2) ^ 7 := pow_le_pow_of_le_one (by norm_num) (by norm_num) hp
      _ ≤ 1 / 100 := by norm_num
  have hwid : ∀ b, b + 1 < edges.length → 0 < edges.getD (b + 1) 0 - edges.getD b 0 := by
    intro b hb
    rw [List.getD_eq_getElem _ _ hb, List.getD_eq_getElem _ _ (by omega)]
    exact sub_pos.mpr (List.pairwise_iff_getElem.mp hedges _ _ _ _ (by omega))
  have hmass : ∀ x ∈ mass1dFl fl edges dens, 0 < x := by
    intro x hx
    obtain ⟨b, hb, rfl⟩ := List.mem_map.mp hx
    have hb' : b + 1 < dens.length := by
      have := List.mem_range.mp hb; omega
    have pw := hu.pos (by linarith) (hwid b (by omega))
    have pd : ∀ k, k < dens.length → 0 < dens.getD k 0 := fun k hk => by
      rw [List.getD_eq_getElem _ _ hk]; exact hd _ (List.getElem_mem hk)
    have hlt : ((1 : ℝ) / 2) ^ p < 1 := by linarith
    refine hu.pos hlt (div_pos (hu.pos hlt (add_pos (hu.pos hlt ?_) (hu.pos hlt (mul_pos (pd _ hb') pw)))) (by norm_num))
    rw [zero_add]
    exact hu.pos hlt (mul_pos (pd b (by omega)) pw)
  have hne : 0 < (mass1dFl fl edges dens).length := by simp [mass1dFl]; omega
  obtain ⟨idx, csum, hc, b, hb, hlt, -⟩ := pickBinFl_ok hp1 hfl hs (mass := mass1dFl fl edges dens)
    (fun x hx => (hmass x hx).le) ⟨_, List.getElem_mem hne, hmass _ (List.getElem_mem hne)⟩ h0 h1
  have hb1 : b + 1 < dens.length := mass1dFl_get edges dens hlt
  have hrun : sampleInterpFl fl srt edges dens u loc = .ok (fl (edges.getD b 0
      + fl (fl (edges.getD (b + 1) 0 - edges.getD b 0) * intrabinFl fl loc (Spec.usedGradient fl dens b)))) := by
    simp only [sampleInterpFl, hc, hb, Spec.usedGradient]
  refine ⟨_, hrun, b, by omega, ?_⟩
  have hδ : 0 ≤ 120 * ((1 : ℝ) / 2) ^ p / γ := by positivity
  rcases hgrad b hb1 with hg | ⟨hg, hg'⟩
  · refine ⟨loc, hl0, hl1, place_error hu hupos.le (hwid b (by omega)).le ⟨hl0, hl1⟩ ?_⟩
    rw [intrabinFl, if_neg (by linarith), sub_self, abs_zero]
    exact hδ
  · by_cases hth : 1 / 10 ^ 16 < |Spec.usedGradient fl dens b|
    · obtain ⟨t0, t1⟩ := intrabin_mem (g := Spec.usedGradient fl dens b) hl0 hl1
      refine ⟨_, t0, t1, place_error hu hupos.le (hwid b (by omega)).le ⟨t0, t1⟩ ?_⟩
      refine (intrabinFl_error hu hupos.le hu1 hl0 hl1 hg' hth).trans ?_
      gcongr
    · refine ⟨loc, hl0, hl1, place_error hu hupos.le (hwid b (by omega)).le ⟨hl0, hl1⟩ ?_⟩
      rw [intrabinFl, if_neg hth, sub_self, abs_zero]
      exact hδ

/-- The relative positions for the gradient `-3/2^53` (about `-3.3e-16`). -/
lemma intrabin_few (h : Nearest 53 fl) {loc : ℝ} (h0 : 0 ≤ loc) (h1 : loc ≤ 1) :
    intrabinFl fl loc (-3 / 2 ^ 53) ∈ ({0, fl (2 / 3), 1} : Set ℝ) := by
  have hg : (1 : ℝ) / 10 ^ 16 < |(-3 / 2 ^ 53 : ℝ)| := by
    rw [abs_of_neg (by norm_num)]; norm_num
  have e1 : fl ((-3 / 2 ^ 53 : ℝ) / 2) = -3 / 2 ^ 54 := by
    rw [show (-3 / 2 ^ 53 : ℝ) / 2 = -3 / 2 ^ 54 by norm_num]
    exact h.fix ⟨-3, -54, by norm_num, by norm_num⟩
  have e2 : fl (1 - -3 / 2 ^ 54 : ℝ) = 1 + 2 / 2 ^ 53 := by
    rw [h.up (n := 2 ^ 52) (e := -52) (by norm_num) (by norm_num) (by norm_num) (by norm_num)]
    norm_num
  have e3 : fl ((1 + 2 / 2 ^ 53) * (1 + 2 / 2 ^ 53) : ℝ) = 1 + 4 / 2 ^ 53 := by
    rw [h.down (n := 2 ^ 52 + 2) (e := -52) (by norm_num) (by norm_num) (by norm_num) (by norm_num)]
    norm_num
  have hloc0 : 0 ≤ fl (2 * loc) := by rw [← h.zero]; exact h.mono (by linarith)
  have hloc1 : fl (2 * loc) ≤ 2 :=
    (h.mono (b := 2) (by linarith)).trans (h.fix (x := 2) ⟨2, 0, by norm_num, by norm_num⟩).le
  have w0 : fl (fl (2 * loc) * (-3 / 2 ^ 53)) ≤ 0 := by
    rw [← h.zero]; exact h.mono (by nlinarith)
  have w1 : -6 / 2 ^ 53 ≤ fl (fl (2 * loc) * (-3 / 2 ^ 53)) := by
    rw [← h.fix (x := -6 / 2 ^ 53) ⟨-6, -53, by norm_num, by norm_num⟩]; exact h.mono (by nlinarith)
  set w := fl (fl (2 * loc) * (-3 / 2 ^ 53))
  have v0 : fl (w + (1 + 4 / 2 ^ 53)) ≤ 1 + 4 / 2 ^ 53 := by
    rw [← h.fix (x := 1 + 4 / 2 ^ 53) ⟨2 ^ 52 + 2, -52, by norm_num, by norm_num⟩]
    exact h.mono (by rw [h.fix (x := 1 + 4 / 2 ^ 53) ⟨2 ^ 52 + 2, -52, by norm_num, by norm_num⟩]; linarith)
  have v1 : 1 - 2 / 2 ^ 53 ≤ fl (w + (1 + 4 / 2 ^ 53)) := by
    rw [← h.fix (x := 1 - 2 / 2 ^ 53) ⟨2 ^ 53 - 2, -53, by norm_num, by norm_num⟩]
    exact h.mono (by linarith)
  set v := fl (w + (1 + 4 / 2 ^ 53))
  have s0 : fl (Real.sqrt v) ≤ 1 + 2 / 2 ^ 53 := by
    rw [← h.fix (x := 1 + 2 / 2 ^ 53) ⟨2 ^ 52 + 1, -52, by norm_num, by norm_num⟩]
    refine h.mono (Real.sqrt_le_iff.mpr ⟨by norm_num, v0.trans ?_⟩)
    norm_num
  have s1 : 1 - 1 / 2 ^ 53 ≤ fl (Real.sqrt v) := by
    have e : fl (Real.sqrt (1 - 2 / 2 ^ 53)) = 1 - 1 / 2 ^ 53 := by
      rw [h.up (n := 2 ^ 53 - 2) (e := -53) (by norm_num) (by norm_num)]
      · norm_num
      · apply Real.lt_sqrt_of_sq_lt; norm_num
      · rw [Real.sqrt_le_iff]; norm_num
    rw [← e]
    exact h.mono (Real.sqrt_le_sqrt v1)
  have hs : fl (Real.sqrt v) = 1 - 1 / 2 ^ 53 ∨ fl (Real.sqrt v) = 1 ∨ fl (Real.sqrt v) = 1 + 2 / 2 ^ 53 := by
    have g1 := fun a b => float_gap (p := 53) (n := 2 ^ 53 - 1) (e := -53) (by norm_num) (h.float (Real.sqrt v)) a b
    have g2 := fun a b => float_gap (p := 53) (n := 2 ^ 52) (e := -52) (by norm_num) (h.float (Real.sqrt v)) a b
    norm_num at g1 g2 s0 s1 ⊢
    rcases lt_trichotomy (fl (Real.sqrt v)) 1 with c | c | c
    · left
      rcases s1.eq_or_lt with c' | c'
      · exact c'.symm
      · exact absurd c (not_lt.mpr (g1 c'))
    · right; left; exact c
    · right; right
      rcases s0.eq_or_lt with c' | c'
      · exact c'
      · exact absurd c' (not_lt.mpr (g2 c))
  rw [intrabinFl, if_pos hg]
  simp only [e1, e2, e3]
  change fl (fl (fl (Real.sqrt v) - (1 + 2 / 2 ^ 53)) / (-3 / 2 ^ 53)) ∈ _
  rcases hs with hs | hs | hs
  · right; right
    rw [hs, show (1 - 1 / 2 ^ 53 - (1 + 2 / 2 ^ 53) : ℝ) = -3 / 2 ^ 53 by norm_num,
      h.fix (x := -3 / 2 ^ 53) ⟨-3, -53, by norm_num, by norm_num⟩, div_self (by norm_num)]
    exact h.one
  · right; left
    rw [hs, show (1 - (1 + 2 / 2 ^ 53) : ℝ) = -2 / 2 ^ 53 by norm_num,
      h.fix (x := -2 / 2 ^ 53) ⟨-2, -53, by norm_num, by norm_num⟩]
    congr 1
    norm_num
  · left
    rw [hs, sub_self, h.zero, zero_div, h.zero]

/-- **C137, another violation.** In double precision, samples of the density with the values 1 and `1 - 2⁻⁵²` at the
edges 0 and 1 (whose exact density is uniform up to that amount) take only three values, whatever the random numbers. -/
theorem C137_three_values (h : Nearest 53 fl) {srt : List ℝ → List ℕ} (hs : ∀ l, IsArgsort (srt l) l) {u loc : ℝ}
    (h0 : 0 ≤ u) (h1 : u < 1) (hl0 : 0 ≤ loc) (hl1 : loc ≤ 1) :
    ∃ x, sampleInterpFl fl srt [0, 1] [1, 1 - 1 / 2 ^ 52] u loc = .ok x ∧ (x = 0 ∨ x = fl (2 / 3) ∨ x = 1) := by
  have f1 : fl (1 - 1 / 2 ^ 52 : ℝ) = 1 - 1 / 2 ^ 52 := h.fix ⟨2 ^ 52 - 1, -52, by norm_num, by norm_num⟩
  have hu := h.accurate (by norm_num)
  have hlt : ((1 : ℝ) / 2) ^ 53 < 1 := by norm_num
  have hm : mass1dFl fl [0, 1] [1, 1 - 1 / 2 ^ 52] = [fl (fl (1 + (1 - 1 / 2 ^ 52)) / 2)] := by
    have e : List.range (([1, 1 - 1 / 2 ^ 52] : List ℝ).length - 1) = [0] := rfl
    simp only [mass1dFl, e, List.map_cons, List.map_nil, List.getD_cons_zero, List.getD_cons_succ, zero_add]
    rw [show (1 : ℝ) - 0 = 1 by norm_num, h.one]
    simp only [mul_one, h.one, f1]
  have hmpos : 0 < fl (fl (1 + (1 - 1 / 2 ^ 52)) / 2) :=
    hu.pos hlt (div_pos (hu.pos hlt (by norm_num)) (by norm_num))
  obtain ⟨idx, csum, hc, b, hb, hblt, -⟩ := pickBinFl_ok (by norm_num) h hs
    (mass := [fl (fl (1 + (1 - 1 / 2 ^ 52)) / 2)]) (by simpa using hmpos.le) ⟨_, by simp, hmpos⟩ h0 h1
  have hb0 : b = 0 := by simpa using hblt
  subst hb0
  have hdn : normDensFl fl [1, 1 - 1 / 2 ^ 52] = [1 + 2 / 2 ^ 53, 1 - 1 / 2 ^ 53] := by
    have e : (cumsumFrom fl 0 [1, 1 - 1 / 2 ^ 52]).getLastD 0 = 2 - 1 / 2 ^ 52 := by
      simp only [cumsumFrom, zero_add, h.one]
      change fl (1 + (1 - 1 / 2 ^ 52)) = _
      rw [show (1 + (1 - 1 / 2 ^ 52) : ℝ) = 2 - 1 / 2 ^ 52 by norm_num]
      exact h.fix ⟨2 ^ 53 - 1, -52, by norm_num, by norm_num⟩
    simp only [normDensFl, e, List.length_cons, List.length_nil, List.map_cons, List.map_nil]
    rw [show ((2 - 1 / 2 ^ 52 : ℝ) / ((0 + 1 + 1 : ℕ) : ℝ)) = 1 - 1 / 2 ^ 53 by norm_num,
      h.fix (x := 1 - 1 / 2 ^ 53) ⟨2 ^ 53 - 1, -53, by norm_num, by norm_num⟩,
      h.up (x := 1 / (1 - 1 / 2 ^ 53)) (n := 2 ^ 52) (e := -52) (by norm_num) (by norm_num) (by norm_num) (by norm_num),
      h.up (x := (1 - 1 / 2 ^ 52) / (1 - 1 / 2 ^ 53)) (n := 2 ^ 53 - 2) (e := -53) (by norm_num) (by norm_num)
        (by norm_num) (by norm_num)]
    norm_num
  have hgr : fl (1 - 1 / 2 ^ 53 - (1 + 2 / 2 ^ 53)) = -3 / 2 ^ 53 := by
    rw [show (1 - 1 / 2 ^ 53 - (1 + 2 / 2 ^ 53) : ℝ) = -3 / 2 ^ 53 by norm_num]
    exact h.fix ⟨-3, -53, by norm_num, by norm_num⟩
  have hrun : sampleInterpFl fl srt [0, 1] [1, 1 - 1 / 2 ^ 52] u loc
      = .ok (fl (0 + fl (1 * intrabinFl fl loc (-3 / 2 ^ 53)))) := by
    simp only [sampleInterpFl, hm, hc, hb, hdn, List.getD_cons_zero, List.getD_cons_succ, zero_add, hgr]
    rw [show (1 : ℝ) - 0 = 1 by norm_num, h.one]
  refine ⟨_, hrun, ?_⟩
  rw [zero_add, one_mul, h.idem]
  rcases intrabin_few h hl0 hl1 with c | c | c
  · left; rw [c, h.zero]
  · right; left; rw [c, h.idem]
  · right; right; rw [Set.mem_singleton_iff.mp c, h.one]

/-! ### Examples -/

/-- The hypotheses of `C136_samples_in_grid` for three bins, the second of them empty. -/
example : ∃ fl srt, Nearest 53 fl ∧ ∀ u, 0 ≤ u → u < 1 →
    ∃ x, sampleUniformFl (d := 1) fl srt [[0, 1, 2, 4]] ⟨fun _ => 3, fun b => if b 0 = 1 then 0 else 1⟩ u (fun _ => 1 / 2) = .ok x
      ∧ ¬ (1 < x 0 ∧ x 0 < 2) := by
  obtain ⟨fl, h⟩ := exists_nearest (p := 53) (by norm_num)
  obtain ⟨srt, hs⟩ := exists_argsort
  refine ⟨fl, srt, h, fun u h0 h1 => ?_⟩
  obtain ⟨x, hx, b, hb, hpos, hin⟩ := C136_samples_in_grid (d := 1) (by norm_num) h hs
    (edges := [[0, 1, 2, 4]]) (mass := ⟨fun _ => 3, fun b => if b 0 = 1 then 0 else 1⟩)
    ⟨rfl, fun i => by fin_cases i; rfl⟩
    (by
      simp only [List.mem_cons, List.not_mem_nil, or_false, forall_eq]
      refine ⟨by norm_num, ?_⟩
      simp only [List.mem_cons, List.not_mem_nil, or_false, forall_eq_or_imp, forall_eq]
      exact ⟨isFloat_zero, isFloat_one, ⟨2, 0, by norm_num, by norm_num⟩, 4, 0, by norm_num, by norm_num⟩)
    (by intro b _; dsimp only; split_ifs <;> norm_num)
    ⟨fun _ => 0, fun i => by norm_num, by norm_num⟩ h0 h1 (fun _ => 1 / 2) (fun _ => by norm_num)
  refine ⟨x, hx, fun hc => ?_⟩
  have hb0 : b 0 < 3 := hb 0
  have := hin 0
  dsimp only at hpos
  have hne : b 0 ≠ 1 := fun he => by rw [if_pos he] at hpos; exact lt_irrefl _ hpos
  have hcase : b 0 = 0 ∨ b 0 = 2 := by omega
  rcases hcase with e | e
  · rw [e] at this
    have h3 : x 0 ≤ 1 := this.2
    linarith [hc.1]
  · rw [e] at this
    have h3 : 2 ≤ x 0 := this.1
    linarith [hc.2]

/-- The hypotheses of `C137_partial` for a density with both rising and falling bins. -/
example (h : Nearest 53 fl) : ∀ b, b + 1 < ([1, 3, 1, 3] : List ℝ).length →
    |Spec.usedGradient fl [1, 3, 1, 3] b| ≤ 1 / 10 ^ 16 ∨
      1 ≤ |Spec.usedGradient fl [1, 3, 1, 3] b| ∧ |Spec.usedGradient fl [1, 3, 1, 3] b| ≤ 1 := by
  have f : ∀ n : ℤ, |n| ≤ 2 ^ 53 → ∀ e : ℤ, fl (n * 2 ^ e : ℝ) = n * 2 ^ e := fun n hn e => h.fix ⟨n, e, hn, rfl⟩
  have f4 : fl 4 = 4 := by simpa using f 4 (by norm_num) 0
  have f5 : fl 5 = 5 := by simpa using f 5 (by norm_num) 0
  have f8 : fl 8 = 8 := by simpa using f 8 (by norm_num) 0
  have f2 : fl 2 = 2 := by simpa using f 2 (by norm_num) 0
  have fh : fl (1 / 2) = 1 / 2 := by simpa [zpow_neg] using f 1 (by norm_num) (-1)
  have fh3 : fl (3 / 2) = 3 / 2 := by
    have := f 3 (by norm_num) (-1)
    rwa [show (((3 : ℤ) : ℝ) * 2 ^ (-1 : ℤ)) = 3 / 2 by norm_num] at this
  have fm : fl (-1) = -1 := by simpa using f (-1) (by norm_num) 0
  have e : normDensFl fl [1, 3, 1, 3] = [1 / 2, 3 / 2, 1 / 2, 3 / 2] := by
    have e' : (cumsumFrom fl 0 [1, 3, 1, 3]).getLastD 0 = 8 := by
      simp only [cumsumFrom, zero_add, h.one]
      norm_num [f4, f5, f8]
    simp only [normDensFl, e', List.length_cons, List.length_nil, List.map_cons, List.map_nil]
    norm_num [f2, fh, fh3]
  intro b hb
  right
  have hb' : b < 3 := by simp only [List.length_cons, List.length_nil] at hb; omega
  have : |Spec.usedGradient fl [1, 3, 1, 3] b| = 1 := by
    rw [Spec.usedGradient, e]
    interval_cases b <;> norm_num [h.one, fm]
  exact ⟨this.ge, this.le⟩

end Kalepy
