import Verif.Props.Dist2dOk
import Verif.Props.PadHist

/-!
# C106: the contours drawn by `contour`
-/

namespace Kalepy

open Spec

variable {d : ℕ}

/-! ### specification -/

/-- `b` is the array `a` with `n` more cells on each side of every axis, all of value `v`. -/
structure Spec.PaddedBy (n : ℕ) (v : ℝ) (a b : NDArr d ℝ) : Prop where
  shape : ∀ i, b.shape i = a.shape i + 2 * n
  inside : ∀ idx, ValidIdx a.shape idx → b.get (fun i => n + idx i) = a.get idx
  outside : ∀ idx, ValidIdx b.shape idx → (∃ i, idx i < n ∨ n + a.shape i ≤ idx i) → b.get idx = v

/-- The weight of the data in bins with a property. -/
noncomputable def Spec.weightInBins (data : List (Fin 2 → ℝ)) (weights : Option (List ℝ)) (ex ey : List ℝ) (P : ℕ → ℕ → Prop) : ℝ :=
  weightWhere (fun p => ∃ i j, InCell ex ey i j p ∧ P i j) data weights

/-- All steps between edges are equal. -/
def Spec.EqualWidths (e : List ℝ) : Prop := ∃ w, ∀ i, i + 1 < e.length → e.getD (i + 1) 0 - e.getD i 0 = w

/-- `l` is the level for the fraction `q` of the data: the bins of higher density contain at most this fraction, and with all bins down to any lower density
they would contain more. -/
def Spec.Encloses (data : List (Fin 2 → ℝ)) (weights : Option (List ℝ)) (ex ey : List ℝ) (q l : ℝ) : Prop :=
  weightInBins data weights ex ey (fun i j => l < cellDensity data weights ex ey i j) ≤
      q * weightWhere (fun p => InRangeOf ex (p 0) ∧ InRangeOf ey (p 1)) data weights ∧
  ∀ m n, m + 1 < ex.length → n + 1 < ey.length → cellDensity data weights ex ey m n < l →
    q * weightWhere (fun p => InRangeOf ex (p 0) ∧ InRangeOf ey (p 1)) data weights <
      weightInBins data weights ex ey fun i j => cellDensity data weights ex ey m n ≤ cellDensity data weights ex ey i j

/-! ### proofs -/

lemma padStep_num (edges : List (List ℝ)) (hist : NDArr d ℝ) (pad : PadArg) :
    padStep edges hist pad = padStep edges hist (.num (padNumber pad)) := by
  cases pad <;> rfl

lemma drawContour2d_num (srt : List ℝ → List ℕ) (edges : List (List ℝ)) (hist : NDArr 2 ℝ) (qs : Option (List ℝ)) (pad : PadArg) :
    drawContour2d srt edges hist qs pad = drawContour2d srt edges hist qs (.num (padNumber pad)) := by
  unfold drawContour2d prepHist
  rw [padStep_num]

/-- There are levels for every array of numbers that are not negative. -/
lemma dfmLevels_success {srt : List ℝ → List ℕ} (hs : ∀ l, IsArgsort (srt l) l) {hist : NDArr d ℝ}
    (h0 : ∀ idx, ValidIdx hist.shape idx → 0 ≤ hist.get idx) (hne : ∃ idx, ValidIdx hist.shape idx) (qs sg : Option (List ℝ)) :
    ∃ s levels q, dfmLevels srt .float hist qs sg = .ok (s, levels, q) := by
  rcases (show 0 ≤ hist.sum from Finset.sum_nonneg fun idx hi => h0 idx (validIdx_mem.mp hi)).eq_or_lt with ht | ht
  · have hz : ∀ x ∈ hist.flat, x = 0 := by
      intro x hx
      obtain ⟨idx, hv, rfl⟩ := (NDArr.mem_flat hist x).mp hx
      exact (Finset.sum_eq_zero_iff_of_nonneg fun idx hi => h0 idx (validIdx_mem.mp hi)).mp ht.symm idx (validIdx_mem.mpr hv)
    obtain ⟨idx, hv⟩ := hne
    have hpos : 0 < hist.flat.length := List.length_pos_of_mem ((NDArr.mem_flat hist _).mpr ⟨idx, hv, rfl⟩)
    obtain ⟨n, hn⟩ : ∃ n, hist.flat.length = n + 1 := ⟨hist.flat.length - 1, by omega⟩
    have hf : hist.flat = List.replicate (n + 1) 0 := List.eq_replicate_iff.mpr ⟨hn, hz⟩
    have := C55_zero srt n (defaultQuantiles qs sg).1 (hs _)
    rw [← hf] at this
    exact ⟨_, _, _, by simp only [dfmLevels, this]; rfl⟩
  · obtain ⟨levels, q, s, _, h, _⟩ := C55_mass_partial hist h0 ht srt hs qs sg
    exact ⟨_, _, _, h⟩

/-- What is drawn for increasing edges or centres and an array of numbers that are not negative. -/
lemma drawContour2d_success {srt : List ℝ → List ℕ} (hs : ∀ l, IsArgsort (srt l) l) {x y : List ℝ} (hx : x.Pairwise (· < ·)) (hy : y.Pairwise (· < ·))
    (hx2 : 2 ≤ x.length) (hy2 : 2 ≤ y.length) {z : NDArr 2 ℝ} (hz : ∀ idx, ValidIdx z.shape idx → 0 ≤ z.get idx)
    (hsh : z.shape = ![x.length, y.length] ∨ z.shape = ![x.length - 1, y.length - 1]) (qs : Option (List ℝ)) (pad : PadArg) :
    ∃ C v s q, drawContour2d srt [x, y] z qs pad = .ok C ∧ PaddedBy (padNumber pad) v z C.z ∧
      (0 < padNumber pad → (∃ idx, ValidIdx z.shape idx ∧ z.get idx = v) ∧ ∀ idx, ValidIdx z.shape idx → v ≤ z.get idx) ∧
      dfmLevels srt .float C.z qs none = .ok (s, C.levels, q) ∧
      C.z.shape = ![C.x.length, C.y.length] ∧ C.x.Pairwise (· < ·) ∧ C.y.Pairwise (· < ·) ∧
      (z.shape = ![x.length - 1, y.length - 1] →
        (∀ m < x.length - 1, C.x.getD (padNumber pad + m) 0 = (x.getD m 0 + x.getD (m + 1) 0) / 2) ∧
        ∀ m < y.length - 1, C.y.getD (padNumber pad + m) 0 = (y.getD m 0 + y.getD (m + 1) 0) / 2) := by
  rw [drawContour2d_num]
  generalize padNumber pad = n
  have hsh1 : ∀ i, 1 ≤ z.shape i := by
    intro i
    rcases hsh with h | h <;> rw [h] <;> fin_cases i <;> simp <;> omega
  have hv0 : ValidIdx z.shape fun _ => 0 := fun i => hsh1 i
  -- the padded arrays
  obtain ⟨rx, ry, hh, v, hstep, hP, hmin, hpx, hpy, hrx, hry⟩ : ∃ rx ry hh v, padStep [x, y] z (.num n) = .ok ([rx, ry], hh) ∧
      PaddedBy n v z hh ∧
      (0 < n → (∃ idx, ValidIdx z.shape idx ∧ z.get idx = v) ∧ ∀ idx, ValidIdx z.shape idx → v ≤ z.get idx) ∧
      (rx.length = x.length + 2 * n ∧ ∀ k < x.length, rx.getD (n + k) 0 = x.getD k 0) ∧
      (ry.length = y.length + 2 * n ∧ ∀ k < y.length, ry.getD (n + k) 0 = y.getD k 0) ∧
      rx.Pairwise (· < ·) ∧ ry.Pairwise (· < ·) := by
    cases n with
    | zero =>
      refine ⟨x, y, z, 0, rfl, ⟨fun i => by simp, fun idx _ => by simp, ?_⟩, by simp, by simp, by simp, hx, hy⟩
      rintro idx hv ⟨i, h | h⟩
      · omega
      · have := hv i
        omega
    | succ n =>
      obtain ⟨ee, hh, v, h1, h2, h3, h4, h5, h6⟩ := C58_pad [x, y] z (n + 1) ⟨_, hv0⟩ (by
        intro e he
        simp only [List.mem_cons, List.not_mem_nil, or_false] at he
        rcases he with rfl | rfl <;> assumption)
      obtain ⟨rx, ry, rfl⟩ := List.length_eq_two.mp h5
      obtain ⟨r, e1, e2, e3⟩ := h6 0 x rfl
      cases e1
      obtain ⟨r, f1, f2, f3⟩ := h6 1 y rfl
      cases f1
      exact ⟨_, _, hh, v, h1, ⟨h2.1, h2.2.1, fun idx _ h => h2.2.2 idx h⟩, fun _ => ⟨h3, h4⟩, ⟨e2.1, e2.2.1⟩, ⟨f2.1, f2.2.1⟩, e3 hx, f3 hy⟩
  have hnn : ∀ idx, ValidIdx hh.shape idx → 0 ≤ hh.get idx := by
    intro idx hv
    by_cases ho : ∃ i, idx i < n ∨ n + z.shape i ≤ idx i
    · rw [hP.outside idx hv ho]
      have hn : 0 < n := by
        by_contra h0
        obtain rfl : n = 0 := by omega
        obtain ⟨i, h | h⟩ := ho
        · omega
        · have := hv i
          rw [hP.shape] at this
          omega
      obtain ⟨⟨j, hj, e⟩, _⟩ := hmin hn
      rw [← e]
      exact hz j hj
    · push Not at ho
      have := hP.inside (fun i => idx i - n) (fun i => by have := ho i; show idx i - n < z.shape i; omega)
      have e : (fun i => n + (idx i - n)) = idx := by
        funext i
        have := ho i
        omega
      rw [e] at this
      rw [this]
      exact hz _ fun i => by have := ho i; omega
  have hsize : ∀ i, 1 ≤ hh.shape i := fun i => by rw [hP.shape]; have := hsh1 i; omega
  obtain ⟨s, levels, q, hl⟩ := dfmLevels_success hs hnn ⟨fun _ => 0, fun i => hsize i⟩ qs none
  obtain ⟨cs, c1, c2, c3⟩ := (C58_match [rx, ry] hh hsize).1 (by
    refine ⟨rfl, ?_⟩
    rcases hsh with h | h
    · left
      intro i e he
      rw [hP.shape, h]
      fin_cases i <;> cases he
      · exact hpx.1
      · exact hpy.1
    · right
      intro i e he
      rw [hP.shape, h]
      fin_cases i <;> cases he
      · show rx.length = x.length - 1 + 2 * n + 1
        omega
      · show ry.length = y.length - 1 + 2 * n + 1
        omega)
  obtain ⟨cx, cy, rfl⟩ := List.length_eq_two.mp c2
  obtain ⟨c, e1, e2, e3⟩ := c3 0 rx rfl
  cases e1
  obtain ⟨c, f1, f2, f3⟩ := c3 1 ry rfl
  cases f1
  have mid : ∀ {e r c : List ℝ} {k : ℕ}, Centres (k + 2 * n) r c → k + 1 = e.length → r.length = e.length + 2 * n →
      (∀ k < e.length, r.getD (n + k) 0 = e.getD k 0) →
      ∀ m < e.length - 1, c.getD (n + m) 0 = (e.getD m 0 + e.getD (m + 1) 0) / 2 := by
    intro e r c k hc hk hr hg m hm
    rcases hc.2 with ⟨h, _⟩ | ⟨_, h⟩
    · omega
    · rw [h (n + m) (by omega), hg m (by omega), show n + m + 1 = n + (m + 1) by omega, hg (m + 1) (by omega)]
  refine ⟨⟨cx, cy, hh, levels⟩, v, s, q, ?_, hP, hmin, hl, ?_, e3 hrx, f3 hry, fun h => ⟨?_, ?_⟩⟩
  · simp only [drawContour2d, prepHist, hstep, c1, hl]
    rfl
  · funext i
    fin_cases i
    · exact e2.1.symm
    · exact f2.1.symm
  · refine mid (k := x.length - 1) ?_ (by omega) hpx.1 hpx.2
    have := e2
    rw [hP.shape, h] at this
    exact this
  · refine mid (k := y.length - 1) ?_ (by omega) hpy.1 hpy.2
    have := f2
    rw [hP.shape, h] at this
    exact this

/-- Sum over the bins with a property. -/
lemma sum_bins {ex ey : List ℝ} (hx : ex.Pairwise (· ≤ ·)) (hy : ey.Pairwise (· ≤ ·)) (P : ℕ → ℕ → Prop) [∀ i j, Decidable (P i j)]
    (pts : List (Fin 2 → ℝ)) (weights : Option (List ℝ)) :
    ∑ idx ∈ validIdx ![ex.length - 1, ey.length - 1], (if P (idx 0) (idx 1) then weightWhere (InCell ex ey (idx 0) (idx 1)) pts weights else 0)
      = weightInBins pts weights ex ey P := by
  classical
  unfold weightInBins weightWhere
  induction pts.zip (weights.getD (pts.map fun _ => 1)) with
  | nil => simp
  | cons p l ih =>
    simp only [List.map_cons, List.sum_cons]
    rw [← ih]
    have : ∀ idx : Fin 2 → ℕ, (if P (idx 0) (idx 1) then (if InCell ex ey (idx 0) (idx 1) p.1 then p.2 else 0) +
        (l.map fun p => if InCell ex ey (idx 0) (idx 1) p.1 then p.2 else 0).sum else 0) =
        (if P (idx 0) (idx 1) then (if InCell ex ey (idx 0) (idx 1) p.1 then p.2 else 0) else 0) +
        (if P (idx 0) (idx 1) then (l.map fun p => if InCell ex ey (idx 0) (idx 1) p.1 then p.2 else 0).sum else 0) := by
      intro idx
      split <;> simp
    rw [Finset.sum_congr rfl fun idx _ => this idx, Finset.sum_add_distrib]
    congr 1
    have lt : ∀ {e : List ℝ} {i : ℕ} {x : ℝ}, CountedIn e i x → i < e.length - 1 := by
      rintro e i x ⟨a, b, _, h, _⟩
      have := (List.getElem?_eq_some_iff.mp h).1
      omega
    have uni : ∀ {e : List ℝ} {i j : ℕ} {x : ℝ}, e.Pairwise (· ≤ ·) → CountedIn e i x → CountedIn e j x → i = j := by
      intro e i j x he h1 h2
      rcases lt_trichotomy i j with h | h | h
      · exact (countedIn_unique he h1 h2 h).elim
      · exact h
      · exact (countedIn_unique he h2 h1 h).elim
    by_cases hex : ∃ i j, InCell ex ey i j p.1
    · obtain ⟨i, j, hij⟩ := hex
      rw [Finset.sum_eq_single_of_mem ![i, j] (by
        rw [validIdx_mem]
        intro k
        fin_cases k
        · exact lt hij.1
        · exact lt hij.2)]
      · show (if P i j then (if InCell ex ey i j p.1 then p.2 else 0) else 0) = _
        by_cases hP : P i j
        · rw [if_pos hP, if_pos hij, if_pos ⟨i, j, hij, hP⟩]
        · rw [if_neg hP, if_neg]
          rintro ⟨i', j', h, hP'⟩
          rw [uni hx h.1 hij.1, uni hy h.2 hij.2] at hP'
          exact hP hP'
      · intro idx _ hne
        by_cases hc : InCell ex ey (idx 0) (idx 1) p.1
        · refine absurd ?_ hne
          funext k
          fin_cases k
          · exact uni hx hc.1 hij.1
          · exact uni hy hc.2 hij.2
        · simp [hc]
    · rw [if_neg (fun ⟨i, j, h, _⟩ => hex ⟨i, j, h⟩)]
      refine Finset.sum_eq_zero fun idx _ => ?_
      rw [if_neg fun h => hex ⟨_, _, h⟩]
      simp

/-- A sum over a padded array of terms that vanish in the padding. -/
lemma padded_sum {n : ℕ} {v : ℝ} {a b : NDArr d ℝ} (h : PaddedBy n v a b) (g : ℝ → ℝ) (hg : 0 < n → g v = 0) :
    ∑ idx ∈ validIdx b.shape, g (b.get idx) = ∑ idx ∈ validIdx a.shape, g (a.get idx) := by
  symm
  refine Finset.sum_of_injOn (fun idx i => n + idx i) ?_ ?_ ?_ ?_
  · intro x _ y _ hxy
    funext i
    have := congrFun hxy i
    simp only at this
    omega
  · intro x hx
    rw [Finset.mem_coe, validIdx_mem] at hx ⊢
    intro i
    have := hx i
    rw [h.shape]
    show n + x i < _
    omega
  · intro idx hb hni
    rw [validIdx_mem] at hb
    have hout : ∃ i, idx i < n ∨ n + a.shape i ≤ idx i := by
      by_contra hc
      push Not at hc
      refine hni ⟨fun i => idx i - n, ?_, ?_⟩
      · rw [Finset.mem_coe, validIdx_mem]
        intro i
        have := hc i
        show idx i - n < _
        omega
      · funext i
        have := hc i
        show n + (idx i - n) = idx i
        omega
    rw [h.outside idx hb hout]
    refine hg ?_
    by_contra h0
    obtain ⟨i, hi⟩ := hout
    have := hb i
    rw [h.shape] at this
    omega
  · intro idx hi
    rw [h.inside idx (validIdx_mem.mp hi)]

lemma contour_ok {srt : List ℝ → List ℕ} (hs : ∀ l, IsArgsort (srt l) l) {data : List (Fin 2 → ℝ)} {edges : EdgeArg} {weights : Option (List ℝ)}
    (hw : ValidWeights data.length weights) {quantiles : Option (List ℝ)} {pad : PadArg} {C : ContourCmd}
    (h : contour srt data edges weights quantiles pad = .ok C) :
    ∃ ex ey hist v s q, parseEdges srt data edges none none 5 1000 none 1 none = .ok [ex, ey] ∧ histogram2d data ex ey weights = .ok hist ∧
      PaddedBy (padNumber pad) v hist C.z ∧
      (0 < padNumber pad → (∃ idx, ValidIdx hist.shape idx ∧ hist.get idx = v) ∧ ∀ idx, ValidIdx hist.shape idx → v ≤ hist.get idx) ∧
      dfmLevels srt .float C.z quantiles none = .ok (s, C.levels, q) ∧
      C.z.shape = ![C.x.length, C.y.length] ∧ C.x.Pairwise (· < ·) ∧ C.y.Pairwise (· < ·) ∧
      (∀ m < ex.length - 1, C.x.getD (padNumber pad + m) 0 = (ex.getD m 0 + ex.getD (m + 1) 0) / 2) ∧
      ∀ m < ey.length - 1, C.y.getD (padNumber pad + m) 0 = (ey.getD m 0 + ey.getD (m + 1) 0) / 2 := by
  unfold contour at h
  split at h
  · cases h
  rename_i rows hrows
  split at h
  · cases h
  rename_i hist hhist
  have hlen := (C45_edges srt data edges none none 5 1000 none 1 none (by norm_num) rows hrows).1
  obtain ⟨ex, ey, rfl⟩ := List.length_eq_two.mp hlen
  replace hhist : histogram2d data ex ey weights = .ok hist := hhist
  obtain ⟨hx, hy, hxl, hyl, _, hsh, _⟩ := histogram2d_ok hhist
  obtain ⟨C', v, s, q, h1, h2, h3, h4, h5, h6, h7, h8⟩ := drawContour2d_success hs hx hy hxl hyl (histogram2d_facts hw hhist).1
    (Or.inr hsh) quantiles pad
  rw [h1] at h
  cases h
  exact ⟨ex, ey, hist, v, s, q, hrows, hhist, h2, h3, h4, h5, h6, h7, h8 hsh⟩

/-! ### C106 -/

/-- **C106.** `contour` of valid data and weights with automatic edges or a number of bins never fails. -/
theorem C106_succeeds (srt : List ℝ → List ℕ) (hs : ∀ l, IsArgsort (srt l) l) (data : List (Fin 2 → ℝ))
    (hne : data ≠ []) (edges : EdgeArg) (hedges : edges = .none ∨ ∃ n : ℤ, 0 < n ∧ edges = .int n)
    (weights : Option (List ℝ)) (hw : ValidWeights data.length weights) (hrange : ∀ i : Fin 2, ∃ x ∈ data, ∃ y ∈ data, x i ≠ y i)
    (quantiles : Option (List ℝ)) (pad : PadArg) : ∃ C, contour srt data edges weights quantiles pad = .ok C := by
  obtain ⟨P, hP, _⟩ := C88_succeeds srt hs data hne edges hedges weights hw hrange .off
  obtain ⟨h1, hist, h2, _⟩ := hist2d_ok hP
  obtain ⟨hx, hy, hxl, hyl, _, hsh, _⟩ := histogram2d_ok h2
  obtain ⟨C, _, _, _, hC, _⟩ := drawContour2d_success hs hx hy hxl hyl (histogram2d_facts hw h2).1 (Or.inr hsh) quantiles pad
  refine ⟨C, ?_⟩
  unfold contour
  rw [h1]
  simp only
  rw [show histogram2d data ([P.x, P.y].getD 0 []) ([P.x, P.y].getD 1 []) weights = .ok hist from h2]
  exact hC

/-- **C106.** What `contour` passes to matplotlib: increasing coordinates, one for each row and column of the array; inside, at the centres
of the bins, the densities of the bins; around it `pad` rows and columns on each side with the smallest of these densities; and one level for
each quantile, in ascending order, the level of that fraction (`Spec.IsLevel`) of the sum of this array. -/
theorem C106_drawn (srt : List ℝ → List ℕ) (hs : ∀ l, IsArgsort (srt l) l) (data : List (Fin 2 → ℝ)) (edges : EdgeArg)
    (weights : Option (List ℝ)) (hw : ValidWeights data.length weights) (qs : List ℝ) (pad : PadArg) (C : ContourCmd)
    (h : contour srt data edges weights (some qs) pad = .ok C) :
    ∃ ex ey v f, parseEdges srt data edges none none 5 1000 none 1 none = .ok [ex, ey] ∧
      C.z.shape = ![C.x.length, C.y.length] ∧ C.x.Pairwise (· < ·) ∧ C.y.Pairwise (· < ·) ∧
      C.x.length = ex.length - 1 + 2 * padNumber pad ∧ C.y.length = ey.length - 1 + 2 * padNumber pad ∧
      (∀ i j, i + 1 < ex.length → j + 1 < ey.length →
        C.x.getD (padNumber pad + i) 0 = (ex.getD i 0 + ex.getD (i + 1) 0) / 2 ∧
        C.y.getD (padNumber pad + j) 0 = (ey.getD j 0 + ey.getD (j + 1) 0) / 2 ∧
        C.z.get ![padNumber pad + i, padNumber pad + j] = cellDensity data weights ex ey i j) ∧
      (∀ m n, m < C.x.length → n < C.y.length →
        (m < padNumber pad ∨ C.x.length ≤ m + padNumber pad ∨ n < padNumber pad ∨ C.y.length ≤ n + padNumber pad) → C.z.get ![m, n] = v) ∧
      (0 < padNumber pad → (∃ i j, i + 1 < ex.length ∧ j + 1 < ey.length ∧ cellDensity data weights ex ey i j = v) ∧
        ∀ i j, i + 1 < ex.length → j + 1 < ey.length → v ≤ cellDensity data weights ex ey i j) ∧
      C.levels.Pairwise (· ≤ ·) ∧ C.levels.Perm (qs.map f) ∧
      ∀ r, IsRanking r C.z.flat → ∀ q, IsLevel r q (f q) := by
  obtain ⟨ex, ey, hist, v, s, q, h1, h2, h3, h4, h5, h6, h7, h8, h9, h10⟩ := contour_ok hs hw h
  obtain ⟨hx, hy, hxl, hyl, _, hsh, hg⟩ := histogram2d_ok h2
  have hg' : ∀ i j, i + 1 < ex.length → j + 1 < ey.length → hist.get ![i, j] = cellDensity data weights ex ey i j :=
    fun i j hi hj => hg i j (by omega) (by omega)
  have hval : ∀ i j, i + 1 < ex.length → j + 1 < ey.length → ValidIdx hist.shape ![i, j] := by
    intro i j hi hj k
    rw [hsh]
    fin_cases k
    · show i < ex.length - 1
      omega
    · show j < ey.length - 1
      omega
  have hval' : ∀ idx, ValidIdx hist.shape idx → idx 0 + 1 < ex.length ∧ idx 1 + 1 < ey.length ∧ ![idx 0, idx 1] = idx := by
    intro idx hv
    have a := hv 0
    have b := hv 1
    rw [hsh] at a b
    simp only [Matrix.cons_val_zero, Matrix.cons_val_one] at a b
    refine ⟨by omega, by omega, ?_⟩
    funext k
    fin_cases k <;> rfl
  have lx : C.x.length = ex.length - 1 + 2 * padNumber pad := by
    have := h3.shape 0
    rw [h6, hsh] at this
    exact this
  have ly : C.y.length = ey.length - 1 + 2 * padNumber pad := by
    have := h3.shape 1
    rw [h6, hsh] at this
    exact this
  obtain ⟨hnn, hpos⟩ := histogram2d_facts hw h2
  -- the cells
  have hcell : ∀ i j, i + 1 < ex.length → j + 1 < ey.length →
      C.z.get ![padNumber pad + i, padNumber pad + j] = cellDensity data weights ex ey i j := by
    intro i j hi hj
    rw [← hg' i j hi hj, ← h3.inside _ (hval i j hi hj)]
    congr 1
    funext k
    fin_cases k <;> rfl
  have hout : ∀ m n, m < C.x.length → n < C.y.length →
      (m < padNumber pad ∨ C.x.length ≤ m + padNumber pad ∨ n < padNumber pad ∨ C.y.length ≤ n + padNumber pad) → C.z.get ![m, n] = v := by
    intro m n hm hn ho
    refine h3.outside _ (fun k => ?_) ?_
    · rw [h6]
      fin_cases k
      · exact hm
      · exact hn
    · rw [hsh]
      rcases ho with ho | ho | ho | ho
      · exact ⟨0, Or.inl ho⟩
      · refine ⟨0, Or.inr ?_⟩
        show padNumber pad + (ex.length - 1) ≤ m
        omega
      · exact ⟨1, Or.inl ho⟩
      · refine ⟨1, Or.inr ?_⟩
        show padNumber pad + (ey.length - 1) ≤ n
        omega
  have hz0 : ∀ x ∈ C.z.flat, 0 ≤ x := by
    intro x hx
    obtain ⟨idx, hv, rfl⟩ := (NDArr.mem_flat C.z x).mp hx
    by_cases ho : ∃ i, idx i < padNumber pad ∨ padNumber pad + hist.shape i ≤ idx i
    · rw [h3.outside idx hv ho]
      rcases Nat.eq_zero_or_pos (padNumber pad) with h0 | h0
      · obtain ⟨i, hi⟩ := ho
        have := hv i
        rw [h3.shape] at this
        omega
      · obtain ⟨⟨j, hj, e⟩, _⟩ := h4 h0
        rw [← e]
        exact hnn j hj
    · push Not at ho
      have e : (fun i => padNumber pad + (idx i - padNumber pad)) = idx := by
        funext i
        have := ho i
        omega
      have hv' : ValidIdx hist.shape fun i => idx i - padNumber pad := by
        intro i
        have := ho i
        show idx i - padNumber pad < hist.shape i
        omega
      have := h3.inside _ hv'
      rw [e] at this
      rw [this]
      exact hnn _ hv'
  have hsum : 0 < C.z.flat.sum := by
    refine lt_of_le_of_ne (List.sum_nonneg hz0) fun h0 => ?_
    have hz := fun x hx => List.all_zero_of_le_zero_le_of_sum_eq_zero hz0 h0.symm (x := x) hx
    apply hpos.ne'
    unfold NDArr.sum
    refine Finset.sum_eq_zero fun idx hi => ?_
    obtain ⟨a, b, e⟩ := hval' idx (validIdx_mem.mp hi)
    rw [← e, hg' _ _ a b, ← hcell _ _ a b]
    refine hz _ ((NDArr.mem_flat C.z _).mpr ⟨_, fun k => ?_, rfl⟩)
    rw [h6]
    fin_cases k
    · show padNumber pad + idx 0 < C.x.length
      omega
    · show padNumber pad + idx 1 < C.y.length
      omega
  obtain ⟨f, hf, _, hlev⟩ := C55_levels_partial C.z.flat _ hz0 hsum (argsort_ranking (hs C.z.flat))
  obtain ⟨levels, l1, _, l3, l4⟩ := hlev srt (hs _) qs
  have hl : C.levels = levels := by
    unfold dfmLevels at h5
    simp only [defaultQuantiles] at h5
    rw [l1] at h5
    cases h5
    rfl
  refine ⟨ex, ey, v, f, h1, h6, h7, h8, lx, ly, fun i j hi hj => ⟨h9 i (by omega), h10 j (by omega), hcell i j hi hj⟩, hout, fun h0 => ?_,
    by rw [hl]; exact l3, by rw [hl]; exact l4, fun r hr q => ?_⟩
  · obtain ⟨⟨idx, hv, e⟩, hm⟩ := h4 h0
    obtain ⟨a, b, e'⟩ := hval' idx hv
    refine ⟨⟨idx 0, idx 1, a, b, ?_⟩, fun i j hi hj => ?_⟩
    · rw [← hg' _ _ a b, e', e]
    · rw [← hg' i j hi hj]
      exact hm _ (hval i j hi hj)
  · rw [isRanking_unique hr (argsort_ranking (hs C.z.flat))]
    exact (hf q).1

lemma edges_equal {srt : List ℝ → List ℕ} {data : List (Fin d → ℝ)} {edges : EdgeArg}
    (hedges : edges = .none ∨ ∃ n : ℤ, 0 < n ∧ edges = .int n) {E : List (List ℝ)}
    (h : parseEdges srt data edges none none 5 1000 none 1 none = .ok E) (i : Fin d) : EqualWidths (E.getD i []) := by
  obtain ⟨-, ext, -, hE⟩ := C45_edges srt data edges none none 5 1000 none 1 none (by norm_num) E h
  have key : ∃ (l : List ℝ) (n : ℕ) (a b : ℝ), E[(i : ℕ)]? = some l ∧ EquallySpaced l n a b := by
    obtain rfl | ⟨n, hn, rfl⟩ := hedges
    · obtain ⟨l, e1, n, w, _, e3, e4, e5⟩ := hE i .auto rfl
      exact ⟨l, _, _, _, e1, e5 (lt_of_lt_of_le (by norm_num) (e3 (by norm_num)))⟩
    · obtain ⟨l, e1, _, w, e4, e5⟩ := hE i (.int n) rfl
      exact ⟨l, _, _, _, e1, e5 hn⟩
  obtain ⟨l, n, a, b, e1, e2, e3⟩ := key
  have eg : E.getD i [] = l := by rw [List.getD_eq_getElem?_getD, e1]; rfl
  rw [eg]
  refine ⟨(b - a) / n, fun k hk => ?_⟩
  rw [List.getD_eq_getElem?_getD, List.getD_eq_getElem?_getD, e3 (k + 1) (by omega), e3 k (by omega)]
  simp only [Option.getD_some]
  push_cast
  ring

lemma empty_density {data : List (Fin 2 → ℝ)} {weights : Option (List ℝ)} {ex ey : List ℝ} {i j : ℕ}
    (h : ∀ p ∈ data, ¬ InCell ex ey i j p) : cellDensity data weights ex ey i j = 0 := by
  have : weightWhere (InCell ex ey i j) data weights = 0 := by
    unfold weightWhere
    refine List.sum_eq_zero fun y hy => ?_
    obtain ⟨z, hz, rfl⟩ := List.mem_map.mp hy
    rw [if_neg (h _ (List.of_mem_zip hz).1)]
  rw [cellDensity, this, zero_div, zero_div]

/-- **C106** as claimed: the level of each quantile encloses this fraction of the data. -/
def C106_Claim : Prop :=
  ∀ (srt : List ℝ → List ℕ) (data : List (Fin 2 → ℝ)) (edges : EdgeArg) (weights : Option (List ℝ)) (qs : List ℝ) (pad : PadArg) (C : ContourCmd),
    (∀ l, IsArgsort (srt l) l) → ValidWeights data.length weights → contour srt data edges weights (some qs) pad = .ok C →
    ∃ ex ey f, parseEdges srt data edges none none 5 1000 none 1 none = .ok [ex, ey] ∧ C.levels.Perm (qs.map f) ∧
      ∀ q ∈ qs, 0 ≤ q → Encloses data weights ex ey q (f q)

/-- **C106**, proved part: it holds for automatic edges and numbers of bins if there is no padding or a bin without data. -/
theorem C106_partial (srt : List ℝ → List ℕ) (hs : ∀ l, IsArgsort (srt l) l) (data : List (Fin 2 → ℝ)) (edges : EdgeArg)
    (hedges : edges = .none ∨ ∃ n : ℤ, 0 < n ∧ edges = .int n)
    (weights : Option (List ℝ)) (hw : ValidWeights data.length weights) (qs : List ℝ) (pad : PadArg) (C : ContourCmd)
    (h : contour srt data edges weights (some qs) pad = .ok C)
    (hpad : padNumber pad = 0 ∨ ∀ ex ey, parseEdges srt data edges none none 5 1000 none 1 none = .ok [ex, ey] →
      ∃ i j, i + 1 < ex.length ∧ j + 1 < ey.length ∧ ∀ p ∈ data, ¬ InCell ex ey i j p) :
    ∃ ex ey f, parseEdges srt data edges none none 5 1000 none 1 none = .ok [ex, ey] ∧ C.levels.Perm (qs.map f) ∧
      ∀ q ∈ qs, 0 ≤ q → Encloses data weights ex ey q (f q) := by
  classical
  obtain ⟨ex, ey, hist, v, s, q, h1, h2, h3, h4, h5, h6, -⟩ := contour_ok hs hw h
  obtain ⟨hx, hy, hxl, hyl, ht, hsh, hg⟩ := histogram2d_ok h2
  obtain ⟨hnn, hpos⟩ := histogram2d_facts hw h2
  obtain ⟨wx, hwx⟩ : EqualWidths ex := edges_equal hedges h1 0
  obtain ⟨wy, hwy⟩ : EqualWidths ey := edges_equal hedges h1 1
  have hval : ∀ idx, ValidIdx hist.shape idx → idx 0 < ex.length - 1 ∧ idx 1 < ey.length - 1 ∧
      hist.get idx = cellDensity data weights ex ey (idx 0) (idx 1) := by
    intro idx hv
    have a := hv 0
    have b := hv 1
    rw [hsh] at a b
    simp only [Matrix.cons_val_zero, Matrix.cons_val_one] at a b
    refine ⟨a, b, ?_⟩
    rw [← hg _ _ a b]
    congr 1
    funext k
    fin_cases k <;> rfl
  -- nothing in the padding
  have hv0 : 0 < padNumber pad → v = 0 := by
    intro h0
    obtain ⟨i, j, hi, hj, hemp⟩ := (hpad.resolve_left (by omega)) ex ey h1
    obtain ⟨⟨idx, hv, e⟩, hmin⟩ := h4 h0
    refine le_antisymm ?_ (by rw [← e]; exact hnn _ hv)
    have hval1 : ValidIdx hist.shape ![i, j] := by
      intro k
      rw [hsh]
      fin_cases k
      · show i < ex.length - 1
        omega
      · show j < ey.length - 1
        omega
    have := hmin _ hval1
    rw [hg i j (by omega) (by omega), empty_density hemp] at this
    exact this
  have hz0 : ∀ idx, ValidIdx C.z.shape idx → 0 ≤ C.z.get idx := by
    intro idx hv
    by_cases ho : ∃ i, idx i < padNumber pad ∨ padNumber pad + hist.shape i ≤ idx i
    · rw [h3.outside idx hv ho]
      rcases Nat.eq_zero_or_pos (padNumber pad) with h0 | h0
      · obtain ⟨i, hi⟩ := ho
        have := hv i
        rw [h3.shape] at this
        omega
      · rw [hv0 h0]
    · push Not at ho
      have e : (fun i => padNumber pad + (idx i - padNumber pad)) = idx := by
        funext i
        have := ho i
        omega
      have hv' : ValidIdx hist.shape fun i => idx i - padNumber pad := by
        intro i
        have := ho i
        show idx i - padNumber pad < hist.shape i
        omega
      have := h3.inside _ hv'
      rw [e] at this
      rw [this]
      exact hnn _ hv'
  -- sums of densities are weights of data
  set A := wx * wy with hA
  set T := weightWhere (fun p => InRangeOf ex (p 0) ∧ InRangeOf ey (p 1)) data weights with hT
  have hAp : 0 < A := by
    have := cellArea_pos hx hy (i := 0) (j := 0) (by omega) (by omega)
    rwa [cellArea, hwx 0 (by omega), hwy 0 (by omega)] at this
  have hTp : 0 < T := lt_of_le_of_ne (weightWhere_nonneg _ hw) (Ne.symm ht)
  have hden : ∀ i j, i < ex.length - 1 → j < ey.length - 1 →
      cellDensity data weights ex ey i j = weightWhere (InCell ex ey i j) data weights / (A * T) := by
    intro i j hi hj
    rw [cellDensity, cellArea, hwx i (by omega), hwy j (by omega), div_div]
  have sums : ∀ P : ℝ → Prop, ∑ idx ∈ validIdx C.z.shape, (if P (C.z.get idx) then C.z.get idx else 0) =
      weightInBins data weights ex ey (fun i j => P (cellDensity data weights ex ey i j)) / (A * T) := by
    intro P
    rw [padded_sum h3 (fun x => if P x then x else 0) (fun h0 => by simp [hv0 h0]), hsh,
      ← sum_bins (hx.imp le_of_lt) (hy.imp le_of_lt), Finset.sum_div]
    refine Finset.sum_congr rfl fun idx hi => ?_
    obtain ⟨a, b, e⟩ := hval idx (by rw [hsh]; exact validIdx_mem.mp hi)
    rw [e]
    split
    · exact hden _ _ a b
    · rw [zero_div]
  have total : C.z.sum = T / (A * T) := by
    have hall : (fun p : Fin 2 → ℝ => ∃ i j, InCell ex ey i j p ∧ True) = fun p => InRangeOf ex (p 0) ∧ InRangeOf ey (p 1) := by
      funext p
      refine propext ⟨?_, ?_⟩
      · rintro ⟨i, j, ⟨c1, c2⟩, -⟩
        exact ⟨countedIn_range (hx.imp le_of_lt) c1, countedIn_range (hy.imp le_of_lt) c2⟩
      · rintro ⟨c1, c2⟩
        obtain ⟨i, _, hi⟩ := countedIn_exists (hx.imp le_of_lt) hxl c1
        obtain ⟨j, _, hj⟩ := countedIn_exists (hy.imp le_of_lt) hyl c2
        exact ⟨i, j, ⟨hi, hj⟩, trivial⟩
    have := sums fun _ => True
    simp only [if_true] at this
    unfold NDArr.sum
    rw [this, weightInBins, hall]
  have hAT : 0 < A * T := mul_pos hAp hTp
  obtain ⟨levels, qs', s', f, l1, l2, _, _, l5, _, l7⟩ := C55_mass_partial C.z hz0 (by rw [total]; positivity) srt hs (some qs) none
  rw [h5] at l1
  cases l1
  cases l2 qs rfl
  refine ⟨ex, ey, f, h1, l5, fun q _ hq => ?_⟩
  obtain ⟨m1, m2⟩ := (l7 q).2 hq
  refine ⟨?_, fun m n hm hn hlt => ?_⟩
  · rw [sums fun x => f q < x, total, ← mul_div_assoc, div_le_div_iff_of_pos_right hAT] at m1
    exact m1
  · have hv' : ValidIdx hist.shape ![m, n] := by
      intro k
      rw [hsh]
      fin_cases k
      · show m < ex.length - 1
        omega
      · show n < ey.length - 1
        omega
    have e : C.z.get (fun i => padNumber pad + ![m, n] i) = cellDensity data weights ex ey m n := by
      rw [h3.inside _ hv', hg m n (by omega) (by omega)]
    have := m2 (fun i => padNumber pad + ![m, n] i) (fun i => by
      rw [h3.shape]
      have := hv' i
      show padNumber pad + ![m, n] i < _
      omega) (by rw [e]; exact hlt)
    rw [e, sums fun x => cellDensity data weights ex ey m n ≤ x, total, ← mul_div_assoc, div_lt_div_iff_of_pos_right hAT] at this
    exact this

lemma weightWhere_cons {P : (Fin 2 → ℝ) → Prop} [DecidablePred P] (x : Fin 2 → ℝ) (l : List (Fin 2 → ℝ)) :
    weightWhere P (x :: l) none = (if P x then 1 else 0) + weightWhere P l none := by
  unfold weightWhere
  simp only [Option.getD_none, List.map_cons, List.zip_cons_cons, List.sum_cons]

lemma weightWhere_nil {P : (Fin 2 → ℝ) → Prop} : weightWhere P [] none = 0 := by simp [weightWhere]

/-- **C106** fails: three of four data are in the first of two bins.  Padding by one cell adds ten cells with the density of the second
bin, so that the first bin counts 3/14, not 3/4; the contour for the fraction 3/10 is at the density of the second bin. -/
theorem C106_refuted : ¬ C106_Claim := by
  classical
  intro hc
  obtain ⟨srt, hs⟩ := exists_argsort
  let data : List (Fin 2 → ℝ) := [![1 / 2, 1 / 2], ![1 / 2, 1 / 2], ![1 / 2, 1 / 2], ![3 / 2, 1 / 2]]
  let ex : List ℝ := [0, 1, 2]
  let ey : List ℝ := [0, 1]
  let edges : EdgeArg := .list [.arr ex, .arr ey]
  have hE : parseEdges srt data edges none none 5 1000 none 1 none = .ok [ex, ey] := by
    obtain ⟨dat, hdat⟩ : ∃ dat, parseExtremaOf data none = .ok dat := ⟨_, rfl⟩
    have hsp : edgeSpecs 2 edges = .ok [.arr ex, .arr ey] := by simp [edgeSpecs, edges, EdgeSpec.scalar]
    have hf : (finSeq fun i : Fin 2 => getEdges1d srt (([.arr ex, .arr ey] : List EdgeSpec).getD i .auto) (dataRow data i) (dat i)
        none 2 5 1000 1 1 none) = .ok ![ex, ey] := by
      rw [finSeq_ok]
      intro i
      fin_cases i <;> rfl
    simp only [parseEdges, hdat, hsp, Option.isNone_none, if_true, Option.getD_none, Option.map_none, hf]
    rfl
  have c0 : ∀ x, CountedIn ex 0 x ↔ 0 ≤ x ∧ x < 1 := by intro x; simp [CountedIn, ex]
  have c1 : ∀ x, CountedIn ex 1 x ↔ 1 ≤ x ∧ (x < 2 ∨ x = 2) := by intro x; simp [CountedIn, ex]
  have d0 : ∀ x, CountedIn ey 0 x ↔ 0 ≤ x ∧ (x < 1 ∨ x = 1) := by intro x; simp [CountedIn, ey]
  have rx : ∀ x, InRangeOf ex x ↔ 0 ≤ x ∧ x ≤ 2 := by intro x; simp [InRangeOf, ex]
  have ry : ∀ x, InRangeOf ey x ↔ 0 ≤ x ∧ x ≤ 1 := by intro x; simp [InRangeOf, ey]
  have hT : weightWhere (fun p => InRangeOf ex (p 0) ∧ InRangeOf ey (p 1)) data none = 4 := by
    simp only [data, weightWhere_cons, weightWhere_nil, rx, ry]
    norm_num
  have h00 : cellDensity data none ex ey 0 0 = 3 / 4 := by
    rw [cellDensity, hT]
    simp only [data, weightWhere_cons, weightWhere_nil, InCell, c0, d0, cellArea, ex, ey]
    norm_num
  have h10 : cellDensity data none ex ey 1 0 = 1 / 4 := by
    rw [cellDensity, hT]
    simp only [data, weightWhere_cons, weightWhere_nil, InCell, c1, d0, cellArea, ex, ey]
    norm_num
  obtain ⟨hist, hh⟩ := histogram2d_success (pts := data) (ex := ex) (ey := ey) (weights := none) (by simp) (by simp [ex])
    (by simp [ey]) (by simp [ex]) (by simp [ey]) (by rw [hT]; norm_num)
  have hw : ValidWeights data.length none := trivial
  obtain ⟨hx, hy, hxl, hyl, _, hsh, _⟩ := histogram2d_ok hh
  obtain ⟨C, _, _, _, hC, _⟩ := drawContour2d_success hs hx hy hxl hyl (histogram2d_facts hw hh).1 (Or.inr hsh) (some [3 / 10]) .auto
  have hcon : contour srt data edges none (some [3 / 10]) .auto = .ok C := by
    unfold contour
    rw [hE]
    simp only
    rw [show histogram2d data ([ex, ey].getD 0 []) ([ex, ey].getD 1 []) none = .ok hist from hh]
    exact hC
  obtain ⟨ex', ey', v, f, e1, e2, _, _, e5, e6, e7, e8, e9, _, e11, e12⟩ := C106_drawn srt hs data edges none hw [3 / 10] .auto C hcon
  rw [hE] at e1
  cases e1
  obtain ⟨ex', ey', f', e1, l1, l2⟩ := hc srt data edges none [3 / 10] .auto C hs hw hcon
  rw [hE] at e1
  cases e1
  have hff : f' (3 / 10) = f (3 / 10) := by
    have := l1.symm.trans e11
    simpa using this
  have hn : padNumber .auto = 1 := rfl
  rw [hn] at e5 e6 e7 e8 e9
  have e5' : C.x.length = 4 := e5
  have e6' : C.y.length = 3 := e6
  obtain ⟨⟨i, j, hi, hj, hv⟩, hmin⟩ := e9 (by norm_num)
  have hi' : i < 2 := by have : i + 1 < 3 := hi; omega
  obtain rfl : j = 0 := by have : j + 1 < 2 := hj; omega
  have hv4 : v = 1 / 4 := by
    refine le_antisymm ?_ ?_
    · rw [← h10]
      exact hmin 1 0 (by simp [ex]) (by simp [ey])
    · rw [← hv]
      interval_cases i
      · rw [h00]; norm_num
      · rw [h10]
  rw [hv4] at e8
  have g0 : C.z.get ![1, 1] = 3 / 4 := by rw [← h00]; exact (e7 0 0 (by simp [ex]) (by simp [ey])).2.2
  have g1 : C.z.get ![2, 1] = 1 / 4 := by rw [← h10]; exact (e7 1 0 (by simp [ex]) (by simp [ey])).2.2
  have hflat : C.z.flat = [1 / 4, 1 / 4, 1 / 4, 1 / 4, 3 / 4, 1 / 4, 1 / 4, 1 / 4, 1 / 4, 1 / 4, 1 / 4, 1 / 4] := by
    rw [e5', e6'] at e2
    have e8' : ∀ m n, m < 4 → n < 3 → (m < 1 ∨ 4 ≤ m + 1 ∨ n < 1 ∨ 3 ≤ n + 1) → C.z.get ![m, n] = 1 / 4 := by
      intro m n hm hn ho
      exact e8 m n (by omega) (by omega) (by omega)
    have hsz : C.z.size = 12 := by rw [NDArr.size, e2]; rfl
    rw [NDArr.flat, hsz, e2]
    simp only [List.range_succ, List.range_zero, List.nil_append, List.cons_append, List.map_cons, List.map_nil]
    rw [show unravelIdx ![4, 3] 0 = ![0, 0] by decide, show unravelIdx ![4, 3] 1 = ![0, 1] by decide, show unravelIdx ![4, 3] 2 = ![0, 2] by decide,
      show unravelIdx ![4, 3] 3 = ![1, 0] by decide, show unravelIdx ![4, 3] 4 = ![1, 1] by decide, show unravelIdx ![4, 3] 5 = ![1, 2] by decide,
      show unravelIdx ![4, 3] 6 = ![2, 0] by decide, show unravelIdx ![4, 3] 7 = ![2, 1] by decide, show unravelIdx ![4, 3] 8 = ![2, 2] by decide,
      show unravelIdx ![4, 3] 9 = ![3, 0] by decide, show unravelIdx ![4, 3] 10 = ![3, 1] by decide, show unravelIdx ![4, 3] 11 = ![3, 2] by decide,
      g0, g1]
    rw [e8' 0 0, e8' 0 1, e8' 0 2, e8' 1 0, e8' 1 2, e8' 2 0, e8' 2 2, e8' 3 0, e8' 3 1, e8' 3 2] <;> norm_num
  have hrank : IsRanking (3 / 4 :: List.replicate 11 (1 / 4)) C.z.flat := by
    rw [hflat]
    refine ⟨?_, ?_⟩
    · have : ([1 / 4, 1 / 4, 1 / 4, 1 / 4, 3 / 4, 1 / 4, 1 / 4, 1 / 4, 1 / 4, 1 / 4, 1 / 4, 1 / 4] : List ℝ) =
        List.replicate 4 (1 / 4) ++ 3 / 4 :: List.replicate 7 (1 / 4) := rfl
      rw [this]
      exact (List.perm_middle (a := (3 / 4 : ℝ)) (l₁ := List.replicate 4 (1 / 4)) (l₂ := List.replicate 7 (1 / 4))).symm
    · rw [List.pairwise_cons]
      refine ⟨fun y hy => ?_, List.pairwise_replicate.mpr (Or.inr le_rfl)⟩
      rw [List.eq_of_mem_replicate hy]
      norm_num
  have hf4 : f (3 / 10) = 1 / 4 := by
    obtain ⟨k, hk, h1, -, h3⟩ := e12 _ hrank (3 / 10)
    cases k with
    | zero =>
      exfalso
      have := h3 (by simp)
      norm_num [List.replicate] at this
    | succ k =>
      rw [← h1, List.getD_cons_succ, List.getD_eq_getElem _ _ (by simp at hk ⊢; omega), List.getElem_replicate]
  have := (l2 (3 / 10) (by simp) (by norm_num)).1
  rw [hff, hf4, hT, weightInBins] at this
  have hp : ∃ i j, InCell ex ey i j ![1 / 2, 1 / 2] ∧ 1 / 4 < cellDensity data none ex ey i j := by
    refine ⟨0, 0, ⟨(c0 _).mpr ?_, (d0 _).mpr ?_⟩, ?_⟩
    · norm_num
    · norm_num
    · rw [h00]; norm_num
  have hge : (3 : ℝ) ≤ weightWhere (fun p => ∃ i j, InCell ex ey i j p ∧ 1 / 4 < cellDensity data none ex ey i j) data none := by
    conv_rhs => arg 2; simp only [data]
    rw [weightWhere_cons, weightWhere_cons, weightWhere_cons, weightWhere_cons, weightWhere_nil, if_pos hp]
    split <;> norm_num
  norm_num at this
  linarith

/-- Hypotheses of `C106_succeeds`, `C106_drawn` and `C106_partial`: a diagonal of three points in three by three bins. -/
example : ∃ (srt : List ℝ → List ℕ) (C : ContourCmd), (∀ l, IsArgsort (srt l) l) ∧
    contour srt [![0, 0], ![1, 1], ![2, 3]] .none (some [1, 0, 2]) (some [1 / 2, 9 / 10]) .off = .ok C := by
  obtain ⟨srt, hs⟩ := exists_argsort
  obtain ⟨C, hC⟩ := C106_succeeds srt hs [![0, 0], ![1, 1], ![2, 3]] (by simp) .none (Or.inl rfl) (some [1, 0, 2])
    (by simp [ValidWeights]; norm_num) (by
      intro i
      refine ⟨![0, 0], by simp, ![1, 1], by simp, ?_⟩
      fin_cases i <;> norm_num) (some [1 / 2, 9 / 10]) .off
  exact ⟨srt, C, hs, hC⟩

end Kalepy
