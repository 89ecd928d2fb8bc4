import Verif.Props.Edges

/-!
# C45 for ranges of zero width: identical data, equal extrema
-/

namespace Kalepy

open Spec

variable {d : ℕ}

/-- `x` agrees with `c` within the tolerances of `np.allclose`. -/
def Spec.Close (x c : ℝ) : Prop := |x - c| ≤ 1 / 10 ^ 8 + 1 / 10 ^ 5 * |c|

lemma allClose_iff (l : List ℝ) : allClose l = true ↔ ∀ x ∈ l, Close x (l.getD 0 0) := by
  simp [allClose, Close]

/-- When a number of bins can be guessed. -/
lemma guessEdges_iff {srt : List ℝ → List ℕ} (hs : ∀ l, IsArgsort (srt l) l) {data : List ℝ} (hne : data ≠ [])
    (ext : ℝ × ℝ) {weights : Option (List ℝ)} (hw : ValidWeights data.length weights) (ndim : ℕ) (nmin nmax : ℤ)
    (refine : ℝ) (bw : Option ℝ) :
    ((ext.1 < ext.2 ∨ ∀ x ∈ data, Close x (data.getD 0 0)) →
      ∃ n w, guessEdges srt data ext weights ndim nmin nmax refine bw = .ok (n, w) ∧ min nmin nmax ≤ n) ∧
    ((¬ (ext.1 < ext.2 ∨ ∀ x ∈ data, Close x (data.getD 0 0))) →
      guessEdges srt data ext weights ndim nmin nmax refine bw = .error .valueError) := by
  obtain ⟨neff, e1, e2⟩ := guessNeff_ge hne hw
  obtain ⟨q, e3⟩ := iqrange_ok hs hne hw
  have hred := reduceNeff_ge ndim e2
  have hlog : 0 ≤ Real.logb 2 (reduceNeff ndim neff) := Real.logb_nonneg (by norm_num) hred
  have hn : ∀ k : ℤ, min nmin nmax ≤ min (max k nmin) nmax := fun k =>
    min_le_min_right _ (le_max_right _ _)
  unfold guessEdges
  simp only [e1, e3]
  rw [if_neg (by linarith)]
  generalize hW : guessWidths (ext.2 - ext.1) q (reduceNeff ndim neff) bw = W
  by_cases hspan : ext.1 < ext.2
  · refine ⟨fun _ => ?_, fun h => absurd (Or.inl hspan) h⟩
    obtain ⟨w, e4⟩ := guessWidth_ok (data := data) (refine := refine) (widths := W)
      ⟨_, by rw [← hW]; exact List.mem_cons_self, div_pos (sub_pos.mpr hspan) (by linarith)⟩
    simp only [e4, spanWidth, if_pos (sub_pos.mpr hspan)]
    exact ⟨_, _, rfl, hn _⟩
  · have hspan' : ¬ 0 < ext.2 - ext.1 := by linarith
    by_cases hc : allClose data = true
    · refine ⟨fun _ => ?_, fun h => absurd (Or.inr ((allClose_iff data).mp hc)) h⟩
      have : ∃ w, guessWidth data W refine = .ok w := by
        unfold guessWidth
        split
        · exact ⟨_, rfl⟩
        · rw [if_pos hc]; exact ⟨_, rfl⟩
      obtain ⟨w, e4⟩ := this
      simp only [e4, spanWidth, if_neg hspan', if_pos hc]
      exact ⟨_, _, rfl, hn _⟩
    · refine ⟨fun h => ?_, fun _ => ?_⟩
      · rcases h with h | h
        · exact absurd h hspan
        · exact absurd ((allClose_iff data).mpr h) hc
      · have : guessWidth data W refine = .error .valueError ∨ ∃ w, guessWidth data W refine = .ok w := by
          unfold guessWidth
          split
          · exact Or.inr ⟨_, rfl⟩
          · rw [if_neg hc]; exact Or.inl rfl
        obtain e4 | ⟨w, e4⟩ := this
        · simp only [e4]
        · simp only [e4, spanWidth, if_neg hspan', if_neg hc]

/-- A sequence over the dimensions in which every element succeeds or gives the same error. -/
lemma finSeq_same_error {α : Type} {e : PyErr} {d : ℕ} {f : Fin d → Res α}
    (h : ∀ i, (∃ a, f i = .ok a) ∨ f i = .error e) :
    (∃ g, finSeq f = .ok g) ∨ finSeq f = .error e := by
  induction d with
  | zero => exact Or.inl ⟨Fin.elim0, rfl⟩
  | succ d ih =>
    rw [finSeq]
    obtain ⟨a, ha⟩ | ha := h 0
    · obtain ⟨g, hg⟩ | hg := ih (f := fun i => f i.succ) fun i => h i.succ
      · simp only [ha, hg]; exact Or.inl ⟨_, rfl⟩
      · simp [ha, hg]
    · simp [ha]

/-- **C45**, exactly when edges are returned: with valid weights and automatic edges or a non-negative number of bins,
`parse_edges` succeeds if and only if in every dimension the extrema have a positive range or all data agree with the
first one (within the tolerances of `np.allclose`).  Otherwise it raises `ValueError`. -/
theorem C45_succeeds_iff (srt : List ℝ → List ℕ) (hs : ∀ l, IsArgsort (srt l) l)
    (x₀ : Fin d → ℝ) (data : List (Fin d → ℝ)) (edges : EdgeArg)
    (hedges : edges = .none ∨ ∃ n : ℤ, 0 ≤ n ∧ edges = .int n) (extrema : Option (List ExtElem))
    (weights : Option (List ℝ)) (hw : ValidWeights (x₀ :: data).length weights) (nmin nmax : ℤ) (h0 : 0 ≤ nmin)
    (h1 : nmin ≤ nmax) (pad : Option ℝ) (refine : ℝ) (bw : Option (Matrix (Fin d) (Fin d) ℝ))
    (ext : Fin d → ℝ × ℝ) (hext : parseExtremaOf (x₀ :: data) extrema = .ok ext) :
    ((∃ E, parseEdges srt (x₀ :: data) edges extrema weights nmin nmax pad refine bw = .ok E) ↔
      ∀ i, (ext i).1 < (ext i).2 ∨ ∀ x ∈ data, Close (x i) (x₀ i)) ∧
    ((¬ ∀ i, (ext i).1 < (ext i).2 ∨ ∀ x ∈ data, Close (x i) (x₀ i)) →
      parseEdges srt (x₀ :: data) edges extrema weights nmin nmax pad refine bw = .error .valueError) := by
  have hclose : ∀ i : Fin d, (∀ x ∈ dataRow (x₀ :: data) i, Close x ((dataRow (x₀ :: data) i).getD 0 0)) ↔
      ∀ x ∈ data, Close (x i) (x₀ i) := by
    intro i
    have h00 : Close (x₀ i) (x₀ i) := by
      unfold Close
      rw [sub_self, abs_zero]
      positivity
    simp [dataRow, h00]
  have hguess := fun i : Fin d => guessEdges_iff hs (data := dataRow (x₀ :: data) i) (by simp [dataRow]) (ext i)
    (weights := weights) (by simpa [dataRow] using hw) d nmin nmax refine (bw.map fun b => b i i)
  simp only [hclose, min_eq_left h1] at hguess
  have key : ∀ spec : EdgeSpec, (spec = .auto ∨ ∃ n : ℤ, 0 ≤ n ∧ spec = .int n) → ∀ i : Fin d,
      (((ext i).1 < (ext i).2 ∨ ∀ x ∈ data, Close (x i) (x₀ i)) → ∃ l, getEdges1d srt spec (dataRow (x₀ :: data) i)
        (ext i) weights d nmin nmax (pad.getD (if extrema.isNone then 1 else 0)) refine (bw.map fun b => b i i) = .ok l) ∧
      ((¬ ((ext i).1 < (ext i).2 ∨ ∀ x ∈ data, Close (x i) (x₀ i))) → getEdges1d srt spec (dataRow (x₀ :: data) i)
        (ext i) weights d nmin nmax (pad.getD (if extrema.isNone then 1 else 0)) refine (bw.map fun b => b i i) =
          .error .valueError) := by
    intro spec hspec i
    refine ⟨fun hi => ?_, fun hi => ?_⟩
    · obtain ⟨n, w, e, hn⟩ := (hguess i).1 hi
      obtain rfl | ⟨m, hm, rfl⟩ := hspec
      all_goals
        simp only [getEdges1d, e]
        rw [if_neg (by omega), if_neg (by omega)]
        exact ⟨_, rfl⟩
    · have e := (hguess i).2 hi
      obtain rfl | ⟨m, hm, rfl⟩ := hspec
      all_goals simp only [getEdges1d, e]
  have fin : ∀ spec : EdgeSpec, (spec = .auto ∨ ∃ n : ℤ, 0 ≤ n ∧ spec = .int n) →
      edgeSpecs d edges = .ok (List.replicate d spec) →
      ((∃ E, parseEdges srt (x₀ :: data) edges extrema weights nmin nmax pad refine bw = .ok E) ↔
        ∀ i, (ext i).1 < (ext i).2 ∨ ∀ x ∈ data, Close (x i) (x₀ i)) ∧
      ((¬ ∀ i, (ext i).1 < (ext i).2 ∨ ∀ x ∈ data, Close (x i) (x₀ i)) →
        parseEdges srt (x₀ :: data) edges extrema weights nmin nmax pad refine bw = .error .valueError) := by
    intro spec hspec hes
    have hsp : ∀ i : Fin d, (List.replicate d spec).getD i .auto = spec := by
      intro i; simp [List.getD_eq_getElem?_getD]
    simp only [parseEdges, hext, hes, hsp]
    have hk := key spec hspec
    have hall := finSeq_same_error (e := .valueError) (f := fun i : Fin d => getEdges1d srt spec
        (dataRow (x₀ :: data) i) (ext i) weights d nmin nmax (pad.getD (if extrema.isNone then 1 else 0)) refine
        (bw.map fun b => b i i)) (fun i => by
      by_cases hi : (ext i).1 < (ext i).2 ∨ ∀ x ∈ data, Close (x i) (x₀ i)
      · exact Or.inl ((hk i).1 hi)
      · exact Or.inr ((hk i).2 hi))
    by_cases hA : ∀ i, (ext i).1 < (ext i).2 ∨ ∀ x ∈ data, Close (x i) (x₀ i)
    · refine ⟨⟨fun _ => hA, fun _ => ?_⟩, fun h => absurd hA h⟩
      choose g hg using fun i => (hk i).1 (hA i)
      rw [finSeq_ok.mpr hg]
      exact ⟨_, rfl⟩
    · have herr : finSeq (fun i : Fin d => getEdges1d srt spec
          (dataRow (x₀ :: data) i) (ext i) weights d nmin nmax (pad.getD (if extrema.isNone then 1 else 0)) refine
          (bw.map fun b => b i i)) = .error .valueError := by
        obtain ⟨g, hg⟩ | h := hall
        · exfalso
          rw [finSeq_ok] at hg
          push Not at hA
          obtain ⟨i, hi⟩ := hA
          have e := (hk i).2 (by push Not; exact hi)
          have := hg i
          rw [e] at this
          cases this
        · exact h
      rw [herr]
      exact ⟨⟨fun h => (by obtain ⟨E, hE⟩ := h; cases hE), fun h => absurd h hA⟩, fun _ => rfl⟩
  obtain rfl | ⟨n, hn, rfl⟩ := hedges
  · exact fin .auto (Or.inl rfl) rfl
  · exact fin (.int n) (Or.inr ⟨n, hn, rfl⟩) rfl

/-- Equal extrema `[3, 3]`: accepted for the data `1000`, `1000.01`, refused for `1000`, `1000.1`. -/
example (srt : List ℝ → List ℕ) (hs : ∀ l, IsArgsort (srt l) l) :
    (∃ E, parseEdges (d := 1) srt [![1000], ![1000 + 1 / 100]] .none (some [.num 3, .num 3]) none 5 1000 none 1 none =
      .ok E) ∧
    parseEdges (d := 1) srt [![1000], ![1000 + 1 / 10]] .none (some [.num 3, .num 3]) none 5 1000 none 1 none =
      .error .valueError := by
  obtain ⟨ext, hext, hx⟩ := C22_flat_given (d := 1) [![1000], ![1000 + 1 / 100]] (by simp) 3 3
  obtain ⟨ext', hext', hx'⟩ := C22_flat_given (d := 1) [![1000], ![1000 + 1 / 10]] (by simp) 3 3
  constructor
  · refine (C45_succeeds_iff srt hs ![1000] [![1000 + 1 / 100]] .none (Or.inl rfl) _ none trivial 5 1000 (by norm_num)
      (by norm_num) none 1 none ext hext).1.mpr ?_
    intro i
    right
    simp only [List.mem_singleton, forall_eq, Close]
    fin_cases i
    norm_num [abs_of_pos]
  · refine (C45_succeeds_iff srt hs ![1000] [![1000 + 1 / 10]] .none (Or.inl rfl) _ none trivial 5 1000 (by norm_num)
      (by norm_num) none 1 none ext' hext').2 ?_
    intro h
    rcases h 0 with h | h
    · simp [hx'] at h
    · simp only [List.mem_singleton, forall_eq, Close] at h
      norm_num [abs_of_pos] at h

/-! ### identical data -/

lemma npInterp_const {x c : ℝ} {xp fp : List ℝ} (h : ∀ y ∈ fp, y = c) (hl : xp.length = fp.length) (hne : fp ≠ []) :
    npInterp x xp fp = c := by
  have hg : ∀ j, j < fp.length → fp.getD j 0 = c := by
    intro j hj
    rw [List.getD_eq_getElem _ _ hj]
    exact h _ (List.getElem_mem hj)
  have hpos := List.length_pos_iff.mpr hne
  have hle : searchRight xp x ≤ xp.length := by
    unfold searchRight; exact List.countP_le_length
  unfold npInterp
  split
  · exact hg 0 hpos
  · rename_i j hj
    rw [hj] at hle
    split_ifs with h1 h2
    · exact hg j (by omega)
    · exact hg j (by omega)
    · rw [hg j (by omega), hg (j + 1) (by omega)]
      simp

lemma iqrange_const {srt : List ℝ → List ℕ} (hs : ∀ l, IsArgsort (srt l) l) {data : List ℝ} (hne : data ≠ [])
    {c : ℝ} (hc : ∀ x ∈ data, x = c) {weights : Option (List ℝ)} (hw : ValidWeights data.length weights) :
    iqrange srt data weights = .ok 0 := by
  have main : ∀ ws : List ℝ, ws.length = data.length → 0 < ws.sum → iqrange srt data (some ws) = .ok 0 := by
    intro ws hl hsum
    unfold iqrange
    rw [quantiles_eq (percs := [3 / 4, 1 / 4]) (hs data) hl hne hsum.ne' (by
      intro p hp; simp only [List.mem_cons, List.not_mem_nil, or_false] at hp
      rcases hp with rfl | rfl <;> constructor <;> norm_num)]
    have hv : ∀ y ∈ (srt data).map (fun i => data.getD i 0), y = c := by
      intro y hy
      exact hc y ((hs data).perm.mem_iff.mp hy)
    have hlen : (quantileGrid ((srt data).map fun i => ws.getD i 0)).length =
        ((srt data).map fun i => data.getD i 0).length := by
      rw [quantileGrid_length]; simp
    have hne' : (srt data).map (fun i => data.getD i 0) ≠ [] := by
      intro h
      have := (hs data).perm.length_eq
      rw [h] at this
      exact hne (List.length_eq_zero_iff.mp this.symm)
    simp only [List.map_cons, List.map_nil, npInterp_const hv hlen hne']
    simp
  cases weights with
  | some w => exact main w hw.1 hw.2.2
  | none =>
    have := main (data.map fun _ => 1) (by simp) (by simpa using List.length_pos_iff.mpr hne)
    exact this

/-- **C45** for identical data: if all data agree in dimension `i` and no bandwidth is given, the automatic edges of
this dimension are ten bins (within the limits `nmin`, `nmax`), from `pad * 1e-16` below the common value to
`pad * 1e-16` above it.  So they are all equal if `pad` is zero. -/
theorem C45_identical (srt : List ℝ → List ℕ) (hs : ∀ l, IsArgsort (srt l) l)
    (data : List (Fin d → ℝ)) (hne : data ≠ []) (weights : Option (List ℝ)) (hw : ValidWeights data.length weights)
    (nmin nmax : ℤ) (h0 : 0 < nmin) (h1 : nmin ≤ nmax) (pad : Option ℝ) (refine : ℝ) (E : List (List ℝ))
    (hE : parseEdges srt data .none none weights nmin nmax pad refine none = .ok E) (i : Fin d) (c : ℝ)
    (hc : ∀ x ∈ data, x i = c) :
    ∃ l, E[(i : ℕ)]? = some l ∧ EquallySpaced l (min (max 10 nmin) nmax).toNat
      (c - pad.getD 1 * (1 / 10 ^ 16)) (c + pad.getD 1 * (1 / 10 ^ 16)) := by
  obtain ⟨ext, hext, hx⟩ := C22_none data hne
  have hrow : ∀ x ∈ dataRow data i, x = c := by
    intro x hx
    obtain ⟨y, hy, rfl⟩ := List.mem_map.mp hx
    exact hc y hy
  have he1 : (ext i).1 = c := hrow _ (hx i).1
  have he2 : (ext i).2 = c := hrow _ (hx i).2.1
  have hnr : dataRow data i ≠ [] := by simpa [dataRow] using hne
  have hwr : ValidWeights (dataRow data i).length weights := by simpa [dataRow] using hw
  have hclose : allClose (dataRow data i) = true := by
    rw [allClose_iff]
    intro x hx
    have : (dataRow data i).getD 0 0 = c := by
      rw [List.getD_eq_getElem _ _ (List.length_pos_iff.mpr hnr)]
      exact hrow _ (List.getElem_mem _)
    rw [this, hrow x hx, Close, sub_self, abs_zero]
    positivity
  obtain ⟨neff, e1, e2⟩ := guessNeff_ge hnr hwr
  have hg : guessEdges srt (dataRow data i) (ext i) weights d nmin nmax refine none =
      .ok (min (max 10 nmin) nmax, 1 / 10 ^ 16) := by
    unfold guessEdges
    simp only [e1, iqrange_const hs hnr hrow hwr]
    rw [if_neg (by linarith)]
    have hW : (guessWidths ((ext i).2 - (ext i).1) 0 (reduceNeff d neff) none).filter (0 < ·) = [] := by
      simp [guessWidths, he1, he2]
    have hgw : guessWidth (dataRow data i) (guessWidths ((ext i).2 - (ext i).1) 0 (reduceNeff d neff) none) refine =
        .ok (1 / 10 ^ 16) := by
      unfold guessWidth
      rw [hW]
      simp only [if_pos hclose]
    simp only [hgw, spanWidth]
    rw [if_neg (by rw [he1, he2]; simp), if_pos hclose]
    have : ⌈(10 * (1 / 10 ^ 16) / (1 / 10 ^ 16) : ℝ)⌉ = 10 := by
      rw [show (10 * (1 / 10 ^ 16) / (1 / 10 ^ 16) : ℝ) = ((10 : ℤ) : ℝ) by norm_num, Int.ceil_intCast]
    simp only [this]
  unfold parseEdges at hE
  simp only [hext, edgeSpecs] at hE
  split at hE
  · cases hE
  · rename_i f hf
    cases hE
    rw [finSeq_ok] at hf
    have := hf i
    have hsp : (List.replicate d EdgeSpec.auto).getD i .auto = .auto := by simp [List.getD_eq_getElem?_getD]
    rw [hsp] at this
    have hpos : 0 < min (max 10 nmin) nmax := lt_min (lt_max_of_lt_left (by norm_num)) (by omega)
    simp only [getEdges1d, Option.map_none, hg] at this
    rw [if_neg (by omega), if_neg (by omega)] at this
    refine ⟨f i, by simp, ?_⟩
    rw [← Except.ok.inj this, he1, he2]
    simp only [Option.isNone_none, if_true]
    exact npLinspace_spec (c - pad.getD 1 * (1 / 10 ^ 16)) (c + pad.getD 1 * (1 / 10 ^ 16))
      (n := (min (max 10 nmin) nmax).toNat) (by omega)

/-- Two points that agree in the second parameter. -/
example (srt : List ℝ → List ℕ) (hs : ∀ l, IsArgsort (srt l) l) :
    ∃ E, parseEdges (d := 2) srt [![1, 7], ![4, 7]] .none none none 5 1000 none 1 none = .ok E ∧
      ∃ l, E[1]? = some l ∧ EquallySpaced l 10 (7 - 1 / 10 ^ 16) (7 + 1 / 10 ^ 16) := by
  obtain ⟨ext, hext, hx⟩ := C22_none [![(1 : ℝ), 7], ![4, 7]] (by simp)
  obtain ⟨E, hE⟩ := (C45_succeeds_iff srt hs ![1, 7] [![4, 7]] .none (Or.inl rfl) none none trivial 5 1000 (by norm_num)
      (by norm_num) none 1 none ext hext).1.mpr (by
    intro i
    have := hx i
    fin_cases i
    · left
      have h1 := this.2.2 1 (by simp)
      have h2 := this.2.2 4 (by simp)
      simp only [Fin.zero_eta, Fin.isValue] at h1 h2 ⊢
      linarith [h1.1, h2.2]
    · right
      simp only [List.mem_singleton, forall_eq, Close]
      norm_num)
  refine ⟨E, hE, ?_⟩
  obtain ⟨l, h1, h2⟩ := C45_identical srt hs _ (by simp) none trivial 5 1000 (by norm_num) (by norm_num) none 1 E hE 1 7
    (by simp)
  refine ⟨l, h1, ?_⟩
  simpa using h2

end Kalepy
