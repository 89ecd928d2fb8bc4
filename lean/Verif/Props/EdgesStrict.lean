import Verif.Props.EdgesRounded

/-!
# C144: when the edges are strictly increasing
-/

namespace Kalepy

open Spec

variable {p d : ℕ} {fl : ℝ → ℝ}

/-- The values of `np.linspace` are strictly increasing if the range is not too small. -/
lemma linspaceFl_strict (hp : 3 ≤ p) (hfl : Nearest p fl) {a b : ℝ} {n : ℕ} (hn : n ≤ 2 ^ (p - 3)) (hn0 : 0 < n)
    (hab : 16 * n * (1 / 2) ^ p * max |a| |b| < b - a) : (linspaceFl fl a b n).Pairwise (· < ·) := by
  have hu := hfl.accurate (by omega)
  set u : ℝ := (1 / 2) ^ p with hudef
  have hu0 : 0 ≤ u := by positivity
  have hnu : (n : ℝ) * u ≤ 1 / 8 := half_pow_mul_le hp hn
  have hn0' : (0 : ℝ) < n := by exact_mod_cast hn0
  have hn1 : (1 : ℝ) ≤ n := by exact_mod_cast hn0
  have hu8 : u ≤ 1 / 8 := by nlinarith
  set M := max |a| |b| with hM
  have hM0 : 0 ≤ M := (abs_nonneg a).trans (le_max_left _ _)
  have hd0 : 0 < b - a := lt_of_le_of_lt (by positivity) hab
  have hdM : b - a ≤ 2 * M := by linarith [le_abs_self b, neg_abs_le a, le_max_left |a| |b|, le_max_right |a| |b|]
  set step := fl (fl (b - a) / n) with hstep
  have lower : ∀ x : ℝ, 0 ≤ x → (1 - u) * x ≤ fl x := by
    intro x hx
    have := hu x
    rw [abs_of_nonneg hx, abs_le] at this
    linarith [this.1]
  have hd : 0 ≤ fl (b - a) := fl_nonneg hfl hd0.le
  have hs0 : 0 ≤ step := fl_nonneg hfl (by positivity)
  have hup : n * step ≤ (1 + u) ^ 2 * (b - a) := by
    have e1 : fl (b - a) ≤ (1 + u) * (b - a) := accurate_le hu hd0.le
    have e2 : step ≤ (1 + u) * (fl (b - a) / n) := accurate_le hu (by positivity)
    calc n * step ≤ n * ((1 + u) * (fl (b - a) / n)) := by gcongr
      _ = (1 + u) * fl (b - a) := by field_simp
      _ ≤ (1 + u) * ((1 + u) * (b - a)) := by gcongr
      _ = _ := by ring
  have hlow : (1 - u) ^ 2 * (b - a) ≤ n * step := by
    have e1 := lower (b - a) hd0.le
    have e2 := lower (fl (b - a) / n) (by positivity)
    have hu' : 0 ≤ 1 - u := by linarith
    calc (1 - u) ^ 2 * (b - a) = (1 - u) * ((1 - u) * (b - a)) := by ring
      _ ≤ (1 - u) * fl (b - a) := by gcongr
      _ = n * ((1 - u) * (fl (b - a) / n)) := by field_simp
      _ ≤ n * step := by gcongr
  have hsq1 : (1 + u) ^ 2 ≤ 1 + 17 / 8 * u := by nlinarith
  have hsq2 : 3 / 4 ≤ (1 - u) ^ 2 := by nlinarith
  have hstep1 : 12 * u * M < step := by
    have : n * (12 * u * M) < n * step := by
      refine lt_of_lt_of_le ?_ hlow
      nlinarith
    exact lt_of_mul_lt_mul_left this hn0'.le
  -- the error of each value
  have herr : ∀ k : ℕ, k < n → |fl (fl (k * step) + a) - (k * step + a)| ≤ 5 * u * M := by
    intro k hk
    have hk' : (k : ℝ) + 1 ≤ n := by exact_mod_cast hk
    have hks0 : 0 ≤ k * step := by positivity
    have hks : k * step ≤ (1 + 17 / 8 * u) * (b - a) :=
      (mul_le_mul_of_nonneg_right (by linarith) hs0).trans (hup.trans (mul_le_mul_of_nonneg_right hsq1 hd0.le))
    have e1 := hu (k * step)
    rw [abs_of_nonneg hks0] at e1
    have e2 := hu (fl (k * step) + a)
    have e5 : (1 + 17 / 8 * u) * (b - a) ≤ 81 / 64 * (b - a) := mul_le_mul_of_nonneg_right (by linarith) hd0.le
    have e6 : k * step ≤ 81 / 64 * (b - a) := hks.trans e5
    have e4 : |fl (k * step) + a| ≤ 2 * M := by
      rw [abs_le] at e1 ⊢
      have ha1 : -M ≤ a := by linarith [neg_abs_le a, le_max_left |a| |b|]
      have hb1 : b ≤ M := by linarith [le_abs_self b, le_max_right |a| |b|]
      have e7 := fl_nonneg hfl hks0
      constructor
      · linarith
      · have : u * (k * step) ≤ 1 / 8 * (k * step) := mul_le_mul_of_nonneg_right hu8 hks0
        linarith [e1.2]
    rw [abs_le] at e1 e2 ⊢
    have e8 : u * (k * step) ≤ u * (81 / 64 * (b - a)) := mul_le_mul_of_nonneg_left e6 hu0
    have e9 : u * (81 / 64 * (b - a)) ≤ u * (81 / 32 * M) := mul_le_mul_of_nonneg_left (by linarith) hu0
    have e10 : u * |fl (k * step) + a| ≤ u * (2 * M) := mul_le_mul_of_nonneg_left e4 hu0
    have e11 : 0 ≤ u * M := by positivity
    constructor <;> linarith [e1.1, e1.2, e2.1, e2.2]
  have hval : linspaceFl fl a b n = (List.range n).map (fun k : ℕ => fl (fl (k * step) + a)) ++ [b] := by
    unfold linspaceFl
    rw [if_neg (by omega)]
  have hnM : 0 ≤ u * M := by positivity
  rw [hval, List.pairwise_append]
  refine ⟨?_, by simp, ?_⟩
  · rw [List.pairwise_map]
    refine (List.pairwise_lt_range (n := n)).imp_of_mem ?_
    intro i j hi hj hij
    have h1 := herr i (List.mem_range.mp hi)
    have h2 := herr j (List.mem_range.mp hj)
    rw [abs_le] at h1 h2
    have hij' : (i : ℝ) + 1 ≤ j := by exact_mod_cast hij
    have h3 : ((i : ℝ) + 1) * step ≤ j * step := mul_le_mul_of_nonneg_right hij' hs0
    rw [add_mul, one_mul] at h3
    linarith [h1.2, h2.1]
  · intro x hx y hy
    obtain ⟨k, hk, rfl⟩ := List.mem_map.mp hx
    rw [List.mem_singleton.mp hy]
    have hk1 := List.mem_range.mp hk
    have h1 := herr k hk1
    rw [abs_le] at h1
    have hk' : (k : ℝ) + 1 ≤ n := by exact_mod_cast hk1
    have h3 : ((k : ℝ) + 1) * step ≤ n * step := mul_le_mul_of_nonneg_right hk' hs0
    rw [add_mul, one_mul] at h3
    have h4 : n * step ≤ (b - a) + 17 / 8 * u * (b - a) := by
      have := mul_le_mul_of_nonneg_right hsq1 hd0.le
      linarith
    have h5 : u * (b - a) ≤ u * (2 * M) := mul_le_mul_of_nonneg_left hdM hu0
    linarith [h1.2]

private lemma edges_linspace (hfl : Nearest p fl) (srt : List ℝ → List ℕ) (data : List (Fin d → ℝ)) (edges : EdgeArg)
    (extrema : Option (List ExtElem)) (weights : Option (List ℝ)) (nmin nmax : ℤ) (h0 : 0 < nmin) (h1 : nmin ≤ nmax)
    (h2 : nmax ≤ 2 ^ (p - 3)) (pad : Option ℝ) (hpad : ∀ x ∈ pad, 0 ≤ x)
    (refine : ℝ) (bw : Option (Matrix (Fin d) (Fin d) ℝ)) (hr : 0 < refine) (ext : Fin d → ℝ × ℝ)
    (hext : parseExtremaOf data extrema = .ok ext) (hf : ∀ i, IsFloat p (ext i).1 ∧ IsFloat p (ext i).2)
    (hle : ∀ i, (ext i).1 ≤ (ext i).2) (E : List (List ℝ))
    (h : parseEdgesFl fl srt data edges extrema weights nmin nmax pad refine bw = .ok E) (i : Fin d) (spec : EdgeSpec)
    (ha : EdgesAsked d i spec edges)
    (hspec : spec = .auto ∨ ∃ m : ℤ, 0 < m ∧ m ≤ 2 ^ (p - 3) ∧ spec = .int m) :
    ∃ (a b : ℝ) (n : ℕ), E[(i : ℕ)]? = some (linspaceFl fl a b n) ∧ IsFloat p a ∧ IsFloat p b ∧ a ≤ b ∧ 0 < n ∧ n ≤ 2 ^ (p - 3) := by
  have hpad' : 0 ≤ pad.getD (if extrema.isNone then 1 else 0) := by
    cases pad with
    | none => simp only [Option.getD_none]; split_ifs <;> norm_num
    | some x => exact hpad x rfl
  unfold parseEdgesFl at h
  simp only [hext] at h
  split at h
  · cases h
  · rename_i specs hspecs
    split at h
    · cases h
    · rename_i f hfs
      cases h
      rw [finSeq_ok] at hfs
      have hfi := hfs i
      rw [edgeSpecs_asked hspecs i ha] at hfi
      generalize pad.getD (if extrema.isNone then 1 else 0) = q at hpad' hfi
      have key : ∀ (n : ℤ) (w : ℝ), 0 < n → n ≤ 2 ^ (p - 3) → 0 ≤ w →
          f i = linspaceFl fl (fl ((ext i).1 - fl (q * w))) (fl ((ext i).2 + fl (q * w))) n.toNat →
          ∃ (a b : ℝ) (n : ℕ), (List.ofFn f)[(i : ℕ)]? = some (linspaceFl fl a b n) ∧ IsFloat p a ∧ IsFloat p b ∧ a ≤ b ∧ 0 < n ∧ n ≤ 2 ^ (p - 3) := by
        intro n w hn hn' hw e
        have hqw : 0 ≤ fl (q * w) := fl_nonneg hfl (by positivity)
        have e1 : fl ((ext i).1 - fl (q * w)) ≤ (ext i).1 := by
          conv_rhs => rw [← hfl.fix (hf i).1]
          exact hfl.mono (by linarith)
        have e2 : (ext i).2 ≤ fl ((ext i).2 + fl (q * w)) := by
          conv_lhs => rw [← hfl.fix (hf i).2]
          exact hfl.mono (by linarith)
        have hn'' : n.toNat ≤ 2 ^ (p - 3) := by
          have : (n.toNat : ℤ) ≤ ((2 ^ (p - 3) : ℕ) : ℤ) := by
            rw [Int.toNat_of_nonneg hn.le]; push_cast; exact hn'
          exact_mod_cast this
        exact ⟨_, _, n.toNat, by simp [e], hfl.float _, hfl.float _, e1.trans ((hle i).trans e2), by omega, hn''⟩
      obtain rfl | ⟨m, hm, hm', rfl⟩ := hspec
      · simp only [getEdges1dFl] at hfi
        split at hfi
        · cases hfi
        · rename_i n w hg
          obtain ⟨b1, b2, b3⟩ := guessEdgesFl_ok hfl hr hg
          have b4 := b3 h1
          rw [if_neg (by omega), if_neg (by omega)] at hfi
          exact key n w (by omega) (by omega) b1 (Except.ok.inj hfi).symm
      · simp only [getEdges1dFl] at hfi
        split at hfi
        · cases hfi
        · rename_i n w hg
          obtain ⟨b1, b2, b3⟩ := guessEdgesFl_ok hfl hr hg
          rw [if_neg (by omega), if_neg (by omega)] at hfi
          exact key m w hm hm' b1 (Except.ok.inj hfi).symm

/-- **C144**, when the edges are strictly increasing, in floating point arithmetic: if there are `n` bins and the extrema are more than
`16 n` units of rounding of the larger of them apart (in double precision, for 1000 bins, more than `2 * 10^-12` of it), then the edges
are strictly increasing. -/
theorem C144_strict_partial (hp : 3 ≤ p) (hfl : Nearest p fl) (srt : List ℝ → List ℕ) (data : List (Fin d → ℝ)) (edges : EdgeArg)
    (extrema : Option (List ExtElem)) (weights : Option (List ℝ)) (nmin nmax : ℤ) (h0 : 0 < nmin) (h1 : nmin ≤ nmax)
    (h2 : nmax ≤ 2 ^ (p - 3)) (pad : Option ℝ) (hpad : ∀ x ∈ pad, 0 ≤ x)
    (refine : ℝ) (bw : Option (Matrix (Fin d) (Fin d) ℝ)) (hr : 0 < refine) (ext : Fin d → ℝ × ℝ)
    (hext : parseExtremaOf data extrema = .ok ext) (hf : ∀ i, IsFloat p (ext i).1 ∧ IsFloat p (ext i).2)
    (hle : ∀ i, (ext i).1 ≤ (ext i).2) (E : List (List ℝ))
    (h : parseEdgesFl fl srt data edges extrema weights nmin nmax pad refine bw = .ok E) (i : Fin d) (spec : EdgeSpec)
    (ha : EdgesAsked d i spec edges)
    (hspec : spec = .auto ∨ ∃ m : ℤ, 0 < m ∧ m ≤ 2 ^ (p - 3) ∧ spec = .int m)
    (l : List ℝ) (hl : E[(i : ℕ)]? = some l) (n : ℕ) (hn : l.length = n + 1) (hn4 : 16 * n ≤ 2 ^ p)
    (hrange : 16 * n * (1 / 2) ^ p * max |(ext i).1| |(ext i).2| < (ext i).2 - (ext i).1) : l.Pairwise (· < ·) := by
  obtain ⟨a, b, n', e, ha', hb', hab, hn0, hn'⟩ := edges_linspace hfl srt data edges extrema weights nmin nmax h0 h1 h2 pad hpad refine bw hr ext
    hext hf hle E h i spec ha hspec
  obtain rfl : l = linspaceFl fl a b n' := Option.some.inj (hl.symm.trans e)
  obtain ⟨q1, -, q3, q4⟩ := linspaceFl_spec hp hfl ha' hb' hab hn' hn0
  obtain rfl : n = n' := by omega
  obtain ⟨l', hl', n', c1, -, ⟨a', c3, c4⟩, ⟨b', c5, c6⟩, -⟩ := C144_partial hp hfl srt data edges extrema weights nmin nmax h0 h1 h2 pad hpad refine bw hr ext
    hext hf hle E h i spec ha hspec
  obtain rfl : l' = linspaceFl fl a b n := Option.some.inj (hl'.symm.trans hl)
  obtain rfl : n = n' := by omega
  obtain rfl : a' = a := Option.some.inj (c3.symm.trans q3)
  obtain rfl : b' = b := Option.some.inj (c5.symm.trans q4)
  refine linspaceFl_strict hp hfl hn' hn0 ?_
  have hu : 16 * (n : ℝ) * (1 / 2) ^ p ≤ 1 := by
    have : (16 : ℝ) * n ≤ 2 ^ p := by exact_mod_cast hn4
    rw [one_div, inv_pow, ← div_eq_mul_inv, div_le_one (by positivity)]
    exact this
  have hu0 : 0 ≤ 16 * (n : ℝ) * (1 / 2) ^ p := by positivity
  generalize 16 * (n : ℝ) * (1 / 2) ^ p = c at hu hu0 hrange
  have hM : max |a'| |b'| ≤ max |(ext i).1| |(ext i).2| + (((ext i).1 - a') + (b' - (ext i).2)) := by
    refine max_le ?_ ?_
    · have := abs_sub_abs_le_abs_sub a' (ext i).1
      rw [abs_sub_comm, abs_of_nonneg (sub_nonneg.mpr c4)] at this
      linarith [le_max_left |(ext i).1| |(ext i).2|]
    · have := abs_sub_abs_le_abs_sub b' (ext i).2
      rw [abs_of_nonneg (sub_nonneg.mpr c6)] at this
      linarith [le_max_right |(ext i).1| |(ext i).2|]
  have h5 := mul_le_mul_of_nonneg_left hM hu0
  have h6 : c * (((ext i).1 - a') + (b' - (ext i).2)) ≤ 1 * (((ext i).1 - a') + (b' - (ext i).2)) :=
    mul_le_mul_of_nonneg_right hu (by linarith)
  linarith

/-- Three bins for the data 1, 4 in double precision: four strictly increasing values. -/
example (hfl : Nearest 53 fl) (srt : List ℝ → List ℕ) (hs : ∀ l, IsArgsort (srt l) l) :
    ∃ E, parseEdgesFl (d := 1) fl srt [![1], ![4]] (.int 3) none none 5 1000 none 1 none = .ok E ∧
      ∃ l, E[0]? = some l ∧ l.length = 4 ∧ l.Pairwise (· < ·) := by
  obtain ⟨ext, hext, hx⟩ := C22_none [![(1 : ℝ)], ![4]] (by simp)
  have h1 : ∀ i, (ext i).1 ≤ 1 ∧ 4 ≤ (ext i).2 := by
    intro i
    have a := (hx i).2.2 1 (by fin_cases i; simp)
    have b := (hx i).2.2 4 (by fin_cases i; simp)
    exact ⟨a.1, b.2⟩
  obtain ⟨E, hE⟩ := C144_succeeds (by norm_num) hfl srt hs _ (by simp) (.int 3) (Or.inr ⟨3, by norm_num, rfl⟩) none 5 1000
    (by norm_num) (by norm_num) none 1 none ext hext (fun i => Or.inl (by linarith [h1 i]))
  refine ⟨E, hE, ?_⟩
  have hmem : ∀ i : Fin 1, ∀ y ∈ [![(1 : ℝ)], ![4]].map (· i), IsFloat 53 y ∧ |y| ≤ 4 := by
    intro i y hy
    fin_cases i
    simp only [Fin.zero_eta, Fin.isValue, List.map_cons, Matrix.cons_val_fin_one, List.map_nil, List.mem_cons,
      List.not_mem_nil, or_false] at hy
    rcases hy with rfl | rfl
    · exact ⟨isFloat_one, by norm_num⟩
    · exact ⟨by simpa using isFloat_int (p := 53) (m := 4) (by norm_num), by norm_num⟩
  have hfx : ∀ i, IsFloat 53 (ext i).1 ∧ IsFloat 53 (ext i).2 := fun i => ⟨(hmem i _ (hx i).1).1, (hmem i _ (hx i).2.1).1⟩
  obtain ⟨l, hl, n, hn, -, -, -, h3⟩ := C144_partial (by norm_num) hfl srt _ (.int 3) none none 5 1000 (by norm_num)
    (by norm_num) (by norm_num) none (by simp) 1 none one_pos ext hext
    hfx (fun i => by linarith [h1 i]) E hE 0 (.int 3) rfl
    (Or.inr ⟨3, by norm_num, by norm_num, rfl⟩)
  have h3' : (n : ℤ) = 3 := h3
  obtain rfl : n = 3 := by omega
  refine ⟨l, hl, hn, C144_strict_partial (by norm_num) hfl srt _ (.int 3) none none 5 1000 (by norm_num)
    (by norm_num) (by norm_num) none (by simp) 1 none one_pos ext hext
    hfx (fun i => by linarith [h1 i]) E hE 0 (.int 3) rfl
    (Or.inr ⟨3, by norm_num, by norm_num, rfl⟩) l hl 3 hn (by norm_num) ?_⟩
  have hm : max |(ext 0).1| |(ext 0).2| ≤ 4 := max_le (hmem 0 _ (hx 0).1).2 (hmem 0 _ (hx 0).2.1).2
  have : 16 * ((3 : ℕ) : ℝ) * (1 / 2) ^ 53 * max |(ext 0).1| |(ext 0).2| ≤ 16 * ((3 : ℕ) : ℝ) * (1 / 2) ^ 53 * 4 := by gcongr
  have h7 : 16 * ((3 : ℕ) : ℝ) * (1 / 2) ^ 53 * 4 < 3 := by norm_num
  linarith [h1 0]

end Kalepy
