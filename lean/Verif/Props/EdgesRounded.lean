import Verif.Model.RoundedEdges
import Verif.Proofs.Rounding
import Verif.Props.EdgesDegenerate
import Verif.Props.RoundedExact
import Verif.Props.RoundedSampling

/-!
# C144: automatic edges in floating point arithmetic
-/

namespace Kalepy

open Spec

variable {p d : ℕ} {fl : ℝ → ℝ}

/-! ### without rounding -/

lemma sumFl_id (l : List ℝ) : sumFl id l = l.sum := by
  have := cumsumFrom_last l 0
  simpa [sumFl] using this

lemma npInterpFl_id (x : ℝ) (xp fp : List ℝ) : npInterpFl id x xp fp = npInterp x xp fp := rfl

lemma quantileGridFl_id (ws : List ℝ) : quantileGridFl id ws = quantileGrid ws := by
  simp only [quantileGridFl, quantileGrid, sumFl_id, cumsum_id, id]

lemma quantilesFl_id (srt : List ℝ → List ℕ) (values percs : List ℝ) (weights : Option (List ℝ)) :
    quantilesFl id srt values percs weights = quantiles srt values percs weights := by
  simp only [quantilesFl, quantiles, sumFl_id, quantileGridFl_id, npInterpFl_id, Bool.false_eq_true, if_false,
    true_and]

lemma iqrangeFl_id (srt : List ℝ → List ℕ) (data : List ℝ) (weights : Option (List ℝ)) :
    iqrangeFl id srt data weights = iqrange srt data weights := by
  simp only [iqrangeFl, iqrange, quantilesFl_id, id]
  cases quantiles srt data [3 / 4, 1 / 4] weights <;> rfl

lemma guessEdgesFl_id (srt : List ℝ → List ℕ) (data : List ℝ) (ext : ℝ × ℝ) (weights : Option (List ℝ)) (ndim : ℕ)
    (nmin nmax : ℤ) (refine : ℝ) (bw : Option ℝ) :
    guessEdgesFl id srt data ext weights ndim nmin nmax refine bw =
      guessEdges srt data ext weights ndim nmin nmax refine bw := by
  have h1 : guessNeffFl id data weights = guessNeff data weights := by
    simp only [guessNeffFl, guessNeff, sumFl_id, id]
    rfl
  have h2 : ∀ n, reduceNeffFl id ndim n = reduceNeff ndim n := fun n => rfl
  have h3 : ∀ s i n, guessWidthsFl id s i n bw = guessWidths s i n bw := fun s i n => rfl
  have h4 : allCloseFl id data = allClose data := rfl
  have h5 : ∀ W, guessWidthFl id data W refine = guessWidth data W refine := by
    intro W; simp only [guessWidthFl, guessWidth, h4, id]; rfl
  have h6 : ∀ s w, spanWidthFl id data s w = spanWidth data s w := by
    intro s w; simp only [spanWidthFl, spanWidth, h4, id]
  simp only [guessEdgesFl, guessEdges, h1, h2, h3, h5, h6, iqrangeFl_id, id]
  rfl

lemma linspaceFl_id (a b : ℝ) (n : ℕ) : linspaceFl id a b n = npLinspace a b n := by
  unfold linspaceFl npLinspace
  by_cases hn : n = 0
  · simp [hn]
  · rw [if_neg hn, if_neg hn, List.range_succ, List.map_append]
    have h0 : (n : ℝ) ≠ 0 := by exact_mod_cast hn
    simp only [id]
    congr 1
    · apply List.map_congr_left
      intro k _
      ring
    · simp only [List.map_cons, List.map_nil, List.cons.injEq, and_true]
      field_simp
      ring

/-- Without rounding, the model of this file is that of `parse_edges` in the other parts. -/
theorem C144_exact (srt : List ℝ → List ℕ) (data : List (Fin d → ℝ)) (edges : EdgeArg)
    (extrema : Option (List ExtElem)) (weights : Option (List ℝ)) (nmin nmax : ℤ) (pad : Option ℝ)
    (refine : ℝ) (bw : Option (Matrix (Fin d) (Fin d) ℝ)) :
    parseEdgesFl id srt data edges extrema weights nmin nmax pad refine bw =
      parseEdges srt data edges extrema weights nmin nmax pad refine bw := by
  have h : ∀ spec l ext (pad : ℝ) bw, getEdges1dFl id srt spec l ext weights d nmin nmax pad refine bw =
      getEdges1d srt spec l ext weights d nmin nmax pad refine bw := by
    intro spec l ext pad bw
    cases spec <;> simp only [getEdges1dFl, getEdges1d, guessEdgesFl_id, linspaceFl_id, id]
    all_goals cases guessEdges srt l ext weights d nmin nmax refine bw <;> rfl
  simp only [parseEdgesFl, parseEdges, h]
  rfl

/-! ### weakly increasing, covering -/

lemma half_pow_mul_le {p n : ℕ} (hp : 3 ≤ p) (hn : n ≤ 2 ^ (p - 3)) : (n : ℝ) * (1 / 2) ^ p ≤ 1 / 8 := by
  have h1 : (n : ℝ) ≤ 2 ^ (p - 3) := by exact_mod_cast hn
  have h2 : (2 : ℝ) ^ p = 2 ^ (p - 3) * 8 := by
    rw [show (8 : ℝ) = 2 ^ 3 by norm_num, ← pow_add]; congr 1; omega
  rw [one_div, inv_pow, h2, ← div_eq_mul_inv, div_le_iff₀ (by positivity)]
  linarith

lemma accurate_le {u x : ℝ} (hu : Accurate u fl) (hx : 0 ≤ x) : fl x ≤ (1 + u) * x := by
  have := hu x
  rw [abs_of_nonneg hx] at this
  linarith [le_abs_self (fl x - x)]

lemma fl_nonneg (hfl : Nearest p fl) {x : ℝ} (hx : 0 ≤ x) : 0 ≤ fl x := by
  rw [← hfl.zero]; exact hfl.mono hx

/-- The values of `np.linspace` between floating point numbers are in weakly increasing order, begin and end at the
given ends. -/
lemma linspaceFl_spec (hp : 3 ≤ p) (hfl : Nearest p fl) {a b : ℝ} (ha : IsFloat p a) (hb : IsFloat p b) (hab : a ≤ b)
    {n : ℕ} (hn : n ≤ 2 ^ (p - 3)) (hn0 : 0 < n) :
    (linspaceFl fl a b n).length = n + 1 ∧ (linspaceFl fl a b n).Pairwise (· ≤ ·) ∧
      (linspaceFl fl a b n)[0]? = some a ∧ (linspaceFl fl a b n)[n]? = some b := by
  have hu := hfl.accurate (by omega)
  set u : ℝ := (1 / 2) ^ p with hudef
  have hu0 : 0 ≤ u := by positivity
  have hnu : (n : ℝ) * u ≤ 1 / 8 := half_pow_mul_le hp hn
  have hn0' : (0 : ℝ) < n := by exact_mod_cast hn0
  have hn1 : (1 : ℝ) ≤ n := by exact_mod_cast hn0
  have hu8 : u ≤ 1 / 8 := by nlinarith
  set step := fl (fl (b - a) / n) with hstep
  have hd : 0 ≤ fl (b - a) := fl_nonneg hfl (by linarith)
  have hs0 : 0 ≤ step := fl_nonneg hfl (by positivity)
  have hval : linspaceFl fl a b n = (List.range n).map (fun k : ℕ => fl (fl (k * step) + a)) ++ [b] := by
    unfold linspaceFl
    rw [if_neg (by omega)]
  have hle : ∀ k : ℕ, k < n → fl (fl (k * step) + a) ≤ b := by
    intro k hk
    rw [← hfl.fix hb]
    apply hfl.mono
    have e1 : fl (b - a) ≤ (1 + u) * (b - a) := accurate_le hu (by linarith)
    have e2 : step ≤ (1 + u) * (fl (b - a) / n) := accurate_le hu (by positivity)
    have e3 : fl (k * step) ≤ (1 + u) * (k * step) := accurate_le hu (by positivity)
    have hk' : (k : ℝ) ≤ n - 1 := by
      have : (k : ℝ) + 1 ≤ n := by exact_mod_cast hk
      linarith
    have e4 : n * step ≤ (1 + u) ^ 2 * (b - a) := by
      calc n * step ≤ n * ((1 + u) * (fl (b - a) / n)) := by gcongr
        _ = (1 + u) * fl (b - a) := by field_simp
        _ ≤ (1 + u) * ((1 + u) * (b - a)) := by gcongr
        _ = _ := by ring
    have e5 : fl (k * step) * n ≤ (b - a) * n := by
      calc fl (k * step) * n ≤ (1 + u) * (k * step) * n := by gcongr
        _ = (1 + u) * k * (n * step) := by ring
        _ ≤ (1 + u) * (n - 1) * ((1 + u) ^ 2 * (b - a)) := by gcongr
        _ = ((1 + u) ^ 3 * (n - 1)) * (b - a) := by ring
        _ ≤ n * (b - a) := by
          apply mul_le_mul_of_nonneg_right _ (by linarith)
          have : (1 + u) ^ 3 ≤ 1 + 7 * u := by nlinarith [mul_nonneg hu0 hu0]
          calc (1 + u) ^ 3 * ((n : ℝ) - 1) ≤ (1 + 7 * u) * (n - 1) := by
                apply mul_le_mul_of_nonneg_right this; linarith
            _ ≤ n := by nlinarith
        _ = _ := by ring
    have := le_of_mul_le_mul_right e5 hn0'
    linarith
  refine ⟨by simp [hval], ?_, ?_, ?_⟩
  · rw [hval, List.pairwise_append]
    refine ⟨?_, by simp, ?_⟩
    · rw [List.pairwise_map]
      refine List.pairwise_lt_range.imp ?_
      intro i j hij
      have : (i : ℝ) ≤ j := by exact_mod_cast hij.le
      exact hfl.mono (add_le_add_left (hfl.mono (mul_le_mul_of_nonneg_right this hs0)) a)
    · intro x hx y hy
      obtain ⟨k, hk, rfl⟩ := List.mem_map.mp hx
      rw [List.mem_singleton.mp hy]
      exact hle k (List.mem_range.mp hk)
  · rw [hval, List.getElem?_append_left (by simpa using hn0)]
    simp [List.getElem?_range hn0, hfl.zero, hfl.fix ha]
  · rw [hval, List.getElem?_append_right (by simp)]
    simp

lemma guessWidthFl_nonneg (hfl : Nearest p fl) {data widths : List ℝ} {refine w : ℝ} (hr : 0 < refine)
    (h : guessWidthFl fl data widths refine = .ok w) : 0 ≤ w := by
  unfold guessWidthFl at h
  split at h
  · rename_i a l he
    cases h
    apply fl_nonneg hfl
    have := (npMin_spec a l).1
    rw [← he, List.mem_filter] at this
    have : 0 < npMin a l := by simpa using this.2
    positivity
  · split_ifs at h
    cases h
    exact fl_nonneg hfl (by norm_num)

lemma guessEdgesFl_ok (hfl : Nearest p fl) {srt : List ℝ → List ℕ} {data : List ℝ} {ext : ℝ × ℝ}
    {weights : Option (List ℝ)} {ndim : ℕ} {nmin nmax : ℤ} {refine : ℝ} {bw : Option ℝ} {n : ℤ} {w : ℝ}
    (hr : 0 < refine) (h : guessEdgesFl fl srt data ext weights ndim nmin nmax refine bw = .ok (n, w)) :
    0 ≤ w ∧ n ≤ nmax ∧ (nmin ≤ nmax → nmin ≤ n) := by
  unfold guessEdgesFl at h
  split at h
  · cases h
  · split_ifs at h
    split at h
    · cases h
    · dsimp only at h
      split at h
      · cases h
      · rename_i width hw
        split at h
        · cases h
        · simp only [Except.ok.injEq, Prod.mk.injEq] at h
          obtain ⟨rfl, rfl⟩ := h
          exact ⟨guessWidthFl_nonneg hfl hr hw, min_le_right _ _, fun hh => le_min (le_max_right _ _) hh⟩

/-- What is returned in one dimension: weakly increasing values, as many as asked for (an automatic number is between
`nmin` and `nmax`), from at most the lower to at least the upper extremum. -/
def EdgesCover (spec : EdgeSpec) (l : List ℝ) (ext : ℝ × ℝ) (nmin nmax : ℤ) : Prop :=
  ∃ n : ℕ, l.length = n + 1 ∧ l.Pairwise (· ≤ ·) ∧ (∃ a, l[0]? = some a ∧ a ≤ ext.1) ∧ (∃ b, l[n]? = some b ∧ ext.2 ≤ b) ∧
    match spec with
    | .int m => (n : ℤ) = m
    | _ => nmin ≤ n ∧ (n : ℤ) ≤ nmax

/-- **C144**: in floating point arithmetic with rounding to nearest, edges for a number of bins, or automatic ones, are
in weakly increasing order and cover the extrema.  So all data lie between the first and the last edge, and no bin has a
negative width.  (At most `2 ^ (p - 3)` bins: `10^15` in double precision.) -/
theorem C144_partial (hp : 3 ≤ p) (hfl : Nearest p fl) (srt : List ℝ → List ℕ) (data : List (Fin d → ℝ)) (edges : EdgeArg)
    (extrema : Option (List ExtElem)) (weights : Option (List ℝ)) (nmin nmax : ℤ) (h0 : 0 < nmin) (h1 : nmin ≤ nmax)
    (h2 : nmax ≤ 2 ^ (p - 3)) (pad : Option ℝ) (hpad : ∀ x ∈ pad, 0 ≤ x)
    (refine : ℝ) (bw : Option (Matrix (Fin d) (Fin d) ℝ)) (hr : 0 < refine) (ext : Fin d → ℝ × ℝ)
    (hext : parseExtremaOf data extrema = .ok ext) (hf : ∀ i, IsFloat p (ext i).1 ∧ IsFloat p (ext i).2)
    (hle : ∀ i, (ext i).1 ≤ (ext i).2) (E : List (List ℝ))
    (h : parseEdgesFl fl srt data edges extrema weights nmin nmax pad refine bw = .ok E) (i : Fin d) (spec : EdgeSpec)
    (ha : EdgesAsked d i spec edges)
    (hspec : spec = .auto ∨ ∃ m : ℤ, 0 < m ∧ m ≤ 2 ^ (p - 3) ∧ spec = .int m) :
    ∃ l, E[(i : ℕ)]? = some l ∧ EdgesCover spec l (ext i) nmin nmax := by
  have hpad' : 0 ≤ pad.getD (if extrema.isNone then 1 else 0) := by
    cases pad with
    | none => simp only [Option.getD_none]; split_ifs <;> norm_num
    | some x => exact hpad x rfl
  unfold parseEdgesFl at h
  simp only [hext] at h
  split at h
  · cases h
  · rename_i specs hspecs
    split at h
    · cases h
    · rename_i f hfs
      cases h
      rw [finSeq_ok] at hfs
      have hfi := hfs i
      rw [edgeSpecs_asked hspecs i ha] at hfi
      refine ⟨f i, by simp, ?_⟩
      generalize pad.getD (if extrema.isNone then 1 else 0) = q at hpad' hfi
      have key : ∀ (n : ℤ) (w : ℝ), 0 < n → n ≤ 2 ^ (p - 3) → 0 ≤ w →
          (linspaceFl fl (fl ((ext i).1 - fl (q * w))) (fl ((ext i).2 + fl (q * w))) n.toNat).length = n.toNat + 1 ∧
          (linspaceFl fl (fl ((ext i).1 - fl (q * w))) (fl ((ext i).2 + fl (q * w))) n.toNat).Pairwise (· ≤ ·) ∧
          (∃ a, (linspaceFl fl (fl ((ext i).1 - fl (q * w))) (fl ((ext i).2 + fl (q * w))) n.toNat)[0]? = some a ∧
            a ≤ (ext i).1) ∧
          (∃ b, (linspaceFl fl (fl ((ext i).1 - fl (q * w))) (fl ((ext i).2 + fl (q * w))) n.toNat)[n.toNat]? = some b ∧
            (ext i).2 ≤ b) := by
        intro n w hn hn' hw
        have hqw : 0 ≤ fl (q * w) := fl_nonneg hfl (by positivity)
        have e1 : fl ((ext i).1 - fl (q * w)) ≤ (ext i).1 := by
          conv_rhs => rw [← hfl.fix (hf i).1]
          exact hfl.mono (by linarith)
        have e2 : (ext i).2 ≤ fl ((ext i).2 + fl (q * w)) := by
          conv_lhs => rw [← hfl.fix (hf i).2]
          exact hfl.mono (by linarith)
        have hn'' : n.toNat ≤ 2 ^ (p - 3) := by
          have : (n.toNat : ℤ) ≤ ((2 ^ (p - 3) : ℕ) : ℤ) := by
            rw [Int.toNat_of_nonneg hn.le]; push_cast; exact hn'
          exact_mod_cast this
        obtain ⟨a1, a2, a3, a4⟩ := linspaceFl_spec hp hfl (hfl.float _) (hfl.float _)
          (e1.trans ((hle i).trans e2)) hn'' (by omega)
        exact ⟨a1, a2, ⟨_, a3, e1⟩, ⟨_, a4, e2⟩⟩
      obtain rfl | ⟨m, hm, hm', rfl⟩ := hspec
      · simp only [getEdges1dFl] at hfi
        split at hfi
        · cases hfi
        · rename_i n w hg
          obtain ⟨b1, b2, b3⟩ := guessEdgesFl_ok hfl hr hg
          have b4 := b3 h1
          rw [if_neg (by omega), if_neg (by omega)] at hfi
          obtain ⟨c1, c2, c3, c4⟩ := key n w (by omega) (by omega) b1
          rw [← Except.ok.inj hfi]
          refine ⟨n.toNat, c1, c2, c3, c4, ?_⟩
          show nmin ≤ (n.toNat : ℤ) ∧ (n.toNat : ℤ) ≤ nmax
          omega
      · simp only [getEdges1dFl] at hfi
        split at hfi
        · cases hfi
        · rename_i n w hg
          obtain ⟨b1, b2, b3⟩ := guessEdgesFl_ok hfl hr hg
          rw [if_neg (by omega), if_neg (by omega)] at hfi
          obtain ⟨c1, c2, c3, c4⟩ := key m w hm hm' b1
          rw [← Except.ok.inj hfi]
          refine ⟨m.toNat, c1, c2, c3, c4, ?_⟩
          show (m.toNat : ℤ) = m
          omega

/-! ### not strictly increasing -/

/-- A double precision number of at least one is a multiple of `2 ^ -52`. -/
lemma float_multiple {x : ℝ} (hx : IsFloat 53 x) (h1 : 1 ≤ x) : ∃ m : ℤ, x = m * (1 / 2) ^ 52 := by
  obtain ⟨n, e, hn, rfl⟩ := hx
  rcases le_or_gt (-52) e with he | he
  · obtain ⟨k, rfl⟩ := Int.le.dest he
    refine ⟨n * 2 ^ k, ?_⟩
    rw [zpow_add₀ (by norm_num), zpow_natCast]
    push_cast
    rw [zpow_neg, one_div, inv_pow, show ((2 : ℝ) ^ (52 : ℤ)) = 2 ^ 52 by norm_cast]
    ring
  · have hle : (2 : ℝ) ^ e ≤ 2 ^ (-53 : ℤ) := zpow_le_zpow_right₀ (by norm_num) (by omega)
    have hn' : (n : ℝ) ≤ 2 ^ 53 := by exact_mod_cast (le_abs_self n).trans hn
    have hpos : (0 : ℝ) < 2 ^ e := by positivity
    have : (n : ℝ) * 2 ^ e ≤ 1 := by
      calc (n : ℝ) * 2 ^ e ≤ 2 ^ 53 * 2 ^ e := by gcongr
        _ ≤ 2 ^ 53 * 2 ^ (-53 : ℤ) := by gcongr
        _ = 1 := by norm_num
    refine ⟨2 ^ 52, ?_⟩
    rw [le_antisymm this h1]
    norm_num

lemma float_apart {c z : ℝ} (hc : IsFloat 53 c) (hz : IsFloat 53 z) (h2 : 2 ≤ c) (h : |z - c| < (1 / 2) ^ 52) : z = c := by
  have hz1 : 1 ≤ z := by
    have := (abs_lt.mp h).1
    norm_num at this
    linarith
  obtain ⟨m, rfl⟩ := float_multiple hc (by linarith)
  obtain ⟨k, rfl⟩ := float_multiple hz hz1
  rw [← sub_mul, abs_mul, abs_of_pos (by positivity : (0 : ℝ) < (1 / 2) ^ 52)] at h
  have h' : |((k - m : ℤ) : ℝ)| < 1 := by
    push_cast
    by_contra hc
    push Not at hc
    nlinarith [(by positivity : (0 : ℝ) < (1 / 2) ^ 52)]
  have : |k - m| < 1 := by exact_mod_cast h'
  rw [Int.abs_lt_one_iff, sub_eq_zero] at this
  rw [this]

/-- Double precision absorbs changes below `2 ^ -53` of numbers of size two and more. -/
lemma fl_absorb (hfl : Nearest 53 fl) {c t : ℝ} (hc : IsFloat 53 c) (h2 : 2 ≤ |c|) (ht : |t| < (1 / 2) ^ 53) :
    fl (c + t) = c := by
  have h1 := hfl.near (c + t) c hc
  have h3 : |fl (c + t) - c| < (1 / 2) ^ 52 := by
    have e1 : |c - (c + t)| = |t| := by rw [← abs_neg t]; congr 1; ring
    have e2 : |fl (c + t) - c| ≤ |fl (c + t) - (c + t)| + |t| := by
      have := abs_add_le (fl (c + t) - (c + t)) t
      rwa [show fl (c + t) - (c + t) + t = fl (c + t) - c by ring] at this
    have e3 : ((1 : ℝ) / 2) ^ 52 = 2 * (1 / 2) ^ 53 := by norm_num
    linarith
  rcases abs_cases c with ⟨e, _⟩ | ⟨e, _⟩
  · exact float_apart hc (hfl.float _) (by linarith) h3
  · have := float_apart hc.neg (hfl.float (c + t)).neg (by linarith) (by
      rw [← abs_neg]; rwa [show -(-fl (c + t) - -c) = fl (c + t) - c by ring])
    linarith

lemma npInterpFl_const (hfl : Nearest p fl) {x c : ℝ} (hcf : IsFloat p c) {xp fp : List ℝ} (h : ∀ y ∈ fp, y = c)
    (hl : xp.length = fp.length) (hne : fp ≠ []) : npInterpFl fl x xp fp = c := by
  have hg : ∀ j, j < fp.length → fp.getD j 0 = c := by
    intro j hj
    rw [List.getD_eq_getElem _ _ hj]
    exact h _ (List.getElem_mem hj)
  have hpos := List.length_pos_iff.mpr hne
  have hle : searchRight xp x ≤ xp.length := by
    unfold searchRight; exact List.countP_le_length
  unfold npInterpFl
  split
  · exact hg 0 hpos
  · rename_i j hj
    rw [hj] at hle
    split_ifs with h1 h2
    · exact hg j (by omega)
    · exact hg j (by omega)
    · rw [hg j (by omega), hg (j + 1) (by omega)]
      simp [hfl.zero, hfl.fix hcf]

lemma iqrangeFl_const (hfl : Nearest p fl) {srt : List ℝ → List ℕ} (hs : ∀ l, IsArgsort (srt l) l) {data : List ℝ}
    (hne : data ≠ []) {c : ℝ} (hcf : IsFloat p c) (hc : ∀ x ∈ data, x = c)
    (hsum : sumFl fl (data.map fun _ => 1) ≠ 0) : iqrangeFl fl srt data none = .ok 0 := by
  have hv : ∀ y ∈ (srt data).map (fun i => data.getD i 0), y = c := by
    intro y hy
    exact hc y ((hs data).perm.mem_iff.mp hy)
  have hlen : (quantileGridFl fl ((srt data).map fun i => (data.map fun _ => (1 : ℝ)).getD i 0)).length =
      ((srt data).map fun i => data.getD i 0).length := by
    simp [quantileGridFl, cumsumFrom_length]
  have hls : (srt data).length = data.length := by simpa using (hs data).1.length_eq
  have hne' : (srt data).map (fun i => data.getD i 0) ≠ [] := by
    intro h
    have := (hs data).perm.length_eq
    rw [h] at this
    exact hne (List.length_eq_zero_iff.mp this.symm)
  have hones : ((srt data).map fun i => (data.map fun _ => (1 : ℝ)).getD i 0) = data.map fun _ => (1 : ℝ) := by
    apply List.ext_getElem
    · simpa using hls
    · intro k h1 h2
      have hk : (srt data)[k]'(by simpa using h1) < data.length := (hs data).lt _ (List.getElem_mem _)
      simp [List.getD_eq_getElem?_getD, List.getElem?_replicate, hk]
  unfold iqrangeFl quantilesFl
  simp only [Option.getD_none]
  rw [if_neg (by norm_num), if_neg (by
    rintro h; exact h fun i hi => by simpa using (hs data).lt i hi), if_neg (by rw [hones]; exact hsum), if_neg (by
    rintro (h | h)
    · simp at h
    · exact hne' h)]
  simp only [List.map_cons, List.map_nil, npInterpFl_const hfl hcf hv hlen hne']
  simp [hfl.zero]

lemma linspaceFl_const (hfl : Nearest p fl) {c : ℝ} (hc : IsFloat p c) (n : ℕ) : ∀ x ∈ linspaceFl fl c c n, x = c := by
  intro x hx
  unfold linspaceFl at hx
  split_ifs at hx
  · simpa using hx
  · simp only [sub_self, hfl.zero, zero_div, mul_zero, zero_add, hfl.fix hc, List.mem_append, List.mem_map,
      List.mem_singleton] at hx
    rcases hx with ⟨_, _, h⟩ | h
    · exact h.symm
    · exact h

/-- **C144** as claimed: in double precision, automatic edges of any data are strictly increasing (as in exact
arithmetic, with the default padding: `C45_covers`). -/
def C144_Claim : Prop :=
  ∀ fl, Nearest 53 fl → ∀ srt : List ℝ → List ℕ, (∀ l, IsArgsort (srt l) l) → ∀ (d : ℕ) (data : List (Fin d → ℝ)),
    data ≠ [] → (∀ x ∈ data, ∀ i, IsFloat 53 (x i)) → ∀ E,
    parseEdgesFl fl srt data .none none none 5 1000 none 1 none = .ok E → ∀ l ∈ E, l.Pairwise (· < ·)

lemma sumFl_pos (hp : 1 ≤ p) (hfl : Nearest p fl) {l : List ℝ} (hl : ∀ x ∈ l, 0 ≤ x) (hpos : ∃ x ∈ l, 0 < x) :
    0 < sumFl fl l := by
  have h := (steps_cumsum (fl := fl) 0 l).last_pos hfl.rounds rfl hl (fun _ _ hx _ ha => (hfl.accurate hp).pos
    (pow_lt_one₀ (by norm_num) (by norm_num) (by omega)) (by linarith)) hpos
  have e : sumFl fl l = (0 :: cumsumFrom fl 0 l)[l.length]'(by simp [cumsumFrom_length]) := by
    cases l with
    | nil => rfl
    | cons x l =>
      simp only [sumFl]
      rw [List.getLastD_eq_getLast?, List.getLast?_eq_getElem?]
      simp [cumsumFrom_length]
  rw [e]; exact h

/-- What happens for identical data: if all data agree in dimension `i` and the common value is 2 or more in size,
rounding removes the arbitrary width `1e-16`, and all edges of this dimension are equal to the common value. -/
theorem C144_identical (hfl : Nearest 53 fl) (srt : List ℝ → List ℕ) (hs : ∀ l, IsArgsort (srt l) l)
    (data : List (Fin d → ℝ)) (hne : data ≠ []) (nmin nmax : ℤ) (pad : Option ℝ) (hpad : |pad.getD 1| ≤ 1) (refine : ℝ)
    (edges : EdgeArg) (hedges : edges = .none ∨ ∃ n : ℤ, edges = .int n) (E : List (List ℝ))
    (hE : parseEdgesFl fl srt data edges none none nmin nmax pad refine none = .ok E) (i : Fin d) (c : ℝ)
    (hcf : IsFloat 53 c) (h2 : 2 ≤ |c|) (hc : ∀ x ∈ data, x i = c) :
    ∃ l, E[(i : ℕ)]? = some l ∧ ∀ x ∈ l, x = c := by
  obtain ⟨ext, hext, hx⟩ := C22_none data hne
  have hrow : ∀ x ∈ dataRow data i, x = c := by
    intro x hx
    obtain ⟨y, hy, rfl⟩ := List.mem_map.mp hx
    exact hc y hy
  have he1 : (ext i).1 = c := hrow _ (hx i).1
  have he2 : (ext i).2 = c := hrow _ (hx i).2.1
  have hnr : dataRow data i ≠ [] := by simpa [dataRow] using hne
  obtain ⟨y, hy⟩ := List.exists_mem_of_ne_nil _ hnr
  have hsum : sumFl fl ((dataRow data i).map fun _ => 1) ≠ 0 :=
    (sumFl_pos (by norm_num) hfl (by simp) ⟨1, List.mem_map.mpr ⟨y, hy, rfl⟩, one_pos⟩).ne'
  have hiqr := iqrangeFl_const hfl hs hnr hcf hrow hsum
  have hg : ∀ n w, guessEdgesFl fl srt (dataRow data i) (ext i) none d nmin nmax refine none = .ok (n, w) →
      w = fl (1 / 10 ^ 16) := by
    intro n w h
    have hpos : ¬ ((dataRow data i).length : ℝ) ≤ 0 := by
      have : (0 : ℝ) < (dataRow data i).length := by exact_mod_cast List.length_pos_iff.mpr hnr
      linarith
    simp only [guessEdgesFl, guessNeffFl, if_neg hpos, hiqr, he1, he2, sub_self, hfl.zero] at h
    have hW : ∀ m, (guessWidthsFl fl 0 0 m none).filter (0 < ·) = [] := by
      intro m
      simp [guessWidthsFl, hfl.zero]
    have hgw : ∀ m, guessWidthFl fl (dataRow data i) (guessWidthsFl fl 0 0 m none) refine =
        if allCloseFl fl (dataRow data i) then .ok (fl (1 / 10 ^ 16)) else .error .valueError := by
      intro m
      unfold guessWidthFl
      rw [hW]
    simp only [hgw] at h
    by_cases ha : allCloseFl fl (dataRow data i) = true
    · simp only [ha, if_true, spanWidthFl, lt_irrefl, if_false, Except.ok.injEq, Prod.mk.injEq] at h
      exact h.2.symm
    · simp [ha] at h
  unfold parseEdgesFl at hE
  simp only [hext] at hE
  split at hE
  · cases hE
  · rename_i specs hspecs
    split at hE
    · cases hE
    · rename_i f hf
      cases hE
      rw [finSeq_ok] at hf
      refine ⟨f i, by simp, ?_⟩
      have hfi := hf i
      simp only [Option.isNone_none, if_true, Option.map_none] at hfi
      have hw : |fl (pad.getD 1 * fl (1 / 10 ^ 16))| < (1 / 2) ^ 53 := by
        have hu := hfl.accurate (by norm_num)
        have e1 : |fl ((1 : ℝ) / 10 ^ 16)| ≤ (1 + (1 / 2) ^ 53) * (1 / 10 ^ 16) := by
          have := hu (1 / 10 ^ 16)
          have h3 := abs_sub_abs_le_abs_sub (fl ((1 : ℝ) / 10 ^ 16)) (1 / 10 ^ 16)
          rw [abs_of_pos (by norm_num : (0 : ℝ) < 1 / 10 ^ 16)] at this h3
          linarith
        have e2 : |pad.getD 1 * fl (1 / 10 ^ 16)| ≤ (1 + (1 / 2) ^ 53) * (1 / 10 ^ 16) := by
          rw [abs_mul]
          calc _ ≤ 1 * |fl ((1 : ℝ) / 10 ^ 16)| := by gcongr
            _ ≤ _ := by rw [one_mul]; exact e1
        have e3 := hu (pad.getD 1 * fl (1 / 10 ^ 16))
        have h3 := abs_sub_abs_le_abs_sub (fl (pad.getD 1 * fl (1 / 10 ^ 16))) (pad.getD 1 * fl (1 / 10 ^ 16))
        generalize |pad.getD 1 * fl (1 / 10 ^ 16)| = t at e2 e3 h3
        generalize |fl (pad.getD 1 * fl (1 / 10 ^ 16))| = s at h3 ⊢
        norm_num at *
        linarith
      have hlo : fl (c - fl (pad.getD 1 * fl (1 / 10 ^ 16))) = c := by
        rw [sub_eq_add_neg]; exact fl_absorb hfl hcf h2 (by rwa [abs_neg])
      have hhi : fl (c + fl (pad.getD 1 * fl (1 / 10 ^ 16))) = c := fl_absorb hfl hcf h2 hw
      obtain rfl | ⟨m, rfl⟩ := hedges
      all_goals
        rw [edgeSpecs_asked hspecs i rfl] at hfi
        simp only [getEdges1dFl] at hfi
        split at hfi
        · cases hfi
        · rename_i n w hgn
          rw [hg n w hgn, he1, he2, hlo, hhi] at hfi
          split_ifs at hfi
          · rw [← Except.ok.inj hfi]; simp
          · rw [← Except.ok.inj hfi]; exact linspaceFl_const hfl hcf _

/-! ### edges are returned -/

lemma pos_of_fl (hp : 1 ≤ p) (hfl : Nearest p fl) {x : ℝ} (hx : 0 < x) : 0 < fl x := by
  have := hfl.accurate hp x
  rw [abs_of_pos hx] at this
  have h1 : ((1 : ℝ) / 2) ^ p < 1 := pow_lt_one₀ (by norm_num) (by norm_num) (by omega)
  nlinarith [neg_abs_le (fl x - x)]

lemma iqrangeFl_ok (hp : 1 ≤ p) (hfl : Nearest p fl) {srt : List ℝ → List ℕ} (hs : ∀ l, IsArgsort (srt l) l)
    {data : List ℝ} (hne : data ≠ []) : ∃ q, iqrangeFl fl srt data none = .ok q := by
  have hls : (srt data).length = data.length := by simpa using (hs data).1.length_eq
  have hones : ((srt data).map fun i => (data.map fun _ => (1 : ℝ)).getD i 0) = data.map fun _ => (1 : ℝ) := by
    apply List.ext_getElem
    · simpa using hls
    · intro k h1 h2
      have hk : (srt data)[k]'(by simpa using h1) < data.length := (hs data).lt _ (List.getElem_mem _)
      simp [List.getD_eq_getElem?_getD, List.getElem?_replicate, hk]
  obtain ⟨y, hy⟩ := List.exists_mem_of_ne_nil _ hne
  have hsum : sumFl fl (data.map fun _ => 1) ≠ 0 :=
    (sumFl_pos hp hfl (by simp) ⟨1, List.mem_map.mpr ⟨y, hy, rfl⟩, one_pos⟩).ne'
  unfold iqrangeFl quantilesFl
  simp only [Option.getD_none]
  rw [if_neg (by norm_num), if_neg (by
    rintro h; exact h fun i hi => by simpa using (hs data).lt i hi), if_neg (by rw [hones]; exact hsum), if_neg (by
    rintro (h | h)
    · simp at h
    · have := congrArg List.length h
      simp only [List.length_map, hls, List.length_nil] at this
      exact hne (List.length_eq_zero_iff.mp this))]
  exact ⟨_, rfl⟩

lemma allCloseFl_const (hfl : Nearest p fl) {l : List ℝ} {c : ℝ} (h : ∀ x ∈ l, x = c) : allCloseFl fl l = true := by
  unfold allCloseFl
  rw [decide_eq_true_eq]
  intro x hx
  have hl : l.getD 0 0 = c := by
    rw [List.getD_eq_getElem _ _ (List.length_pos_of_mem hx)]
    exact h _ (List.getElem_mem _)
  rw [hl, h x hx, sub_self, hfl.zero, abs_zero]
  exact fl_nonneg hfl (add_nonneg (fl_nonneg hfl (by norm_num))
    (fl_nonneg hfl (mul_nonneg (fl_nonneg hfl (by norm_num)) (abs_nonneg _))))

/-- **C144**, edges are returned: without weights, `parse_edges` succeeds in floating point arithmetic if in every
dimension the extrema have a positive range or all data agree. -/
theorem C144_succeeds (hp : 1 ≤ p) (hfl : Nearest p fl) (srt : List ℝ → List ℕ) (hs : ∀ l, IsArgsort (srt l) l)
    (data : List (Fin d → ℝ)) (hne : data ≠ []) (edges : EdgeArg)
    (hedges : edges = .none ∨ ∃ n : ℤ, 0 ≤ n ∧ edges = .int n) (extrema : Option (List ExtElem))
    (nmin nmax : ℤ) (h0 : 0 ≤ nmin) (h1 : nmin ≤ nmax) (pad : Option ℝ) (refine : ℝ)
    (bw : Option (Matrix (Fin d) (Fin d) ℝ)) (ext : Fin d → ℝ × ℝ) (hext : parseExtremaOf data extrema = .ok ext)
    (hspan : ∀ i, (ext i).1 < (ext i).2 ∨ ∃ c, ∀ x ∈ data, x i = c) :
    ∃ E, parseEdgesFl fl srt data edges extrema none nmin nmax pad refine bw = .ok E := by
  have hguess : ∀ i : Fin d, ∃ n w, guessEdgesFl fl srt (dataRow data i) (ext i) none d nmin nmax refine
      (bw.map fun b => b i i) = .ok (n, w) ∧ 0 ≤ n := by
    intro i
    have hnr : dataRow data i ≠ [] := by simpa [dataRow] using hne
    obtain ⟨q, e3⟩ := iqrangeFl_ok hp hfl hs hnr
    have hlen : (1 : ℝ) ≤ (dataRow data i).length := by exact_mod_cast List.length_pos_iff.mpr hnr
    have hn : ∀ k : ℤ, 0 ≤ min (max k nmin) nmax := fun k => le_min (h0.trans (le_max_right _ _)) (h0.trans h1)
    simp only [guessEdgesFl, guessNeffFl, e3]
    rw [if_neg (by linarith)]
    generalize hW : guessWidthsFl fl (fl ((ext i).2 - (ext i).1)) q (reduceNeffFl fl d (dataRow data i).length)
      (bw.map fun b => b i i) = W
    have hred : 1 ≤ reduceNeffFl fl d (dataRow data i).length := by
      unfold reduceNeffFl
      split_ifs
      · exact le_max_of_le_right (by norm_num)
      · exact hlen
    by_cases hsp : 0 < fl ((ext i).2 - (ext i).1)
    · have hlog : 0 ≤ fl (Real.logb 2 (reduceNeffFl fl d (dataRow data i).length)) :=
        fl_nonneg hfl (Real.logb_nonneg (by norm_num) hred)
      have hpos : 0 < fl (fl ((ext i).2 - (ext i).1) /
          fl (fl (Real.logb 2 (reduceNeffFl fl d (dataRow data i).length)) + 1)) :=
        pos_of_fl hp hfl (div_pos hsp (pos_of_fl hp hfl (by linarith)))
      have : ∃ w, guessWidthFl fl (dataRow data i) W refine = .ok w := by
        unfold guessWidthFl
        split
        · exact ⟨_, rfl⟩
        · rename_i he
          rw [List.filter_eq_nil_iff] at he
          exact absurd hpos (by simpa using he _ (by rw [← hW]; exact List.mem_cons_self))
      obtain ⟨w, e4⟩ := this
      simp only [e4, spanWidthFl, if_pos hsp]
      exact ⟨_, _, rfl, hn _⟩
    · obtain h | ⟨c, hc⟩ := hspan i
      · exact absurd (pos_of_fl hp hfl (sub_pos.mpr h)) hsp
      · have ha : allCloseFl fl (dataRow data i) = true := allCloseFl_const hfl (c := c) (by
          intro x hx
          obtain ⟨y, hy, rfl⟩ := List.mem_map.mp hx
          exact hc y hy)
        have : ∃ w, guessWidthFl fl (dataRow data i) W refine = .ok w := by
          unfold guessWidthFl
          split
          · exact ⟨_, rfl⟩
          · rw [if_pos ha]; exact ⟨_, rfl⟩
        obtain ⟨w, e4⟩ := this
        simp only [e4, spanWidthFl, if_neg hsp, if_pos ha]
        exact ⟨_, _, rfl, hn _⟩
  have fin : ∀ spec : EdgeSpec, (spec = .auto ∨ ∃ n : ℤ, 0 ≤ n ∧ spec = .int n) →
      edgeSpecs d edges = .ok (List.replicate d spec) →
      ∃ E, parseEdgesFl fl srt data edges extrema none nmin nmax pad refine bw = .ok E := by
    intro spec hspec hes
    have key : ∀ i : Fin d, ∃ l, getEdges1dFl fl srt ((List.replicate d spec).getD i .auto) (dataRow data i) (ext i) none d
        nmin nmax (pad.getD (if extrema.isNone then 1 else 0)) refine (bw.map fun b => b i i) = .ok l := by
      intro i
      have hsp : (List.replicate d spec).getD i .auto = spec := by simp [List.getD_eq_getElem?_getD]
      rw [hsp]
      obtain ⟨n, w, e, hn⟩ := hguess i
      obtain rfl | ⟨m, hm, rfl⟩ := hspec
      all_goals
        simp only [getEdges1dFl, e]
        rw [if_neg (by omega), if_neg (by omega)]
        exact ⟨_, rfl⟩
    choose f hf using key
    refine ⟨List.ofFn f, ?_⟩
    simp only [parseEdgesFl, hext, hes, finSeq_ok.mpr hf]
  obtain rfl | ⟨n, hn, rfl⟩ := hedges
  · exact fin .auto (Or.inl rfl) rfl
  · exact fin (.int n) (Or.inr ⟨n, hn, rfl⟩) rfl

lemma isFloat_int {m : ℤ} (h : |m| ≤ 2 ^ p) : IsFloat p m := ⟨m, 0, h, by simp⟩

/-- **C144** fails: the two equal values 2, 2 give edges that are all equal to 2. -/
theorem C144_refuted : ¬ C144_Claim := by
  intro h
  obtain ⟨fl, hfl⟩ := exists_nearest (p := 53) (by norm_num)
  obtain ⟨srt, hs⟩ := exists_argsort
  have hf2 : IsFloat 53 (2 : ℝ) := by simpa using isFloat_int (p := 53) (m := 2) (by norm_num)
  obtain ⟨ext, hext, -⟩ := C22_none [![(2 : ℝ)], ![2]] (by simp)
  obtain ⟨E, hE⟩ := C144_succeeds (by norm_num) hfl srt hs [![(2 : ℝ)], ![2]] (by simp) .none (Or.inl rfl) none 5 1000
    (by norm_num) (by norm_num) none 1 none ext hext (fun i => Or.inr ⟨2, by fin_cases i; simp⟩)
  obtain ⟨l, hl, hl2⟩ := C144_identical hfl srt hs _ (by simp) 5 1000 none (by norm_num) 1 .none (Or.inl rfl) E hE 0 2
    hf2 (by norm_num) (by simp)
  have hfl2 : ∀ x ∈ [![(2 : ℝ)], ![2]], ∀ i, IsFloat 53 (x i) := by
    intro x hx i
    fin_cases i
    simp only [List.mem_cons, List.not_mem_nil, or_false, or_self] at hx
    rw [hx]; simpa using hf2
  have hinc := h fl hfl srt hs 1 _ (by simp) hfl2 E hE l (List.mem_of_getElem? hl)
  obtain ⟨l', hl', n, hn, -, -, -, hn5⟩ := C144_partial (by norm_num) hfl srt _ .none none none 5 1000 (by norm_num)
    (by norm_num) (by norm_num) none (by simp) 1 none one_pos ext hext (by
      obtain ⟨ext', hext', hx⟩ := C22_none [![(2 : ℝ)], ![2]] (by simp)
      rw [hext] at hext'
      obtain rfl := Except.ok.inj hext'
      intro i
      have h1 := (hx i).1
      have h2 := (hx i).2.1
      obtain ⟨y, hy, e1⟩ := List.mem_map.mp h1
      obtain ⟨z, hz, e2⟩ := List.mem_map.mp h2
      exact ⟨e1 ▸ hfl2 y hy i, e2 ▸ hfl2 z hz i⟩) (by
      obtain ⟨ext', hext', hx⟩ := C22_none [![(2 : ℝ)], ![2]] (by simp)
      rw [hext] at hext'
      obtain rfl := Except.ok.inj hext'
      intro i
      exact ((hx i).2.2 _ (hx i).1).2) E hE 0 .auto rfl (Or.inl rfl)
  rw [hl] at hl'
  obtain rfl := Option.some.inj hl'
  have hn5' : 5 ≤ (n : ℤ) := hn5.1
  have := List.pairwise_iff_getElem.mp hinc 0 1 (by omega) (by omega) (by norm_num)
  rw [hl2 _ (List.getElem_mem _), hl2 _ (List.getElem_mem _)] at this
  exact lt_irrefl _ this

/-- Three bins for the data 1, 4 in double precision: four values in weakly increasing order, from at most 1 to at
least 4. -/
example (hfl : Nearest 53 fl) (srt : List ℝ → List ℕ) (hs : ∀ l, IsArgsort (srt l) l) :
    ∃ E, parseEdgesFl (d := 1) fl srt [![1], ![4]] (.int 3) none none 5 1000 none 1 none = .ok E ∧
      ∃ l, E[0]? = some l ∧ l.length = 4 ∧ l.Pairwise (· ≤ ·) := by
  obtain ⟨ext, hext, hx⟩ := C22_none [![(1 : ℝ)], ![4]] (by simp)
  have h1 : ∀ i, (ext i).1 < (ext i).2 := by
    intro i
    have a := (hx i).2.2 1 (by fin_cases i; simp)
    have b := (hx i).2.2 4 (by fin_cases i; simp)
    linarith [a.1, b.2]
  obtain ⟨E, hE⟩ := C144_succeeds (by norm_num) hfl srt hs _ (by simp) (.int 3) (Or.inr ⟨3, by norm_num, rfl⟩) none 5 1000
    (by norm_num) (by norm_num) none 1 none ext hext (fun i => Or.inl (h1 i))
  refine ⟨E, hE, ?_⟩
  have hmem : ∀ i : Fin 1, ∀ y ∈ [![(1 : ℝ)], ![4]].map (· i), IsFloat 53 y := by
    intro i y hy
    fin_cases i
    simp only [Fin.zero_eta, Fin.isValue, List.map_cons, Matrix.cons_val_fin_one, List.map_nil, List.mem_cons,
      List.not_mem_nil, or_false] at hy
    rcases hy with rfl | rfl
    · exact isFloat_one
    · simpa using isFloat_int (p := 53) (m := 4) (by norm_num)
  obtain ⟨l, hl, n, hn, hinc, -, -, h3⟩ := C144_partial (by norm_num) hfl srt _ (.int 3) none none 5 1000 (by norm_num)
    (by norm_num) (by norm_num) none (by simp) 1 none one_pos ext hext
    (fun i => ⟨hmem i _ (hx i).1, hmem i _ (hx i).2.1⟩) (fun i => (h1 i).le) E hE 0 (.int 3) rfl
    (Or.inr ⟨3, by norm_num, by norm_num, rfl⟩)
  have h3' : (n : ℤ) = 3 := h3
  exact ⟨l, hl, by omega, hinc⟩

end Kalepy
