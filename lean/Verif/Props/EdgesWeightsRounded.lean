import Verif.Props.EdgesRounded

/-!
# C144: automatic edges of weighted data in floating point arithmetic
-/

namespace Kalepy

open Spec

variable {p d : ℕ} {fl : ℝ → ℝ}

private lemma last_bounds {u : ℝ} (hu : Accurate u fl) (hu0 : 0 ≤ u) (hu1 : u ≤ 1) (l : List ℝ) : ∀ acc : ℝ, 0 ≤ acc → (∀ x ∈ l, 0 ≤ x) →
    (1 - u) ^ l.length * (acc + l.sum) ≤ (cumsumFrom fl acc l).getLastD acc ∧
    (cumsumFrom fl acc l).getLastD acc ≤ (1 + u) ^ l.length * (acc + l.sum) := by
  induction l with
  | nil => intro acc _ _; simp [cumsumFrom]
  | cons x l ih =>
    intro acc ha hl
    have hx := hl x List.mem_cons_self
    have hls : 0 ≤ l.sum := List.sum_nonneg fun y hy => hl y (List.mem_cons_of_mem _ hy)
    have hb := hu (acc + x)
    rw [abs_of_nonneg (add_nonneg ha hx), abs_le] at hb
    have h0 : 0 ≤ fl (acc + x) := by nlinarith [hb.1]
    obtain ⟨i1, i2⟩ := ih _ h0 fun y hy => hl y (List.mem_cons_of_mem _ hy)
    have e : (cumsumFrom fl acc (x :: l)).getLastD acc = (cumsumFrom fl (fl (acc + x)) l).getLastD (fl (acc + x)) := by
      simp only [cumsumFrom, List.getLastD_cons]
    have p1 : 0 ≤ (1 - u) ^ l.length := pow_nonneg (by linarith) _
    have p2 : 0 ≤ (1 + u) ^ l.length := pow_nonneg (by linarith) _
    rw [e, List.sum_cons, List.length_cons, pow_succ, pow_succ]
    constructor
    · refine le_trans ?_ i1
      rw [mul_assoc]
      exact mul_le_mul_of_nonneg_left (by nlinarith [hb.1]) p1
    · refine i2.trans ?_
      rw [mul_assoc]
      exact mul_le_mul_of_nonneg_left (by nlinarith [hb.2]) p2

private lemma sumFl_bounds {u : ℝ} (hu : Accurate u fl) (hu0 : 0 ≤ u) (hu1 : u ≤ 1) {l : List ℝ} (hl : ∀ x ∈ l, 0 ≤ x) :
    (1 - u) ^ l.length * l.sum ≤ sumFl fl l ∧ sumFl fl l ≤ (1 + u) ^ l.length * l.sum := by
  simpa [sumFl] using last_bounds hu hu0 hu1 l 0 le_rfl hl

private lemma sum_sq_le (l : List ℝ) (hl : ∀ x ∈ l, 0 ≤ x) : (l.map (· ^ 2)).sum ≤ l.sum ^ 2 := by
  induction l with
  | nil => simp
  | cons x l ih =>
    have hx := hl x List.mem_cons_self
    have hls : 0 ≤ l.sum := List.sum_nonneg fun y hy => hl y (List.mem_cons_of_mem _ hy)
    have := ih fun y hy => hl y (List.mem_cons_of_mem _ hy)
    simp only [List.map_cons, List.sum_cons]
    nlinarith [mul_nonneg hx hls]

/-- The effective number of weighted points is computed, and is not much smaller than one. -/
lemma guessNeffFl_weights (hp : 4 ≤ p) (hfl : Nearest p fl) {data w : List ℝ} (hwl : w.length = data.length) (hlen : data.length < 2 ^ (p - 4))
    (hw0 : ∀ x ∈ w, 0 ≤ x) (hwp : ∃ x ∈ w, 0 < x) : ∃ N, guessNeffFl fl data (some w) = .ok N ∧ 3 / 4 ≤ N := by
  have hp1 : 1 ≤ p := by omega
  have hu := hfl.accurate hp1
  set u : ℝ := (1 / 2) ^ p with hudef
  have hu0 : 0 < u := by positivity
  have hnu : ((w.length : ℝ) + 1) * u ≤ 1 / 16 := by
    have h1 : (w.length : ℝ) + 1 ≤ 2 ^ (p - 4) := by
      rw [hwl]
      exact_mod_cast hlen
    have h2 : u = (1 / 2) ^ (p - 4) * (1 / 16) := by
      rw [hudef, show p = (p - 4) + 4 by omega, pow_add]
      norm_num
    have h3 : (2 : ℝ) ^ (p - 4) * (1 / 2) ^ (p - 4) = 1 := by rw [← mul_pow]; norm_num
    have h4 : (0 : ℝ) < (1 / 2) ^ (p - 4) := by positivity
    rw [h2]
    nlinarith
  have hu1 : u ≤ 1 / 16 := by nlinarith [Nat.cast_nonneg (α := ℝ) w.length]
  set sq := w.map fun x => fl (x ^ 2) with hsq
  have hsq0 : ∀ x ∈ sq, 0 ≤ x := by
    intro x hx
    obtain ⟨y, -, rfl⟩ := List.mem_map.mp hx
    exact fl_nonneg hfl (sq_nonneg y)
  obtain ⟨z, hz, hz0⟩ := hwp
  have hQ : 0 < sumFl fl sq := sumFl_pos hp1 hfl hsq0 ⟨_, List.mem_map.mpr ⟨z, hz, rfl⟩, pos_of_fl hp1 hfl (by positivity)⟩
  have hS := (sumFl_bounds hu hu0.le (by linarith) hw0).1
  have hQ' := (sumFl_bounds hu hu0.le (by linarith) hsq0).2
  have hW : 0 < w.sum := by
    refine lt_of_lt_of_le hz0 (List.single_le_sum hw0 z hz)
  have hsum : sq.sum ≤ (1 + u) * w.sum ^ 2 := by
    refine le_trans ?_ (mul_le_mul_of_nonneg_left (sum_sq_le w hw0) (by linarith))
    rw [← List.sum_map_mul_left]
    refine List.sum_le_sum fun x _ => ?_
    exact accurate_le hu (sq_nonneg x)
  have hlsq : sq.length = w.length := by rw [hsq, List.length_map]
  rw [hlsq] at hQ'
  set n := w.length with hn
  have hb := one_add_mul_le_pow (a := -u) (by linarith) (3 * (n + 1))
  have hb : 3 / 4 ≤ (1 - u) ^ (3 * (n + 1)) := by
    rw [← sub_eq_add_neg] at hb
    refine le_trans ?_ hb
    push_cast
    nlinarith
  set A := (1 - u) ^ (n + 1) with hA
  set B := (1 + u) ^ (n + 1) with hB
  have hA0 : 0 < A := pow_pos (by linarith) _
  have hB0 : 0 < B := pow_pos (by linarith) _
  have hAB : A * B ≤ 1 := by
    rw [hA, hB, ← mul_pow]
    exact pow_le_one₀ (by nlinarith) (by nlinarith)
  have hA3 : 3 / 4 ≤ A ^ 3 := by rw [hA, ← pow_mul, mul_comm]; exact hb
  have hQB : sumFl fl sq ≤ B * w.sum ^ 2 := by
    refine hQ'.trans ?_
    rw [hB, pow_succ, mul_assoc]
    exact mul_le_mul_of_nonneg_left hsum (pow_nonneg (by linarith) _)
  have hSA : A * w.sum ≤ (1 - u) * sumFl fl w := by
    rw [hA, pow_succ, mul_comm _ (1 - u), mul_assoc]
    exact mul_le_mul_of_nonneg_left hS (by linarith)
  have hS2 : (A * w.sum) ^ 2 ≤ (1 - u) ^ 2 * sumFl fl w ^ 2 := by
    rw [← mul_pow]
    exact pow_le_pow_left₀ (by positivity) hSA 2
  have lower : ∀ x : ℝ, 0 ≤ x → (1 - u) * x ≤ fl x := by
    intro x hx
    have := hu x
    rw [abs_of_nonneg hx, abs_le] at this
    linarith [this.1]
  refine ⟨fl (fl (sumFl fl w ^ 2) / sumFl fl sq), ?_, ?_⟩
  · simp only [guessNeffFl]
    rw [if_neg (by simpa using hwl), if_neg hQ.ne']
  · have hf1 := lower _ (sq_nonneg (sumFl fl w))
    have hf0 : 0 ≤ fl (sumFl fl w ^ 2) := fl_nonneg hfl (sq_nonneg _)
    refine le_trans ?_ (lower _ (div_nonneg hf0 hQ.le))
    rw [← mul_div_assoc, le_div_iff₀ hQ]
    have h1 : (1 - u) ^ 2 * sumFl fl w ^ 2 ≤ (1 - u) * fl (sumFl fl w ^ 2) := by
      rw [pow_two, mul_assoc]
      exact mul_le_mul_of_nonneg_left hf1 (by linarith)
    have h2 : 3 / 4 * sumFl fl sq ≤ A ^ 3 * (B * w.sum ^ 2) :=
      mul_le_mul hA3 hQB hQ.le (by positivity)
    have h3 : A ^ 3 * (B * w.sum ^ 2) = (A * B) * (A * w.sum) ^ 2 := by ring
    have h4 : (A * B) * (A * w.sum) ^ 2 ≤ (A * w.sum) ^ 2 := mul_le_of_le_one_left (sq_nonneg _) hAB
    linarith

lemma iqrangeFl_weights (hp : 1 ≤ p) (hfl : Nearest p fl) {srt : List ℝ → List ℕ} (hs : ∀ l, IsArgsort (srt l) l)
    {data w : List ℝ} (hne : data ≠ []) (hwl : w.length = data.length) (hw0 : ∀ x ∈ w, 0 ≤ x) (hwp : ∃ x ∈ w, 0 < x) :
    ∃ q, iqrangeFl fl srt data (some w) = .ok q := by
  have hls : (srt data).length = data.length := by simpa using (hs data).1.length_eq
  have hlt : ∀ i ∈ srt data, i < w.length := fun i hi => by rw [hwl]; exact (hs data).lt i hi
  have hsum : sumFl fl ((srt data).map fun i => w.getD i 0) ≠ 0 := by
    refine (sumFl_pos hp hfl ?_ ?_).ne'
    · intro x hx
      obtain ⟨i, hi, rfl⟩ := List.mem_map.mp hx
      rw [List.getD_eq_getElem _ _ (hlt i hi)]
      exact hw0 _ (List.getElem_mem _)
    · obtain ⟨x, hx, hx0⟩ := hwp
      obtain ⟨i, hi, rfl⟩ := List.getElem_of_mem hx
      refine ⟨_, List.mem_map.mpr ⟨i, (hs data).1.mem_iff.mpr (List.mem_range.mpr (hwl ▸ hi)), rfl⟩, ?_⟩
      rw [List.getD_eq_getElem _ _ hi]
      exact hx0
  unfold iqrangeFl quantilesFl
  simp only [Option.getD_some]
  rw [if_neg (by norm_num), if_neg (by rintro h; exact h hlt), if_neg hsum, if_neg (by
    rintro (h | h)
    · simp at h
    · have := congrArg List.length h
      simp only [List.length_map, hls, List.length_nil] at this
      exact hne (List.length_eq_zero_iff.mp this))]
  exact ⟨_, rfl⟩

private lemma fl_log (hp : 4 ≤ p) (hfl : Nearest p fl) {x : ℝ} (hx : 3 / 4 ≤ x) : -1 < fl (Real.logb 2 x) := by
  have h1 : -(1 / 2) ≤ Real.logb 2 x := by
    have h2 : (2 : ℝ) * Real.logb 2 x = Real.logb 2 (x ^ 2) := by rw [Real.logb_pow]; norm_num
    have h3 : Real.logb 2 (1 / 2) ≤ Real.logb 2 (x ^ 2) := Real.logb_le_logb_of_le (by norm_num) (by norm_num) (by nlinarith)
    have h4 : Real.logb 2 (1 / 2) = -1 := by rw [one_div, Real.logb_inv, Real.logb_self_eq_one (by norm_num)]
    linarith
  rcases le_total 0 (Real.logb 2 x) with h | h
  · linarith [fl_nonneg hfl h]
  · have hu := hfl.accurate (by omega) (Real.logb 2 x)
    rw [abs_of_nonpos h, abs_le] at hu
    have hu1 : ((1 : ℝ) / 2) ^ p ≤ 1 / 2 := (pow_le_pow_of_le_one (by norm_num) (by norm_num) (show 1 ≤ p by omega)).trans (by norm_num)
    have hu0 : (0 : ℝ) ≤ (1 / 2) ^ p := by positivity
    nlinarith [hu.1]

/-- **C144**, edges are returned: with nonnegative weights of which one is positive, and fewer than `2^(p-4)` data (in double precision: `2^49`), `parse_edges`
succeeds in floating point arithmetic if in every dimension the extrema have a positive range or all data agree. -/
theorem C144_succeeds_weights (hp : 4 ≤ p) (hfl : Nearest p fl) (srt : List ℝ → List ℕ) (hs : ∀ l, IsArgsort (srt l) l)
    (data : List (Fin d → ℝ)) (hlen : data.length < 2 ^ (p - 4)) (weights : List ℝ)
    (hwl : weights.length = data.length) (hw0 : ∀ x ∈ weights, 0 ≤ x) (hwp : ∃ x ∈ weights, 0 < x) (edges : EdgeArg)
    (hedges : edges = .none ∨ ∃ n : ℤ, 0 ≤ n ∧ edges = .int n) (extrema : Option (List ExtElem))
    (nmin nmax : ℤ) (h0 : 0 ≤ nmin) (h1 : nmin ≤ nmax) (pad : Option ℝ) (refine : ℝ)
    (bw : Option (Matrix (Fin d) (Fin d) ℝ)) (ext : Fin d → ℝ × ℝ) (hext : parseExtremaOf data extrema = .ok ext)
    (hspan : ∀ i, (ext i).1 < (ext i).2 ∨ ∃ c, ∀ x ∈ data, x i = c) :
    ∃ E, parseEdgesFl fl srt data edges extrema (some weights) nmin nmax pad refine bw = .ok E := by
  have hp1 : 1 ≤ p := by omega
  have hne : data ≠ [] := by
    rintro rfl
    obtain ⟨x, hx, -⟩ := hwp
    rw [List.length_nil, List.length_eq_zero_iff] at hwl
    rw [hwl] at hx
    cases hx
  have hguess : ∀ i : Fin d, ∃ n w, guessEdgesFl fl srt (dataRow data i) (ext i) (some weights) d nmin nmax refine
      (bw.map fun b => b i i) = .ok (n, w) ∧ 0 ≤ n := by
    intro i
    have hnr : dataRow data i ≠ [] := by simpa [dataRow] using hne
    obtain ⟨q, e3⟩ := iqrangeFl_weights hp1 hfl hs hnr (by simpa [dataRow] using hwl) hw0 hwp
    obtain ⟨N, e2, hN⟩ := guessNeffFl_weights hp hfl (data := dataRow data i) (by simpa [dataRow] using hwl) (by simpa [dataRow] using hlen) hw0 hwp
    have hn : ∀ k : ℤ, 0 ≤ min (max k nmin) nmax := fun k => le_min (h0.trans (le_max_right _ _)) (h0.trans h1)
    simp only [guessEdgesFl, e2, e3]
    rw [if_neg (by linarith)]
    generalize hW : guessWidthsFl fl (fl ((ext i).2 - (ext i).1)) q (reduceNeffFl fl d N)
      (bw.map fun b => b i i) = W
    have hred : 3 / 4 ≤ reduceNeffFl fl d N := by
      unfold reduceNeffFl
      split_ifs
      · exact le_max_of_le_right (by norm_num)
      · exact hN
    by_cases hsp : 0 < fl ((ext i).2 - (ext i).1)
    · have hlog : -1 < fl (Real.logb 2 (reduceNeffFl fl d N)) := fl_log hp hfl hred
      have hpos : 0 < fl (fl ((ext i).2 - (ext i).1) /
          fl (fl (Real.logb 2 (reduceNeffFl fl d N)) + 1)) :=
        pos_of_fl hp1 hfl (div_pos hsp (pos_of_fl hp1 hfl (by linarith)))
      have : ∃ w, guessWidthFl fl (dataRow data i) W refine = .ok w := by
        unfold guessWidthFl
        split
        · exact ⟨_, rfl⟩
        · rename_i he
          rw [List.filter_eq_nil_iff] at he
          exact absurd hpos (by simpa using he _ (by rw [← hW]; exact List.mem_cons_self))
      obtain ⟨w, e4⟩ := this
      simp only [e4, spanWidthFl, if_pos hsp]
      exact ⟨_, _, rfl, hn _⟩
    · obtain h | ⟨c, hc⟩ := hspan i
      · exact absurd (pos_of_fl hp1 hfl (sub_pos.mpr h)) hsp
      · have ha : allCloseFl fl (dataRow data i) = true := allCloseFl_const hfl (c := c) (by
          intro x hx
          obtain ⟨y, hy, rfl⟩ := List.mem_map.mp hx
          exact hc y hy)
        have : ∃ w, guessWidthFl fl (dataRow data i) W refine = .ok w := by
          unfold guessWidthFl
          split
          · exact ⟨_, rfl⟩
          · rw [if_pos ha]; exact ⟨_, rfl⟩
        obtain ⟨w, e4⟩ := this
        simp only [e4, spanWidthFl, if_neg hsp, if_pos ha]
        exact ⟨_, _, rfl, hn _⟩
  have fin : ∀ spec : EdgeSpec, (spec = .auto ∨ ∃ n : ℤ, 0 ≤ n ∧ spec = .int n) →
      edgeSpecs d edges = .ok (List.replicate d spec) →
      ∃ E, parseEdgesFl fl srt data edges extrema (some weights) nmin nmax pad refine bw = .ok E := by
    intro spec hspec hes
    have key : ∀ i : Fin d, ∃ l, getEdges1dFl fl srt ((List.replicate d spec).getD i .auto) (dataRow data i) (ext i) (some weights) d
        nmin nmax (pad.getD (if extrema.isNone then 1 else 0)) refine (bw.map fun b => b i i) = .ok l := by
      intro i
      have hsp : (List.replicate d spec).getD i .auto = spec := by simp [List.getD_eq_getElem?_getD]
      rw [hsp]
      obtain ⟨n, w, e, hn⟩ := hguess i
      obtain rfl | ⟨m, hm, rfl⟩ := hspec
      all_goals
        simp only [getEdges1dFl, e]
        rw [if_neg (by omega), if_neg (by omega)]
        exact ⟨_, rfl⟩
    choose f hf using key
    refine ⟨List.ofFn f, ?_⟩
    simp only [parseEdgesFl, hext, hes, finSeq_ok.mpr hf]
  obtain rfl | ⟨n, hn, rfl⟩ := hedges
  · exact fin .auto (Or.inl rfl) rfl
  · exact fin (.int n) (Or.inr ⟨n, hn, rfl⟩) rfl

/-- Hypotheses of `C144_succeeds_weights`: three weighted points in two dimensions (in the second all agree), in double precision. -/
example : ∃ (fl : ℝ → ℝ) (data : List (Fin 2 → ℝ)) (weights : List ℝ) (ext : Fin 2 → ℝ × ℝ), Nearest 53 fl ∧ data.length < 2 ^ (53 - 4) ∧
    weights.length = data.length ∧ (∀ x ∈ weights, 0 ≤ x) ∧ (∃ x ∈ weights, 0 < x) ∧ parseExtremaOf data none = .ok ext ∧
    ∀ i, (ext i).1 < (ext i).2 ∨ ∃ c, ∀ x ∈ data, x i = c := by
  obtain ⟨fl, hfl⟩ := exists_nearest (p := 53) (by norm_num)
  obtain ⟨ext, hext, hx⟩ := C22_none [![(0 : ℝ), 2], ![1, 2], ![3, 2]] (by simp)
  refine ⟨fl, _, [0, 1, 2], ext, hfl, by norm_num, rfl, by simp, ⟨1, by simp, one_pos⟩, hext, fun i => ?_⟩
  fin_cases i
  · left
    have h1 := (hx 0).2.2 0 (by simp)
    have h2 := (hx 0).2.2 3 (by simp)
    show (ext 0).1 < (ext 0).2
    linarith [h1.1, h2.2]
  · exact Or.inr ⟨2, by simp⟩

end Kalepy
