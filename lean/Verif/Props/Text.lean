import Verif.Model.Text
import Verif.Props.Quantiles

/-!
# C117, C118, C119: textual summaries of arrays
-/

namespace Kalepy

/-! ## C117: `array_str` and `stats` -/

/-- Formatted elements, separated by commas. -/
def Spec.listing {α : Type*} (fmt : α → String) (l : List α) : String := ", ".intercalate (l.map fmt)

/-- **C117, full statement**: `array_str(data, num)` shows all elements if there are at most `2*num` of them (or with
`num=None`), and otherwise the first and the last `num` elements; and `stats` gives the requested parts, separated
by dashes. -/
def C117_Claim : Prop :=
  (∀ (α : Type) (fmt : α → String) (a b c : List α), a.length = c.length → b ≠ [] →
    arrayStr fmt (a ++ b ++ c) (some a.length) = "[" ++ Spec.listing fmt a ++ " ... " ++ Spec.listing fmt c ++ "]") ∧
  (∀ (α : Type) (fmt : α → String) (shp s : String) (data : List α) (shape : Bool) (sample : Option ℤ) (stats : Bool),
    (shape = true ∨ sample ≠ none ∨ stats = true) →
    statsAll fmt shp (.ok s) data shape sample stats = .ok (" - ".intercalate
      ((if shape then [shp] else []) ++ (sample.elim [] fun n => [arrayStr fmt data (some n)]) ++
        (if stats then [s] else []))))

lemma pySliceTo_append {α : Type*} (a b : List α) : pySliceTo (a ++ b) a.length = a := by
  simp [pySliceTo]

lemma pySliceFrom_append {α : Type*} (a b : List α) (h : b ≠ []) : pySliceFrom (a ++ b) (-(b.length : ℤ)) = b := by
  have : 0 < b.length := List.length_pos_iff.mpr h
  rw [pySliceFrom, if_neg (by omega)]
  simp

/-- **C117, as far as it holds** (the full statement is `C117_Claim`): all elements when they are few or with
`num=None`, otherwise the first and the last `num`, if `num` is not 0; `num=0` shows all elements after the dots.
`stats` joins its parts if the shape is among them, fails with `ValueError` exactly if nothing is requested or with
the error of `stats_str`, and without the shape its text starts with a dash. -/
theorem C117_partial {α : Type*} (fmt : α → String) :
    (∀ data, arrayStr fmt data none = "[" ++ Spec.listing fmt data ++ "]") ∧
    (∀ data (n : ℕ), data.length ≤ 2 * n → arrayStr fmt data (some n) = "[" ++ Spec.listing fmt data ++ "]") ∧
    (∀ a b c : List α, a.length = c.length → b ≠ [] → a ≠ [] → arrayStr fmt (a ++ b ++ c) (some a.length)
      = "[" ++ Spec.listing fmt a ++ " ... " ++ Spec.listing fmt c ++ "]") ∧
    (∀ data : List α, data ≠ [] → arrayStr fmt data (some 0) = "[ ... " ++ Spec.listing fmt data ++ "]") ∧
    (∀ shp s data (sample : Option ℤ) stats, statsAll fmt shp (.ok s) data true sample stats
      = .ok (" - ".intercalate ([shp] ++ (sample.elim [] fun n => [arrayStr fmt data (some n)]) ++
        (if stats then [s] else [])))) ∧
    (∀ shp s data (sample : Option ℤ) stats, sample ≠ none ∨ stats = true → statsAll fmt shp (.ok s) data false sample stats
      = .ok (" - ".intercalate ([""] ++ (sample.elim [] fun n => [arrayStr fmt data (some n)]) ++
        (if stats then [s] else [])))) ∧
    (∀ shp r data, statsAll fmt shp r data false none false = .error .valueError) ∧
    (∀ shp e data shape (sample : Option ℤ), statsAll fmt shp (.error e) data shape sample true = .error e) := by
  refine ⟨fun data => rfl, fun data n h => ?_, fun a b c hac hb ha => ?_, fun data hd => ?_, fun shp s data sample stats => ?_,
    fun shp s data sample stats h => ?_, fun _ _ _ => rfl, fun shp e data shape sample => ?_⟩
  · have : (data.length : ℤ) ≤ 2 * (n : ℤ) := by exact_mod_cast h
    simp only [arrayStr, if_pos this]
    rfl
  · have hb' : 0 < b.length := List.length_pos_iff.mpr hb
    have hc : c ≠ [] := by
      rintro rfl
      exact ha (List.length_eq_zero_iff.mp hac)
    have hn : ¬ ((a ++ b ++ c).length : ℤ) ≤ 2 * (a.length : ℤ) := by
      simp only [List.length_append]
      omega
    simp only [arrayStr, if_neg hn]
    have h1 : pySliceTo (a ++ b ++ c) (a.length : ℤ) = a := by
      rw [List.append_assoc]
      exact pySliceTo_append a _
    have h2 : pySliceFrom (a ++ b ++ c) (-(a.length : ℤ)) = c := by
      rw [hac]
      exact pySliceFrom_append _ c hc
    rw [h1, h2]
    simp only [Spec.listing, String.append_assoc]
  · have hd' : 0 < data.length := List.length_pos_iff.mpr hd
    have hn : ¬ (data.length : ℤ) ≤ 2 * 0 := by omega
    simp only [arrayStr, if_neg hn, pySliceTo, pySliceFrom]
    simp only [le_refl, if_true, Int.toNat_zero, List.take_zero, List.map_nil, neg_zero, List.drop_zero]
    rfl
  · rw [statsAll, if_neg (by simp)]
    cases sample <;> cases stats <;> simp [String.intercalate_cons_cons, String.append_assoc]
  · rw [statsAll, if_neg (by rintro ⟨_, h1, h2⟩; rcases h with h | h; exacts [h h1, by simp [h2] at h])]
    cases sample <;> cases stats <;> simp [String.intercalate_cons_cons, String.append_assoc] at h ⊢
  · rw [statsAll, if_neg (by simp)]
    simp

/-- **C117 is false of the code**: `array_str(data, num=0)` shows all of the data. -/
theorem C117_refuted : ¬ C117_Claim := by
  rintro ⟨h, _⟩
  have h1 := h Unit (fun _ => "x") [] [()] [] rfl (by simp)
  have h2 := (C117_partial (fun _ : Unit => "x")).2.2.2.1 [()] (by simp)
  simp only [List.nil_append, List.append_nil, List.length_nil] at h1
  rw [show ((0 : ℕ) : ℤ) = 0 from rfl, h2] at h1
  revert h1
  decide

/-- The second half of C117 is false as well: the text starts with a dash if no shape is requested. -/
theorem C117_stats_refuted : ¬ C117_Claim := by
  rintro ⟨_, h⟩
  have h1 := h Unit (fun _ => "x") "" "s" [] false none true (by simp)
  have h2 := (C117_partial (fun _ : Unit => "x")).2.2.2.2.2.1 "" "s" [] none true (by simp)
  rw [h2] at h1
  have h3 := Except.ok.inj h1
  revert h3
  decide

/-! ## C118: `stats_str` -/

/-- The text of a summary: the requested parts, separated by commas. -/
def Spec.summary (fmt : ℝ → String) (pct : ℝ → String) (ave std : Option ℝ) (tiles : Option (List (ℝ × ℝ)))
    (label : Bool) : String :=
  ", ".intercalate ((ave.elim [] fun a => ["ave = " ++ fmt a]) ++ (std.elim [] fun s => ["std = " ++ fmt s]) ++
    (tiles.elim [] fun l => ["(" ++ ", ".intercalate (l.map fun q => fmt q.2) ++ "), for (" ++
      ", ".intercalate (l.map fun q => pct q.1) ++ ")"])) ++ (if label then " (log values)" else "")

/-- Specification: the arithmetic mean. -/
noncomputable def Spec.average (l : List ℝ) : ℝ := (∑ i : Fin l.length, l.get i) / l.length

/-- Specification: the standard deviation, the root of the mean of the squares minus the square of the mean. -/
noncomputable def Spec.deviation (l : List ℝ) : ℝ :=
  Real.sqrt ((∑ i : Fin l.length, l.get i ^ 2) / l.length - ((∑ i : Fin l.length, l.get i) / l.length) ^ 2)

lemma average_eq (l : List ℝ) : Spec.average l = npAverage l := by
  have : ∑ i : Fin l.length, l.get i = l.sum := by
    rw [← List.sum_ofFn, List.ofFn_get]
  rw [Spec.average, npAverage, this]

lemma deviation_eq (l : List ℝ) : Spec.deviation l = npStd l := by
  have h1 : ∑ i : Fin l.length, l.get i = l.sum := by
    rw [← List.sum_ofFn, List.ofFn_get]
  have h2 : ∑ i : Fin l.length, l.get i ^ 2 = (l.map fun x => x ^ 2).sum := by
    rw [← List.sum_ofFn]
    congr 1
    rw [show (fun i : Fin l.length => l.get i ^ 2) = (fun x : ℝ => x ^ 2) ∘ l.get from rfl, ← List.map_ofFn, List.ofFn_get]
  rw [Spec.deviation, npStd, h1, h2]
  congr 1
  have h3 : ∀ (a : ℝ) (l : List ℝ), (l.map fun x => (x - a) ^ 2).sum =
      (l.map fun x => x ^ 2).sum - 2 * a * l.sum + l.length * a ^ 2 := by
    intro a l
    induction l with
    | nil => simp
    | cons x l ih =>
      simp only [List.map_cons, List.sum_cons, ih, List.length_cons, Nat.cast_add, Nat.cast_one]
      ring
  rw [h3, npAverage]
  rcases eq_or_ne (l.length : ℝ) 0 with h | h
  · rw [h]
    simp
  · field_simp
    ring

/-- **C118, full statement**: the text shows the average, the standard deviation and the quantiles of the data (of
their logarithms, if requested); without fractions, no quantiles. -/
def C118_Claim : Prop :=
  ∀ (srt : List ℝ → List ℕ), (∀ l, IsArgsort (srt l) l) → ∀ (dt : DType) (data : List ℝ), (∀ x ∈ data, dt.store x = x) →
    data ≠ [] → ∀ (percs : Option (List ℝ)), (∀ l, percs = some l → ∀ p ∈ l, 0 ≤ p ∧ p ≤ 1) →
    ∀ (ave std log label : Bool) (format : Option NumFormat), (log = true → ∀ x ∈ data, 0 < x) →
    ∀ data', data' = (if log then data.map (Real.logb 10) else data) →
    ∃ t f, statsText srt dt data percs ave std none format log label = .ok t ∧ (∀ g, format = some g → f = g) ∧
      ∃ tiles : Option (List (ℝ × ℝ)),
      (percs = none ∨ percs = some [] → tiles = none) ∧
      (∀ l, percs = some l → l ≠ [] → ∃ q, quantiles srt data' l = .ok q ∧ tiles = some (l.zip q)) ∧
      ∀ fmt pct, t.render fmt pct = Spec.summary (fmt f) pct (if ave then some (Spec.average data') else none)
        (if std then some (Spec.deviation data') else none) tiles (log && label)

/-- The quantiles that are shown: for integer data (without logarithm) they are truncated towards zero. -/
noncomputable def Spec.shownQuantile (dt : DType) (log : Bool) (q : ℝ) : ℝ :=
  if dt = .int ∧ log = false then ((if 0 ≤ q then ⌊q⌋ else ⌈q⌉ : ℤ) : ℝ) else q

lemma shown_eq (dt : DType) (log : Bool) (q : ℝ) : (if log then DType.float else dt).store q = Spec.shownQuantile dt log q := by
  cases dt <;> cases log <;> simp [Spec.shownQuantile, DType.store, pyInt]

/-- **C118, as far as it holds** (the full statement is `C118_Claim`): the text shows what it should, except that
quantiles of integer data are truncated towards zero; and `percs=None` raises `TypeError` (an empty list omits the
quantiles).  Weights, if given, only affect the quantiles. -/
theorem C118_partial {srt : List ℝ → List ℕ} (hs : ∀ l, IsArgsort (srt l) l) (dt : DType) (data : List ℝ)
    (hne : data ≠ []) (l : List ℝ) (hp : ∀ p ∈ l, 0 ≤ p ∧ p ≤ 1) (ave std log label : Bool) (format : Option NumFormat)
    (hlog : log = true → ∀ x ∈ data, 0 < x) (w : Option (List ℝ)) (hw : ∀ v, w = some v → v.length = data.length ∧ 0 < v.sum)
    (data' : List ℝ) (hd : data' = if log then data.map (Real.logb 10) else data) :
    (∃ t f, statsText srt dt data (some l) ave std w format log label = .ok t ∧ (∀ g, format = some g → f = g) ∧
      ∃ tiles : Option (List (ℝ × ℝ)), (l = [] → tiles = none) ∧
      (l ≠ [] → ∃ q, quantiles srt data' l w = .ok q ∧ tiles = some (l.zip (q.map (Spec.shownQuantile dt log)))) ∧
      ∀ fmt pct, t.render fmt pct = Spec.summary (fmt f) pct (if ave then some (Spec.average data') else none)
        (if std then some (Spec.deviation data') else none) tiles (log && label)) ∧
    statsText srt dt data none ave std w format log label = .error .typeError := by
  rw [average_eq, deviation_eq]
  have hne' : data' ≠ [] := by
    subst hd
    cases log <;> simp [hne]
  have hlen' : data'.length = data.length := by
    subst hd
    cases log <;> simp
  have h0 : ¬ (log = true ∧ ¬ ∀ x ∈ data, 0 < x) := by
    rintro ⟨h1, h2⟩
    exact h2 (hlog h1)
  have hrender : ∀ (t : StatsText) (tiles : Option (List (ℝ × ℝ))),
      t.tiles = tiles.map (fun z => (z.map Prod.snd, z.map Prod.fst)) → ∀ fmt pct,
      t.render fmt pct = Spec.summary (fmt t.format) pct t.ave t.std tiles t.label := by
    rintro ⟨f, a, s, q, lb⟩ tiles ht fmt pct
    simp only at ht
    subst ht
    have hsep : ∀ x : String, ")" ++ (", for (" ++ x) = "), for (" ++ x := fun x => by
      rw [← String.append_assoc]
      rfl
    cases a <;> cases s <;> cases tiles <;> cases lb <;>
      simp [hsep, StatsText.render, Spec.summary, String.intercalate_cons_cons, String.append_assoc, Function.comp_def]
  constructor
  · unfold statsText
    rw [if_neg h0]
    simp only
    rw [← hd]
    by_cases hl : l = []
    · rw [if_pos hl, if_neg (by simp [hne'])]
      refine ⟨_, _, rfl, ?_, none, fun _ => rfl, fun h => absurd hl h, fun fmt pct => hrender _ none rfl fmt pct⟩
      rintro g rfl
      rfl
    · rw [if_neg hl]
      have hq : ∃ q, quantiles srt data' l w = .ok q ∧ q.length = l.length := by
        cases w with
        | some v =>
          obtain ⟨h1, h2⟩ := hw v rfl
          rw [quantiles_eq (hs _) (by rw [h1, hlen']) hne' h2.ne' hp]
          exact ⟨_, rfl, by simp⟩
        | none =>
          have : quantiles srt data' l none = quantiles srt data' l (some (data'.map fun _ => 1)) := rfl
          rw [this, quantiles_eq (hs _) (by simp) hne' (by
            simp only [List.map_const', List.sum_replicate, smul_eq_mul, mul_one, nsmul_eq_mul]
            exact_mod_cast (List.length_pos_iff.mpr hne').ne') hp]
          exact ⟨_, rfl, by simp⟩
      obtain ⟨q, hq, hql⟩ := hq
      rw [hq]
      simp only
      refine ⟨_, _, rfl, ?_, some (l.zip (q.map (Spec.shownQuantile dt log))), fun h => absurd h hl, fun _ => ⟨q, rfl, rfl⟩,
        fun fmt pct => hrender _ _ ?_ fmt pct⟩
      · rintro g rfl
        rfl
      · simp only [Option.map_some]
        rw [List.map_snd_zip (by simp [hql]), List.map_fst_zip (by simp [hql])]
        congr 2
        exact List.map_congr_left fun x _ => shown_eq dt log x
  · unfold statsText
    rw [if_neg h0]

/-- **C118 is false of the code**: `percs=None` raises `TypeError`. -/
theorem C118_refuted : ¬ C118_Claim := by
  intro h
  obtain ⟨srt, hs⟩ := exists_argsort
  have hp : ∀ p ∈ [(1 : ℝ)], 0 ≤ p ∧ p ≤ 1 := by norm_num
  obtain ⟨t, f, ht, _⟩ := h srt hs .int [0, 1] (by simp [DType.store, pyInt]) (by simp) none (by simp) false false false false
    none (by simp) _ rfl
  rw [(C118_partial hs .int [0, 1] (by simp) [1] hp false false false false none (by simp) none (by simp) _ rfl).2] at ht
  cases ht

lemma argsort_two {idx : List ℕ} (h : IsArgsort idx [(0 : ℝ), 1]) : idx = [0, 1] := by
  obtain ⟨h1, h2⟩ := h
  have : idx = [0, 1] ∨ idx = [1, 0] := by
    have hl : idx.length = 2 := by simpa using h1.length_eq
    match idx, hl with
    | [a, b], _ =>
      have ha := h1.mem_iff (a := a)
      have hb := h1.mem_iff (a := b)
      have hn := h1.nodup_iff.mpr List.nodup_range
      simp at ha hb hn
      interval_cases a <;> interval_cases b <;> simp_all
  rcases this with rfl | rfl
  · rfl
  · norm_num at h2

lemma median_two {srt : List ℝ → List ℕ} (hs : ∀ l, IsArgsort (srt l) l) :
    quantiles srt [0, 1] [1 / 2] = .ok [1 / 2] := by
  have : quantiles srt [0, 1] [1 / 2] = quantiles srt [0, 1] [1 / 2] (some [1, 1]) := rfl
  rw [this, quantiles_eq (hs _) (by simp) (by simp) (by norm_num) (by norm_num), argsort_two (hs _)]
  norm_num [npInterp, quantileGrid, npCumsum, searchRight]

/-- The truncation alone refutes C118: the median of the integers 0 and 1 is shown as 0. -/
theorem C118_int_refuted : ¬ C118_Claim := by
  intro h
  obtain ⟨srt, hs⟩ := exists_argsort
  have hp : ∀ p ∈ [(1 / 2 : ℝ)], 0 ≤ p ∧ p ≤ 1 := by norm_num
  obtain ⟨t, f, ht, hf, tiles, _, h2, h3⟩ := h srt hs .int [0, 1] (by simp [DType.store, pyInt]) (by simp) (some [1 / 2])
    (by intro l hl; cases hl; exact hp) false false false false (some .bare) (by simp) _ rfl
  obtain ⟨t', f', ht', hf', tiles', _, h2', h3'⟩ := (C118_partial hs .int [0, 1] (by simp) [1 / 2] hp false false false
    false (some .bare) (by simp) none (by simp) _ rfl).1
  rw [ht] at ht'
  cases ht'
  have e1 := h3 (fun _ x => if x = 0 then "0" else "h") fun _ => ""
  rw [h3'] at e1
  obtain ⟨q, hq, rfl⟩ := h2 _ rfl (by simp)
  obtain ⟨q', hq', rfl⟩ := h2' (by simp)
  simp only [Bool.false_eq_true, if_false] at hq hq'
  rw [median_two hs] at hq hq'
  cases hq
  cases hq'
  have : ⌊(1 / 2 : ℝ)⌋ = 0 := by norm_num
  simp only [Spec.summary, Spec.shownQuantile, Bool.false_eq_true, if_false, Option.elim, List.zip_cons_cons, List.zip_nil_right,
    List.map_cons, List.map_nil, and_self, if_true, this, Int.cast_zero, Bool.and_self,
    show (0 : ℝ) ≤ 1 / 2 by norm_num, show ¬ (1 / 2 : ℝ) = 0 by norm_num] at e1
  revert e1
  decide

/-! ## C119: the number format -/

/-- Some nonzero value is smaller than `10^(-lim)` in size. -/
def Spec.HasSmall (data : List ℝ) (lim : ℝ) : Prop := ∃ x ∈ data, x ≠ 0 ∧ |x| < (10 : ℝ) ^ (-lim)

/-- Some value is larger than `10^lim` in size. -/
def Spec.HasLarge (data : List ℝ) (lim : ℝ) : Prop := ∃ x ∈ data, (10 : ℝ) ^ lim < |x|

/-- **C119, full statement**: the guessed format is exponential exactly if some nonzero value is small or some value is
large (so that no nonzero value is shown as zero). -/
def C119_Claim : Prop :=
  ∀ (dt : DType) (data : List ℝ) (prec : ℕ) (lim : ℝ) (allowInt : Bool), 0 ≤ lim → (∃ x ∈ data, x ≠ 0) →
    (guessFormat dt data prec lim allowInt = .exp prec ↔ Spec.HasSmall data lim ∨ Spec.HasLarge data lim)

/-- **C119, as far as it holds** (the full statement is `C119_Claim`): an exponential format is only chosen when some
nonzero value is small or some value is large; large values are always noticed; small values are noticed if all
values have the same sign; otherwise the format is for integers exactly if the array has them and they are allowed.
Without nonzero values the format is the default one. -/
theorem C119_partial (dt : DType) (data : List ℝ) (prec : ℕ) (lim : ℝ) (allowInt : Bool) :
    ((∀ x ∈ data, x = 0) → guessFormat dt data prec lim allowInt = .bare) ∧
    ((∃ x ∈ data, x ≠ 0) →
      (guessFormat dt data prec lim allowInt = .exp prec → Spec.HasSmall data lim ∨ Spec.HasLarge data lim) ∧
      (Spec.HasLarge data lim → guessFormat dt data prec lim allowInt = .exp prec) ∧
      (((∀ x ∈ data, 0 ≤ x) ∨ ∀ x ∈ data, x ≤ 0) → Spec.HasSmall data lim →
        guessFormat dt data prec lim allowInt = .exp prec) ∧
      (guessFormat dt data prec lim allowInt ≠ .exp prec →
        guessFormat dt data prec lim allowInt = if dt = .int ∧ allowInt = true then .int else .fixed prec)) := by
  constructor
  · intro h
    have : data.filter (fun x => decide (x ≠ 0)) = [] := by
      rw [List.filter_eq_nil_iff]
      simpa using h
    unfold guessFormat
    rw [this]
    rfl
  · rintro ⟨x0, hx0, hx0'⟩
    have hne : data.filter (fun x => decide (x ≠ 0)) ≠ [] := List.ne_nil_of_mem (a := x0) (by simp [hx0, hx0'])
    obtain ⟨lo, hi, h1, h2⟩ := (C34_extrema dt _).1 hne
    have hmem : ∀ x, x ∈ data.filter (fun x => decide (x ≠ 0)) ↔ x ∈ data ∧ x ≠ 0 := by simp
    obtain ⟨hlo, hlo0⟩ := (hmem lo).mp h2.1
    obtain ⟨hhi, hhi0⟩ := (hmem hi).mp h2.2.1
    have hsm : ∀ x : ℝ, x ≠ 0 → (Real.logb 10 |x| < -lim ↔ |x| < (10 : ℝ) ^ (-lim)) := fun x hx =>
      Real.logb_lt_iff_lt_rpow (by norm_num) (abs_pos.mpr hx)
    have hlg : ∀ x : ℝ, x ≠ 0 → (Real.logb 10 |x| > lim ↔ (10 : ℝ) ^ lim < |x|) := fun x hx =>
      Real.lt_logb_iff_rpow_lt (by norm_num) (abs_pos.mpr hx)
    have hg : guessFormat dt data prec lim allowInt =
        if (|lo| < (10 : ℝ) ^ (-lim) ∨ |hi| < (10 : ℝ) ^ (-lim)) ∨ ((10 : ℝ) ^ lim < |lo| ∨ (10 : ℝ) ^ lim < |hi|) then
          .exp prec
        else if dt = .int ∧ allowInt = true then .int else .fixed prec := by
      unfold guessFormat
      rw [h1]
      simp only [hsm lo hlo0, hsm hi hhi0, hlg lo hlo0, hlg hi hhi0]
    rw [hg]
    refine ⟨fun h => ?_, fun ⟨x, hx, hxl⟩ => ?_, fun hsign ⟨x, hx, hx0, hxs⟩ => ?_, fun h => ?_⟩
    · by_contra hc
      simp only [Spec.HasSmall, Spec.HasLarge, not_or, not_exists, not_and, not_lt] at hc
      rw [if_neg] at h
      · split_ifs at h
      · rintro ((h | h) | (h | h))
        · exact absurd (hc.1 lo hlo hlo0) (not_le.mpr h)
        · exact absurd (hc.1 hi hhi hhi0) (not_le.mpr h)
        · exact absurd (hc.2 lo hlo) (not_le.mpr h)
        · exact absurd (hc.2 hi hhi) (not_le.mpr h)
    · have hx0 : x ≠ 0 := abs_pos.mp (lt_trans (by positivity) hxl)
      obtain ⟨h3, h4⟩ := h2.2.2 x ((hmem x).mpr ⟨hx, hx0⟩)
      rw [if_pos]
      right
      rcases abs_cases x with ⟨h, _⟩ | ⟨h, _⟩
      · right
        rw [h] at hxl
        exact lt_of_lt_of_le hxl (h4.trans (le_abs_self _))
      · left
        rw [h] at hxl
        exact lt_of_lt_of_le hxl ((neg_le_neg h3).trans (neg_le_abs _))
    · obtain ⟨h3, h4⟩ := h2.2.2 x ((hmem x).mpr ⟨hx, hx0⟩)
      rw [if_pos]
      left
      rcases hsign with hs | hs
      · left
        rw [abs_of_nonneg (hs _ hx)] at hxs
        rw [abs_of_nonneg (hs _ hlo)]
        exact lt_of_le_of_lt h3 hxs
      · right
        rw [abs_of_nonpos (hs _ hx)] at hxs
        rw [abs_of_nonpos (hs _ hhi)]
        exact lt_of_le_of_lt (neg_le_neg h4) hxs
    · by_cases hc : (|lo| < (10 : ℝ) ^ (-lim) ∨ |hi| < (10 : ℝ) ^ (-lim)) ∨ ((10 : ℝ) ^ lim < |lo| ∨ (10 : ℝ) ^ lim < |hi|)
      · rw [if_pos hc] at h
        exact absurd rfl h
      · rw [if_neg hc]

/-- **C119 is false of the code**: `-1, 0.001, 1` are shown with two decimals, so that `0.001` appears as zero. -/
theorem C119_refuted : ¬ C119_Claim := by
  intro h
  have ht : (10 : ℝ) ^ (-2 : ℝ) = 1 / 100 := by
    rw [Real.rpow_neg (by norm_num), show (10 : ℝ) ^ (2 : ℝ) = (10 : ℝ) ^ ((2 : ℕ) : ℝ) by norm_num, Real.rpow_natCast]
    norm_num
  have hiff := h .float [-1, 1 / 1000, 1] 2 2 true (by norm_num) ⟨1, by simp, by norm_num⟩
  have hsmall : Spec.HasSmall [-1, 1 / 1000, 1] 2 := ⟨1 / 1000, by simp, by norm_num, by rw [ht, abs_of_pos] <;> norm_num⟩
  have := hiff.mpr (Or.inl hsmall)
  have hf : ([-1, 1 / 1000, 1] : List ℝ).filter (fun x => decide (x ≠ 0)) = [-1, 1 / 1000, 1] := by
    rw [List.filter_eq_self]
    norm_num
  have he : IsExtrema [(-1 : ℝ), 1 / 1000, 1] (-1) 1 := by
    refine ⟨by simp, by simp, ?_⟩
    norm_num
  have hmm := (minmax_eq .float false none none (data := [(-1 : ℝ), 1 / 1000, 1]) (by simpa using he)).1
  simp only [applyPrev, applyLimit] at hmm
  unfold guessFormat at this
  rw [hf, hmm] at this
  norm_num at this
  rw [if_neg (by decide)] at this
  cases this

end Kalepy
