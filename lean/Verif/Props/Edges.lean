import Mathlib.Data.Fin.VecNotation
import Mathlib.Data.List.GetD
import Mathlib.Tactic.FinCases
import Verif.Props.Quantiles
import Verif.Props.Reflect

/-!
# C22, C45: `extrema` and `edges`
-/

namespace Kalepy

open Spec

lemma dataExtrema_spec {d : ℕ} {data : List (Fin d → ℝ)} (hne : data ≠ []) :
    ∃ dat, dataExtrema data = .ok dat ∧ ∀ i, IsExtrema (data.map (· i)) (dat i).1 (dat i).2 := by
  cases data with
  | nil => exact absurd rfl hne
  | cons x l =>
    refine ⟨_, rfl, ?_⟩
    intro i
    have h1 := npMin_spec (x i) (dataRow l i)
    have h2 := npMax_spec (x i) (dataRow l i)
    exact ⟨h1.1, h2.1, fun y hy => ⟨h1.2 y hy, h2.2 y hy⟩⟩

/-- **C22** as claimed: each bound of dimension `i` is the given one, or the data extremum of dimension `i`. -/
def C22_Claim : Prop :=
  ∀ (d : ℕ) (data : List (Fin d → ℝ)) (l : List ExtElem) (i : Fin d) (lo hi : Option ℝ) (mn mx : ℝ),
    IsExtrema (data.map (· i)) mn mx → BoundsAsked d l i lo hi →
    ∃ ext, parseExtremaOf data (some l) = .ok ext ∧ ext i = (lo.getD mn, hi.getD mx)

/-- **C22** fails: `[None, 9]` for two-dimensional data fills in the minimum of dimension 0 for
dimension 1 too (one list object is shared by all dimensions). -/
theorem C22_refuted : ¬ C22_Claim := by
  intro h
  obtain ⟨ext, h1, h2⟩ := h 2 [![1, 5]] [.none, .num 9] 1 none (some 9) 5 5 (by simp [IsExtrema])
    (Or.inl ⟨none, some 9, rfl, rfl, rfl⟩)
  simp [parseExtremaOf, dataExtrema, parseExtrema, parseExtremaList, ExtElem.scalar] at h1
  rw [← h1] at h2
  simp [fillExtrema, ExtElem.bound, npMin, dataRow] at h2

/-- What happens instead: the missing bounds of a flat pair are those of dimension 0, in every dimension. -/
theorem C22_flat {d : ℕ} (data : List (Fin (d + 1) → ℝ)) (a b : Option ℝ) (mn mx : ℝ)
    (he : IsExtrema (data.map (· 0)) mn mx) :
    parseExtremaOf data (some [a.elim .none .num, b.elim .none .num]) =
      .ok fun _ => (a.getD mn, b.getD mx) := by
  obtain ⟨dat, h1, h2⟩ := dataExtrema_spec (data := data) (by rintro rfl; simp [IsExtrema] at he)
  have hs : ∀ o : Option ℝ, (o.elim ExtElem.none ExtElem.num).scalar = true := by intro o; cases o <;> rfl
  have hb : ∀ o : Option ℝ, (o.elim ExtElem.none ExtElem.num).bound = o := by intro o; cases o <;> rfl
  simp only [parseExtremaOf, h1, parseExtrema, parseExtremaList]
  rw [if_pos (by simp [hs])]
  obtain ⟨e1, e2⟩ := (h2 0).unique he
  simp [fillExtrema, hb, e1, e2]

/-- **C22**, proved part: without extrema all bounds are those of the data, dimension by dimension. -/
theorem C22_none {d : ℕ} (data : List (Fin d → ℝ)) (hne : data ≠ []) :
    ∃ ext, parseExtremaOf data none = .ok ext ∧ ∀ i, IsExtrema (data.map (· i)) (ext i).1 (ext i).2 := by
  obtain ⟨dat, h1, h2⟩ := dataExtrema_spec hne
  exact ⟨dat, by simp [parseExtremaOf, h1, parseExtrema], h2⟩

lemma pair_of_seq {e : ExtElem} {lo hi : Option ℝ} (h : e = .seq [lo, hi]) : e.pair = some (lo, hi) := by
  subst h; rfl

/-- **C22**, proved part: one entry per dimension, not all `None`.  Missing bounds are filled in with the
dimension's own extrema, given bounds are kept.  Missing from the claim: a flat pair with `None` for data of
several dimensions (`C22_refuted`, `C22_flat`) and a list of `None` only (`C22_all_none`). -/
theorem C22_partial {d : ℕ} (data : List (Fin d → ℝ)) (hne : data ≠ []) (l : List ExtElem)
    (hl : l.length = d) (hs : ∃ e ∈ l, ∃ s, e = .seq s) (lo hi : Fin d → Option ℝ)
    (hb : ∀ i : Fin d, l[(i : ℕ)]? = some (.seq [lo i, hi i]) ∨
      (l[(i : ℕ)]? = some .none ∧ lo i = none ∧ hi i = none)) :
    ∃ ext, parseExtremaOf data (some l) = .ok ext ∧ ∀ (i : Fin d) (mn mx : ℝ),
      IsExtrema (data.map (· i)) mn mx → ext i = ((lo i).getD mn, (hi i).getD mx) := by
  obtain ⟨dat, h1, h2⟩ := dataExtrema_spec hne
  obtain ⟨e, he, s, rfl⟩ := hs
  have hns : ¬ l.all ExtElem.scalar = true := by
    rw [List.all_eq_true]
    intro h
    simpa [ExtElem.scalar] using h _ he
  have hpair : ∀ i : Fin d, (l.get (Fin.cast hl.symm i)).pair = some (lo i, hi i) := by
    intro i
    have hi' : (i : ℕ) < l.length := by omega
    have := hb i
    simp only [List.getElem?_eq_getElem hi', Option.some.injEq] at this
    simp only [List.get_eq_getElem, Fin.val_cast]
    obtain h | ⟨h, h', h''⟩ := this
    · rw [h]; rfl
    · rw [h, h', h'']; rfl
  have hmem : ∀ e ∈ l, ∃ i : Fin d, e = l.get (Fin.cast hl.symm i) := by
    intro e he
    obtain ⟨i, hi', rfl⟩ := List.getElem_of_mem he
    exact ⟨⟨i, by omega⟩, by simp⟩
  refine ⟨fun i => fillExtrema (dat i) (lo i, hi i), ?_, ?_⟩
  · simp only [parseExtremaOf, h1, parseExtrema, parseExtremaList]
    rw [if_neg (fun h => hns h.1), dif_pos hl, if_neg hns, if_neg, if_pos]
    · simp only [hpair, Option.getD_some]
    · rw [List.all_eq_true]
      intro e he
      obtain ⟨i, rfl⟩ := hmem e he
      rw [hpair]; rfl
    · rw [Bool.not_eq_true, List.any_eq_false]
      intro e he
      obtain ⟨i, rfl⟩ := hmem e he
      have := hpair i
      split
      · rename_i h; rw [h] at this; cases this
      · simp
  · intro i mn mx he
    obtain ⟨e1, e2⟩ := (h2 i).unique he
    simp [fillExtrema, e1, e2]

/-- A flat pair with both values given holds for all dimensions. -/
theorem C22_flat_given {d : ℕ} (data : List (Fin d → ℝ)) (hne : data ≠ []) (a b : ℝ) :
    ∃ ext, parseExtremaOf data (some [.num a, .num b]) = .ok ext ∧ ∀ i, ext i = (a, b) := by
  cases d with
  | zero =>
    obtain ⟨dat, h1, h2⟩ := dataExtrema_spec hne
    exact ⟨dat, by simp [parseExtremaOf, h1, parseExtrema, parseExtremaList, ExtElem.scalar], fun i => i.elim0⟩
  | succ d =>
    obtain ⟨mn, mx, he⟩ := exists_extrema (data := data.map (· (0 : Fin (d + 1)))) (by simpa using hne)
    exact ⟨_, C22_flat data (some a) (some b) mn mx he, fun i => rfl⟩

/-- One `None` per dimension is refused (except that two are taken as a flat pair). -/
theorem C22_all_none {d : ℕ} (data : List (Fin d → ℝ)) (hne : data ≠ []) (hd : d ≠ 2) :
    parseExtremaOf data (some (List.replicate d .none)) = .error .valueError := by
  obtain ⟨dat, h1, h2⟩ := dataExtrema_spec hne
  simp only [parseExtremaOf, h1, parseExtrema, parseExtremaList]
  rw [if_neg (by simp [hd]), dif_pos (by simp), if_pos (by simp [ExtElem.scalar])]

/-- Hypotheses of `C22_partial` on a concrete case: `[[None, 7], None]`. -/
example : ∃ ext, parseExtremaOf [![1, 5], ![2, 4]] (some [.seq [none, some 7], .none]) = .ok ext ∧
    ext 0 = (1, 7) ∧ ext 1 = (4, 5) := by
  obtain ⟨ext, h1, h2⟩ := C22_partial [![1, 5], ![2, 4]] (by simp) [.seq [none, some 7], .none] rfl
    ⟨.seq [none, some 7], by simp, _, rfl⟩ ![none, none] ![some 7, none] (by
      intro i
      fin_cases i
      · exact Or.inl rfl
      · exact Or.inr ⟨rfl, rfl, rfl⟩)
  refine ⟨ext, h1, ?_, ?_⟩
  · simpa using h2 0 1 2 (by simp [IsExtrema])
  · simpa using h2 1 4 5 (by simp [IsExtrema]; norm_num)

/-! ### C45 -/

lemma npLinspace_spec (a b : ℝ) {n : ℕ} (hn : n ≠ 0) : EquallySpaced (npLinspace a b n) n a b := by
  unfold npLinspace
  rw [if_neg hn]
  refine ⟨by simp, ?_⟩
  intro k hk
  simp [List.getElem?_map, List.getElem?_range (show k < n + 1 by omega)]

/-- Equally spaced values between different ends are strictly increasing and start and end there. -/
lemma equallySpaced_increasing {l : List ℝ} {n : ℕ} {a b : ℝ} (h : EquallySpaced l n a b) (hn : n ≠ 0)
    (hab : a < b) : l.Pairwise (· < ·) ∧ l[0]? = some a ∧ l[n]? = some b := by
  refine ⟨?_, by simpa using h.2 0 (by omega), ?_⟩
  · rw [List.pairwise_iff_getElem]
    intro i j hi hj hij
    have e1 := h.2 i (by have := h.1; omega)
    have e2 := h.2 j (by have := h.1; omega)
    simp only [List.getElem?_eq_getElem hi, List.getElem?_eq_getElem hj, Option.some.injEq] at e1 e2
    rw [e1, e2]
    have : (0 : ℝ) < (b - a) / n := div_pos (by linarith) (by positivity)
    have hij' : (i : ℝ) < j := by exact_mod_cast hij
    nlinarith
  · rw [h.2 n le_rfl]
    have : (n : ℝ) ≠ 0 := by positivity
    congr 1
    field_simp
    ring

lemma guessWidth_pos {data widths : List ℝ} {refine w : ℝ} (hr : 0 < refine)
    (h : guessWidth data widths refine = .ok w) : 0 < w := by
  unfold guessWidth at h
  split at h
  · rename_i a l he
    cases h
    apply div_pos _ hr
    have := (npMin_spec a l).1
    rw [← he, List.mem_filter] at this
    simpa using this.2
  · split_ifs at h
    cases h
    norm_num

lemma guessEdges_ok {srt : List ℝ → List ℕ} {data : List ℝ} {ext : ℝ × ℝ} {weights : Option (List ℝ)}
    {ndim : ℕ} {nmin nmax : ℤ} {refine : ℝ} {bw : Option ℝ} {n : ℤ} {w : ℝ} (hr : 0 < refine)
    (h : guessEdges srt data ext weights ndim nmin nmax refine bw = .ok (n, w)) :
    0 < w ∧ n ≤ nmax ∧ (nmin ≤ nmax → nmin ≤ n) := by
  unfold guessEdges at h
  split at h
  · cases h
  · split_ifs at h
    split at h
    · cases h
    · split at h
      · cases h
      · rename_i width hw
        split at h
        · cases h
        · simp only [Except.ok.injEq, Prod.mk.injEq] at h
          obtain ⟨rfl, rfl⟩ := h
          exact ⟨guessWidth_pos hr hw, min_le_right _ _, fun hh => le_min (le_max_right _ _) hh⟩

/-- **C45**, one dimension: what is returned for each kind of specification. -/
def EdgesOk (spec : EdgeSpec) (l : List ℝ) (ext : ℝ × ℝ) (nmin nmax : ℤ) (pad : ℝ) : Prop :=
  match spec with
  | .arr xs => l = xs
  | .flt _ => False
  | .bad => False
  | .int n => -1 ≤ n ∧ ∃ w, 0 < w ∧ (0 < n → EquallySpaced l n.toNat (ext.1 - pad * w) (ext.2 + pad * w))
  | .auto => ∃ (n : ℤ) (w : ℝ), n ≤ nmax ∧ (nmin ≤ nmax → nmin ≤ n) ∧ 0 < w ∧
      (0 < n → EquallySpaced l n.toNat (ext.1 - pad * w) (ext.2 + pad * w))

lemma getEdges1d_ok {srt : List ℝ → List ℕ} {spec : EdgeSpec} {data : List ℝ} {ext : ℝ × ℝ}
    {weights : Option (List ℝ)} {ndim : ℕ} {nmin nmax : ℤ} {pad refine : ℝ} {bw : Option ℝ} {l : List ℝ}
    (hr : 0 < refine) (h : getEdges1d srt spec data ext weights ndim nmin nmax pad refine bw = .ok l) :
    EdgesOk spec l ext nmin nmax pad := by
  cases spec with
  | arr xs => cases h; rfl
  | bad => cases h
  | flt x =>
    simp only [getEdges1d] at h
    split at h <;> cases h
  | auto =>
    simp only [getEdges1d] at h
    split at h
    · cases h
    · rename_i n w hg
      obtain ⟨h1, h2, h3⟩ := guessEdges_ok hr hg
      refine ⟨n, w, h2, h3, h1, fun hn => ?_⟩
      rw [if_neg (by omega), if_neg (by omega)] at h
      cases h
      exact npLinspace_spec _ _ (by omega)
  | int m =>
    simp only [getEdges1d] at h
    split at h
    · cases h
    · rename_i n w hg
      obtain ⟨h1, h2, h3⟩ := guessEdges_ok hr hg
      by_cases hm : m + 1 < 0
      · rw [if_pos hm] at h; cases h
      · refine ⟨by omega, w, h1, fun hn => ?_⟩
        rw [if_neg (by omega), if_neg (by omega)] at h
        cases h
        exact npLinspace_spec _ _ (by omega)

lemma edgeSpecs_asked {d : ℕ} {arg : EdgeArg} {specs : List EdgeSpec} (h : edgeSpecs d arg = .ok specs)
    (i : Fin d) {spec : EdgeSpec} (ha : EdgesAsked d i spec arg) : specs.getD i .auto = spec := by
  cases arg with
  | none => cases h; simp [EdgesAsked] at ha; subst ha; simp [List.getD_eq_getElem?_getD]
  | int n => cases h; simp [EdgesAsked] at ha; subst ha; simp [List.getD_eq_getElem?_getD]
  | flt n => cases h; simp [EdgesAsked] at ha; subst ha; simp [List.getD_eq_getElem?_getD]
  | list l =>
    simp only [edgeSpecs] at h
    obtain ⟨hl, hs⟩ | ⟨hl, xs, rfl, hx⟩ := ha
    · rw [if_neg (fun h => h.2 hl), if_neg (by simpa using hl)] at h
      cases h
      simp [List.getD_eq_getElem?_getD, hs]
    · have hsc : ∀ e ∈ l, e.asNum.isSome = true := by
        intro e he
        have : e.asNum ∈ l.map EdgeSpec.asNum := List.mem_map_of_mem he
        rw [hx, List.mem_map] at this
        obtain ⟨x, _, hx⟩ := this
        simp [← hx]
      have hs : l.all EdgeSpec.scalar = true := by
        rw [List.all_eq_true]
        intro e he
        have := hsc e he
        cases e <;> simp_all [EdgeSpec.asNum, EdgeSpec.scalar]
      rw [if_pos ⟨hs, hl⟩, if_pos (by rw [List.all_eq_true]; exact hsc)] at h
      cases h
      have : l.map (fun e => e.asNum.getD 0) = xs := by
        have := congrArg (List.map fun o : Option ℝ => o.getD 0) hx
        simpa [List.map_map, Function.comp_def] using this
      simp [List.getD_eq_getElem?_getD, this]

/-- **C45**: whenever edges are returned there is one list per dimension, and in every dimension:
explicit edges are returned unchanged; a number `n > 0` gives `n + 1` equally spaced edges over the extrema
extended by `pad` bin widths (the width is positive) on both sides; no specification gives such edges with an
automatic number between `nmin` and `nmax`.  The extrema are those of `_parse_extrema` (C22); the default padding
is one bin without given extrema and none otherwise. -/
theorem C45_edges {d : ℕ} (srt : List ℝ → List ℕ) (data : List (Fin d → ℝ)) (edges : EdgeArg)
    (extrema : Option (List ExtElem)) (weights : Option (List ℝ)) (nmin nmax : ℤ) (pad : Option ℝ)
    (refine : ℝ) (bw : Option (Matrix (Fin d) (Fin d) ℝ)) (hr : 0 < refine) (E : List (List ℝ))
    (h : parseEdges srt data edges extrema weights nmin nmax pad refine bw = .ok E) :
    E.length = d ∧ ∃ ext, parseExtremaOf data extrema = .ok ext ∧ ∀ (i : Fin d) (spec : EdgeSpec),
      EdgesAsked d i spec edges → ∃ l, E[(i : ℕ)]? = some l ∧
        EdgesOk spec l (ext i) nmin nmax (pad.getD (if extrema = none then 1 else 0)) := by
  unfold parseEdges at h
  split at h
  · cases h
  · rename_i ext hext
    split at h
    · cases h
    · rename_i specs hspecs
      split at h
      · cases h
      · rename_i f hf
        cases h
        rw [finSeq_ok] at hf
        refine ⟨by simp, ext, hext, ?_⟩
        intro i spec ha
        refine ⟨f i, by simp, ?_⟩
        have := hf i
        rw [edgeSpecs_asked hspecs i ha] at this
        have := getEdges1d_ok hr this
        have e : (extrema.isNone = true) = (extrema = none) := by cases extrema <;> simp
        simpa only [e] using this

/-- **C45**, increasing and covering: equally spaced edges over extended extrema are strictly increasing
and contain everything between the extrema. -/
theorem C45_covers {l : List ℝ} {n : ℕ} {ext : ℝ × ℝ} {pad w : ℝ} (hn : 0 < n) (hw : 0 < w) (hp : 0 ≤ pad)
    (he : ext.1 < ext.2 ∨ (ext.1 ≤ ext.2 ∧ 0 < pad))
    (h : EquallySpaced l n (ext.1 - pad * w) (ext.2 + pad * w)) :
    l.Pairwise (· < ·) ∧ ∃ a b, l[0]? = some a ∧ l[n]? = some b ∧ a ≤ ext.1 ∧ ext.2 ≤ b ∧
      ∀ x, ext.1 ≤ x → x ≤ ext.2 → a ≤ x ∧ x ≤ b := by
  have hpw : 0 ≤ pad * w := mul_nonneg hp hw.le
  have hab : ext.1 - pad * w < ext.2 + pad * w := by
    rcases he with he | ⟨he, hp'⟩
    · linarith
    · have := mul_pos hp' hw; linarith
  obtain ⟨h1, h2, h3⟩ := equallySpaced_increasing h hn.ne' hab
  exact ⟨h1, _, _, h2, h3, by linarith, by linarith, fun x hx hx' => ⟨by linarith, by linarith⟩⟩

/-- `(Σ w)² ≥ Σ w²` for nonnegative weights. -/
lemma sum_sq_le_sq_sum {w : List ℝ} (hw : ∀ x ∈ w, 0 ≤ x) : (w.map (· ^ 2)).sum ≤ w.sum ^ 2 := by
  induction w with
  | nil => simp
  | cons a l ih =>
    have h1 := ih fun x hx => hw x (by simp [hx])
    have h2 : 0 ≤ l.sum := List.sum_nonneg fun x hx => hw x (by simp [hx])
    have h3 := hw a (by simp)
    simp only [List.map_cons, List.sum_cons]
    nlinarith [mul_nonneg h3 h2]

lemma sum_sq_pos {w : List ℝ} (hs : 0 < w.sum) : 0 < (w.map (· ^ 2)).sum := by
  by_contra h
  have h0 : ∀ x ∈ w, x ^ 2 = 0 := by
    intro x hx
    have h1 : x ^ 2 ≤ (w.map (· ^ 2)).sum := List.single_le_sum (by
      intro y hy
      obtain ⟨z, _, rfl⟩ := List.mem_map.mp hy
      positivity) _ (List.mem_map_of_mem hx)
    nlinarith [sq_nonneg x]
  have : w.sum = 0 := List.sum_eq_zero fun x hx => by simpa using h0 x hx
  linarith

/-- Valid weights: none, or one nonnegative weight per point with positive sum. -/
def ValidWeights (n : ℕ) : Option (List ℝ) → Prop
  | none => True
  | some w => w.length = n ∧ (∀ x ∈ w, 0 ≤ x) ∧ 0 < w.sum

lemma guessNeff_ge {data : List ℝ} {weights : Option (List ℝ)} (hne : data ≠ [])
    (hw : ValidWeights data.length weights) : ∃ neff, guessNeff data weights = .ok neff ∧ 1 ≤ neff := by
  cases weights with
  | none =>
    refine ⟨_, rfl, ?_⟩
    have := List.length_pos_iff.mpr hne
    exact_mod_cast this
  | some w =>
    obtain ⟨h1, h2, h3⟩ := hw
    have hp := sum_sq_pos h3
    refine ⟨w.sum ^ 2 / (w.map (· ^ 2)).sum, ?_, ?_⟩
    · simp only [guessNeff]
      rw [if_neg (by simpa using h1), if_neg hp.ne']
    · rw [le_div_iff₀ hp]
      simpa using sum_sq_le_sq_sum h2

lemma reduceNeff_ge (ndim : ℕ) {neff : ℝ} (h : 1 ≤ neff) : 1 ≤ reduceNeff ndim neff := by
  unfold reduceNeff
  split_ifs
  · exact le_max_of_le_right (by norm_num)
  · exact h

lemma iqrange_ok {srt : List ℝ → List ℕ} (hs : ∀ l, IsArgsort (srt l) l) {data : List ℝ}
    {weights : Option (List ℝ)} (hne : data ≠ []) (hw : ValidWeights data.length weights) :
    ∃ q, iqrange srt data weights = .ok q := by
  cases weights with
  | some w =>
    obtain ⟨a, b, _, _, h, _⟩ := C35_iqrange (hs data) ⟨hne, hw.1, hw.2.1, hw.2.2⟩
    exact ⟨_, h⟩
  | none =>
    have hsum : 0 < (data.map fun _ => (1 : ℝ)).sum := by
      simpa using List.length_pos_iff.mpr hne
    obtain ⟨a, b, _, _, h, _⟩ := C35_iqrange (ws := data.map fun _ => (1 : ℝ)) (hs data)
      ⟨hne, by simp, by simp, hsum⟩
    exact ⟨a - b, h⟩

lemma guessWidth_ok {data widths : List ℝ} {refine : ℝ} (h : ∃ w ∈ widths, 0 < w) :
    ∃ w, guessWidth data widths refine = .ok w := by
  unfold guessWidth
  split
  · exact ⟨_, rfl⟩
  · rename_i he
    obtain ⟨w, hw, hp⟩ := h
    rw [List.filter_eq_nil_iff] at he
    exact absurd hp (by simpa using he w hw)

/-- **C45**, edges are returned: for extrema of non-zero range in every dimension, valid weights and a positive
`refine`, automatic edges and a non-negative number of bins always succeed. -/
theorem C45_succeeds_extrema {d : ℕ} (srt : List ℝ → List ℕ) (hs : ∀ l, IsArgsort (srt l) l)
    (data : List (Fin d → ℝ)) (hne : data ≠ []) (edges : EdgeArg)
    (hedges : edges = .none ∨ ∃ n : ℤ, 0 ≤ n ∧ edges = .int n) (extrema : Option (List ExtElem))
    (weights : Option (List ℝ)) (hw : ValidWeights data.length weights) (nmin nmax : ℤ) (h0 : 0 ≤ nmin)
    (h1 : nmin ≤ nmax) (pad : Option ℝ) (refine : ℝ) (bw : Option (Matrix (Fin d) (Fin d) ℝ))
    (ext : Fin d → ℝ × ℝ) (hext : parseExtremaOf data extrema = .ok ext) (hspan' : ∀ i, (ext i).1 < (ext i).2) :
    ∃ E, parseEdges srt data edges extrema weights nmin nmax pad refine bw = .ok E := by
  have hspan : ∀ i, 0 < (ext i).2 - (ext i).1 := fun i => sub_pos.mpr (hspan' i)
  have hguess : ∀ i : Fin d, ∃ n w, guessEdges srt (dataRow data i) (ext i) weights d nmin nmax refine
      (bw.map fun b => b i i) = .ok (n, w) ∧ 0 ≤ n := by
    intro i
    have hnr : dataRow data i ≠ [] := by simpa [dataRow] using hne
    have hwr : ValidWeights (dataRow data i).length weights := by simpa [dataRow] using hw
    obtain ⟨neff, e1, e2⟩ := guessNeff_ge hnr hwr
    obtain ⟨q, e3⟩ := iqrange_ok hs hnr hwr
    have hred := reduceNeff_ge d e2
    have hlog : 0 ≤ Real.logb 2 (reduceNeff d neff) := Real.logb_nonneg (by norm_num) hred
    obtain ⟨w, e4⟩ := guessWidth_ok (data := dataRow data i) (refine := refine)
      (widths := guessWidths ((ext i).2 - (ext i).1) q (reduceNeff d neff) (bw.map fun b => b i i))
      ⟨_, List.mem_cons_self, div_pos (hspan i) (by linarith)⟩
    refine ⟨min (max ⌈((ext i).2 - (ext i).1) / w⌉ nmin) nmax, w, ?_, ?_⟩
    · unfold guessEdges
      simp only [e1, e3, e4, spanWidth, if_pos (hspan i)]
      rw [if_neg (by linarith)]
    · exact le_min (h0.trans (le_max_right _ _)) (h0.trans h1)
  have key : ∀ spec : EdgeSpec, (spec = .auto ∨ ∃ n : ℤ, 0 ≤ n ∧ spec = .int n) → ∀ i : Fin d,
      ∃ l, getEdges1d srt spec (dataRow data i) (ext i) weights d nmin nmax (pad.getD (if extrema.isNone then 1 else 0)) refine
        (bw.map fun b => b i i) = .ok l := by
    intro spec hspec i
    obtain ⟨n, w, e, hn⟩ := hguess i
    obtain rfl | ⟨m, hm, rfl⟩ := hspec
    all_goals
      simp only [getEdges1d, e]
      rw [if_neg (by omega), if_neg (by omega)]
      exact ⟨_, rfl⟩
  have fin : ∀ spec : EdgeSpec, (spec = .auto ∨ ∃ n : ℤ, 0 ≤ n ∧ spec = .int n) →
      edgeSpecs d edges = .ok (List.replicate d spec) →
      ∃ E, parseEdges srt data edges extrema weights nmin nmax pad refine bw = .ok E := by
    intro spec hspec hes
    choose f hf using key spec hspec
    refine ⟨List.ofFn f, ?_⟩
    have : (finSeq fun i : Fin d => getEdges1d srt ((List.replicate d spec).getD i .auto) (dataRow data i)
        (ext i) weights d nmin nmax (pad.getD (if extrema.isNone then 1 else 0)) refine (bw.map fun b => b i i)) = .ok f := by
      rw [finSeq_ok]
      intro i
      have : (List.replicate d spec).getD i .auto = spec := by simp [List.getD_eq_getElem?_getD]
      rw [this]
      exact hf i
    simp only [parseEdges, hext, hes, this]
  obtain rfl | ⟨n, hn, rfl⟩ := hedges
  · exact fin .auto (Or.inl rfl) rfl
  · exact fin (.int n) (Or.inr ⟨n, hn, rfl⟩) rfl

/-- **C45**, edges are returned: for data of non-zero range in every dimension, valid weights and a positive
`refine`, automatic edges and a non-negative number of bins always succeed. -/
theorem C45_succeeds {d : ℕ} (srt : List ℝ → List ℕ) (hs : ∀ l, IsArgsort (srt l) l)
    (data : List (Fin d → ℝ)) (hne : data ≠ []) (edges : EdgeArg)
    (hedges : edges = .none ∨ ∃ n : ℤ, 0 ≤ n ∧ edges = .int n)
    (weights : Option (List ℝ)) (hw : ValidWeights data.length weights) (nmin nmax : ℤ) (h0 : 0 ≤ nmin)
    (h1 : nmin ≤ nmax) (pad : Option ℝ) (refine : ℝ) (bw : Option (Matrix (Fin d) (Fin d) ℝ))
    (hrange : ∀ i : Fin d, ∃ x ∈ data, ∃ y ∈ data, x i ≠ y i) :
    ∃ E, parseEdges srt data edges none weights nmin nmax pad refine bw = .ok E := by
  obtain ⟨ext, hext, hx⟩ := C22_none data hne
  refine C45_succeeds_extrema srt hs data hne edges hedges none weights hw nmin nmax h0 h1 pad refine bw ext hext ?_
  intro i
  obtain ⟨x, hx', y, hy, hxy⟩ := hrange i
  have e1 := (hx i).2.2 _ (List.mem_map_of_mem hx')
  have e2 := (hx i).2.2 _ (List.mem_map_of_mem hy)
  by_contra hc
  exact hxy (by linarith [e1.1, e1.2, e2.1, e2.2])

/-- Hypotheses of `C45_succeeds` on a concrete dataset. -/
example : (∀ i : Fin 2, ∃ x ∈ [![(1 : ℝ), 5], ![2, 4]], ∃ y ∈ [![(1 : ℝ), 5], ![2, 4]], x i ≠ y i) ∧
    ValidWeights 2 (some [1, 0]) := by
  constructor
  · intro i
    refine ⟨![1, 5], by simp, ![2, 4], by simp, ?_⟩
    fin_cases i <;> norm_num
  · simp [ValidWeights]

end Kalepy
