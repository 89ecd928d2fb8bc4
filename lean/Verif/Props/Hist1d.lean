import Verif.Model.Dist1d
import Verif.Props.Histogram
import Verif.Props.StepCurve
import Verif.Props.Edges
import Verif.Props.Hist2d
import Verif.Props.Carpet

/-!
# C98, C99: `hist1d`
-/

namespace Kalepy

open Spec Finset

/-! ### specification -/

/-- The documented forms of `edges`: `None`, a positive number of bins, at least two increasing edges. -/
def Spec.BinsOk : BinArg → Prop
  | .none => True
  | .int n => 1 ≤ n
  | .arr l => 2 ≤ l.length ∧ l.Pairwise (· < ·)

/-- Arguments of `hist1d`; the others have their default values. -/
def Spec.histArgs (bins : BinArg) (weights : Option (List ℝ)) (density probability joints rotate : Bool) : Hist1dArgs :=
  { edges := bins, weights := weights, density := density, probability := probability, joints := joints, rotate := rotate }

/-- The points of a curve that are visible, in order. -/
def Spec.visible (pts : List (StepPt ℝ)) : List (ℝ × ℝ) :=
  pts.filterMap fun q => if q.masked then none else
    match q.x, q.y with
    | some x, some y => some (x, y)
    | _, _ => none

/-- The area under a curve through the given points. -/
noncomputable def Spec.areaUnder : List (ℝ × ℝ) → ℝ
  | p :: q :: l => (q.1 - p.1) * (p.2 + q.2) / 2 + areaUnder (q :: l)
  | _ => 0

/-- The weight of the data: their number if there are no weights. -/
def Spec.dataWeight (data : List ℝ) : Option (List ℝ) → ℝ
  | none => data.length
  | some w => w.sum

/-! ### proofs -/

lemma area_steps (a h : ℕ → ℝ) (n s : ℕ) :
    areaUnder ((List.range' s n).flatMap fun j => [(a j, h j), (a (j + 1), h j)])
      = ((List.range' s n).map fun j => h j * (a (j + 1) - a j)).sum := by
  induction n generalizing s with
  | zero => simp [areaUnder]
  | succ n ih =>
    have h1 := ih (s + 1)
    cases n with
    | zero => simp [areaUnder]; ring
    | succ n =>
      simp only [List.range'_succ, List.flatMap_cons, List.cons_append, List.nil_append, areaUnder, List.map_cons,
        List.sum_cons] at h1 ⊢
      rw [h1]
      ring

lemma visible_append (l m : List (StepPt ℝ)) : visible (l ++ m) = visible l ++ visible m := List.filterMap_append

lemma visible_bin (joints rotate : Bool) (lo hi h : ℝ) :
    visible (binCurve joints rotate lo hi h false) = [(lo, h), (hi, h)].map fun p => if rotate then p.swap else p := by
  cases joints <;> cases rotate <;> simp [visible, binCurve]

lemma visible_flatMap (f : ℕ → List (StepPt ℝ)) (l : List ℕ) : visible (l.flatMap f) = l.flatMap fun j => visible (f j) := by
  simp only [visible, List.filterMap_flatMap]

lemma swap_swap_ite (rotate : Bool) (p : ℝ × ℝ) : (if rotate then (if rotate then p.swap else p).swap else (if rotate then p.swap else p)) = p := by
  cases rotate <;> rfl

/-- The curve of a histogram of nonnegative values: all its points are visible, and the area under it is the sum of the areas of the bins. -/
lemma drawHist1d_area (edges hist : List ℝ) (hl : edges.length = hist.length + 1) (hne : hist ≠ []) (h0 : ∀ x ∈ hist, 0 ≤ x)
    (joints rotate : Bool) :
    ∃ pts, drawHist1d edges hist none false true joints rotate = .ok pts ∧ (∀ q ∈ pts, q.masked = false) ∧
      areaUnder ((visible pts).map fun p => if rotate then p.swap else p)
        = ∑ j ∈ range hist.length, hist.getD j 0 * (edges.getD (j + 1) 0 - edges.getD j 0) := by
  refine ⟨_, C59_curve edges hist hl hne false true joints rotate, ?_, ?_⟩
  · intro q hq
    obtain ⟨j, hj, hq⟩ := List.mem_flatMap.mp hq
    have hj := List.mem_range.mp hj
    have : ¬ hist.getD j 0 < 0 := not_lt.mpr (by
      rw [List.getD_eq_getElem _ _ hj]; exact h0 _ (List.getElem_mem hj))
    rw [decide_eq_false this] at hq
    cases joints <;> simp [binCurve] at hq
    · rcases hq with rfl | rfl | rfl <;> rfl
    · rcases hq with rfl | rfl <;> rfl
  · rw [visible_flatMap]
    have e : ((List.range hist.length).flatMap fun j => visible (binCurve joints rotate (edges.getD j 0) (edges.getD (j + 1) 0) (hist.getD j 0)
        (false && decide (hist.getD j 0 = 0) || true && decide (hist.getD j 0 < 0))))
        = (List.range hist.length).flatMap fun j =>
          [(edges.getD j 0, hist.getD j 0), (edges.getD (j + 1) 0, hist.getD j 0)].map fun p => if rotate then p.swap else p := by
      apply List.flatMap_congr
      intro j hj
      have hj := List.mem_range.mp hj
      have : ¬ hist.getD j 0 < 0 := not_lt.mpr (by
        rw [List.getD_eq_getElem _ _ hj]; exact h0 _ (List.getElem_mem hj))
      rw [decide_eq_false this, ← visible_bin joints]
      simp
    rw [e, List.map_flatMap]
    simp only [List.map_map, Function.comp_def, swap_swap_ite, List.map_id']
    rw [List.range_eq_range', area_steps (fun j => edges.getD j 0) (fun j => hist.getD j 0), ← List.range_eq_range']
    rfl

lemma outerEdges_spec {data : List ℝ} (hne : data ≠ []) : (outerEdges data).1 < (outerEdges data).2 ∧
    ∀ x ∈ data, (outerEdges data).1 ≤ x ∧ x ≤ (outerEdges data).2 := by
  cases data with
  | nil => exact absurd rfl hne
  | cons a l =>
    have h1 := npMin_spec a l
    have h2 := npMax_spec a l
    have hle : ∀ x ∈ a :: l, npMin a l ≤ x ∧ x ≤ npMax a l := fun x hx => ⟨h1.2 x hx, h2.2 x hx⟩
    by_cases he : npMin a l = npMax a l
    · rw [outerEdges, if_pos he]
      refine ⟨by simp only; linarith, fun x hx => ?_⟩
      have := hle x hx
      exact ⟨by simp only; linarith, by simp only; linarith⟩
    · rw [outerEdges, if_neg he]
      exact ⟨lt_of_le_of_ne ((hle a (by simp)).1.trans (hle a (by simp)).2) he, hle⟩

lemma linspace_edges {a b : ℝ} (hab : a < b) {n : ℕ} (hn : n ≠ 0) : (npLinspace a b n).Pairwise (· < ·) ∧ 2 ≤ (npLinspace a b n).length ∧
    ∀ x, a ≤ x → x ≤ b → InRangeOf (npLinspace a b n) x := by
  have hs := npLinspace_spec a b hn
  obtain ⟨h1, h2, h3⟩ := equallySpaced_increasing hs hn hab
  refine ⟨h1, by rw [hs.1]; omega, fun x hx hx' => ⟨a, b, ?_, ?_, hx, hx'⟩⟩
  · rw [List.head?_eq_getElem?]; exact h2
  · rw [List.getLast?_eq_getElem?, hs.1]; exact h3

/-- The edges used. -/
lemma histEdges_ok (auto : List ℝ → ℕ) {data : List ℝ} (hne : data ≠ []) (ha : 1 ≤ auto data) {weights : Option (List ℝ)} {bins : BinArg}
    (hb : BinsOk bins) (h : ¬ (bins = .none ∧ weights ≠ none)) :
    ∃ e, histEdges auto data weights bins = .ok e ∧ e.Pairwise (· < ·) ∧ 2 ≤ e.length ∧
      (∀ l, bins = .arr l → e = l) ∧ ((∀ l, bins ≠ .arr l) → ∀ x ∈ data, InRangeOf e x) := by
  obtain ⟨h1, h2⟩ := outerEdges_spec hne
  cases bins with
  | none =>
    have hw : weights = none := by
      by_contra hc
      exact h ⟨rfl, hc⟩
    subst hw
    obtain ⟨g1, g2, g3⟩ := linspace_edges h1 (show auto data ≠ 0 by omega)
    exact ⟨_, rfl, g1, g2, (fun l hl => nomatch hl), fun _ x hx => g3 x (h2 x hx).1 (h2 x hx).2⟩
  | int n =>
    have hn : 1 ≤ n := hb
    obtain ⟨g1, g2, g3⟩ := linspace_edges h1 (show n.toNat ≠ 0 by omega)
    exact ⟨_, by rw [histEdges, if_neg (by omega)], g1, g2, (fun l hl => nomatch hl), fun _ x hx => g3 x (h2 x hx).1 (h2 x hx).2⟩
  | arr l =>
    exact ⟨l, rfl, hb.2, hb.1, fun l' hl => by cases hl; rfl, fun hc => absurd rfl (hc l)⟩

lemma totalWeight_pos {data : List ℝ} (hne : data ≠ []) {weights : Option (List ℝ)} (hw : ValidWeights data.length weights) :
    0 < totalWeight data weights := by
  cases weights with
  | none =>
    have := List.length_pos_iff.mpr hne
    show (0 : ℝ) < (data.length : ℝ)
    exact_mod_cast this
  | some w => exact hw.2.2

lemma totalWeight_eq (data : List ℝ) (weights : Option (List ℝ)) : totalWeight data weights = dataWeight data weights := by
  cases weights <;> rfl

lemma weights_length {data : List ℝ} {weights : Option (List ℝ)} (hw : ValidWeights data.length weights) :
    (weights.getD (data.map fun _ => 1)).length = data.length := by
  cases weights with
  | none => simp
  | some w => exact hw.1

lemma weights_nonneg {data : List ℝ} {weights : Option (List ℝ)} (hw : ValidWeights data.length weights) :
    ∀ x ∈ weights.getD (data.map fun _ => 1), 0 ≤ x := by
  cases weights with
  | none => intro x hx; simp at hx; rw [hx.2]; norm_num
  | some w => exact hw.2.1

open Classical in
lemma weightOf_nonneg (P : ℝ → Prop) (data ws : List ℝ) (h : ∀ x ∈ ws, 0 ≤ x) : 0 ≤ weightOf P data ws := by
  unfold weightOf
  apply List.sum_nonneg
  intro x hx
  obtain ⟨p, hp, rfl⟩ := List.mem_map.mp hx
  split
  · exact h _ (List.of_mem_zip hp).2
  · exact le_rfl

/-- What `utils.histogram` returns for the edges used, and for which lists it fails. -/
lemma histogramBins_eq (auto : List ℝ → ℕ) (isList : Bool) {data : List ℝ} {weights : Option (List ℝ)}
    (hw : ValidWeights data.length weights) {bins : BinArg} {e : List ℝ} (he : histEdges auto data weights bins = .ok e)
    (hs : e.Pairwise (· < ·)) (density probability : Bool) :
    histogramBins auto isList data bins weights density probability =
      if isList = true ∧ probability = true ∧ weights = none then .error .attributeError
      else histogram data e weights density probability := by
  have hn : ∃ h, npHistogram data e weights = .ok h := by
    unfold npHistogram
    simp only
    rw [if_neg (by rw [weights_length hw]; simp), if_neg (by push Not; exact hs.imp fun h => h.le)]
    exact ⟨_, rfl⟩
  obtain ⟨h, hn⟩ := hn
  unfold histogramBins
  rw [if_neg (by rw [weights_length hw]; simp), he]
  simp only [hn]

lemma histogram_succeeds {data edges : List ℝ} (hne : data ≠ []) {weights : Option (List ℝ)} (hw : ValidWeights data.length weights)
    (hs : edges.Pairwise (· < ·)) (density probability : Bool) :
    ∃ h, histogram data edges weights density probability = .ok (h, edges) ∧ h.length = edges.length - 1 ∧ ∀ x ∈ h, 0 ≤ x := by
  have hd : ∀ x ∈ npDiff edges, 0 < x := by
    intro x hx
    obtain ⟨i, hi, rfl⟩ := List.getElem_of_mem hx
    have hi' : i + 1 < edges.length := by simp [npDiff] at hi; omega
    have : (npDiff edges)[i] = edges[i + 1] - edges[i] := by simp [npDiff]
    rw [this, sub_pos]
    exact List.pairwise_iff_getElem.mp hs i (i + 1) (by omega) hi' (by omega)
  have hd0 : (0 : ℝ) ∉ npDiff edges := fun h => lt_irrefl _ (hd 0 h)
  have ht := totalWeight_pos hne hw
  set ws := weights.getD (data.map fun _ => 1) with hws
  set cnt := (List.range (edges.length - 1)).map fun j =>
    (List.zipWith (fun x w => if inHistBin edges j x then w else 0) data ws).sum with hcnt
  have hn : npHistogram data edges weights = .ok cnt := by
    unfold npHistogram
    simp only
    rw [if_neg (by rw [weights_length hw]; simp), if_neg (by push Not; exact hs.imp fun h => h.le)]
  have hc0 : ∀ x ∈ cnt, 0 ≤ x := by
    intro x hx
    obtain ⟨j, hj, rfl⟩ := List.mem_map.mp hx
    rw [weightOf_eq _ _ (by have := List.mem_range.mp hj; omega)]
    exact weightOf_nonneg _ _ _ (weights_nonneg hw)
  have hh : ∀ x ∈ (if density = true then List.zipWith (· / ·) cnt (npDiff edges) else cnt), 0 ≤ x := by
    intro x hx
    split at hx
    · rw [← List.map_uncurry_zip_eq_zipWith] at hx
      obtain ⟨p, hp, rfl⟩ := List.mem_map.mp hx
      exact div_nonneg (hc0 _ (List.of_mem_zip hp).1) (hd _ (List.of_mem_zip hp).2).le
    · exact hc0 x hx
  set H := if density = true then List.zipWith (· / ·) cnt (npDiff edges) else cnt with hH
  have hlen : H.length = edges.length - 1 := by
    rw [hH]
    split <;> simp [hcnt, npDiff]
  have he : histogram data edges weights density probability
      = .ok (if probability = true then H.map (· / totalWeight data weights) else H, edges) := by
    unfold histogram
    rw [hn]
    simp only
    rw [if_neg (by rintro ⟨-, h⟩; exact hd0 h), if_neg (by rintro ⟨-, h⟩; exact ht.ne' h)]
  refine ⟨_, he, ?_, ?_⟩
  · split
    · simpa using hlen
    · exact hlen
  · intro x hx
    split at hx
    · obtain ⟨y, hy, rfl⟩ := List.mem_map.mp hx
      exact div_nonneg (hh y hy) ht.le
    · exact hh x hx

/-- `hist1d` for documented arguments that do not fail. -/
lemma hist1d_ok (auto : List ℝ → ℕ) (isList : Bool) {data : List ℝ} (hne : data ≠ []) (ha : 1 ≤ auto data) {weights : Option (List ℝ)}
    (hw : ValidWeights data.length weights) {bins : BinArg} (hb : BinsOk bins) (h1 : ¬ (bins = .none ∧ weights ≠ none))
    (density probability joints rotate : Bool) (h2 : ¬ (isList = true ∧ probability = true ∧ weights = none)) :
    ∃ hist e pts, hist1d auto isList data (Spec.histArgs bins weights density probability joints rotate) = .ok (hist, e, pts) ∧
      histogram data e weights density probability = .ok (hist, e) ∧ e.Pairwise (· < ·) ∧ 2 ≤ e.length ∧
      (∀ l, bins = .arr l → e = l) ∧ ((∀ l, bins ≠ .arr l) → ∀ x ∈ data, InRangeOf e x) ∧ (∀ x ∈ hist, 0 ≤ x) ∧
      (∀ q ∈ pts, q.masked = false) ∧
      areaUnder ((visible pts).map fun p => if rotate then p.swap else p)
        = ∑ j ∈ range (e.length - 1), hist.getD j 0 * (e.getD (j + 1) 0 - e.getD j 0) := by
  obtain ⟨e, e1, e2, e3, e4, e5⟩ := histEdges_ok auto hne ha hb h1
  obtain ⟨hist, g1, g2, g3⟩ := histogram_succeeds hne hw e2 density probability
  obtain ⟨pts, p1, p2, p3⟩ := drawHist1d_area e hist (by omega) (by rintro rfl; simp at g2; omega) g3 joints rotate
  refine ⟨hist, e, pts, ?_, g1, e2, e3, e4, e5, g3, p2, by rw [p3, g2]⟩
  unfold hist1d
  simp only [Spec.histArgs]
  rw [histogramBins_eq auto isList hw e1 e2, if_neg h2, g1]
  simp only [p1]

/-! ### C98 -/

/-- **C98** as documented: `hist1d` draws a histogram for all data, weights and edges of the documented forms. -/
def C98_Claim : Prop :=
  ∀ (auto : List ℝ → ℕ) (isList : Bool) (data : List ℝ) (weights : Option (List ℝ)) (bins : BinArg) (density probability joints rotate : Bool),
    (∀ l, 1 ≤ auto l) → data ≠ [] → ValidWeights data.length weights → BinsOk bins →
    ∃ r, hist1d auto isList data (Spec.histArgs bins weights density probability joints rotate) = .ok r

/-- **C98**: exactly which calls fail: weighted data without edges (`TypeError`), and lists (not arrays) of unweighted data with
`probability=True` (`AttributeError`). -/
theorem C98_partial (auto : List ℝ → ℕ) (isList : Bool) (data : List ℝ) (hne : data ≠ []) (ha : 1 ≤ auto data) (weights : Option (List ℝ))
    (hw : ValidWeights data.length weights) (bins : BinArg) (hb : BinsOk bins) (density probability joints rotate : Bool) :
    (bins = .none ∧ weights ≠ none → hist1d auto isList data (Spec.histArgs bins weights density probability joints rotate) = .error .typeError) ∧
    (isList = true ∧ probability = true ∧ weights = none → hist1d auto isList data (Spec.histArgs bins weights density probability joints rotate) = .error .attributeError) ∧
    (¬ (bins = .none ∧ weights ≠ none) → ¬ (isList = true ∧ probability = true ∧ weights = none) →
      ∃ r, hist1d auto isList data (Spec.histArgs bins weights density probability joints rotate) = .ok r) := by
  refine ⟨?_, ?_, ?_⟩
  · rintro ⟨rfl, hw'⟩
    have hb : histogramBins auto isList data .none weights density probability = .error .typeError := by
      unfold histogramBins
      rw [if_neg (by rw [weights_length hw]; simp), histEdges, if_pos (by
        cases weights with
        | none => exact absurd rfl hw'
        | some w => rfl)]
    unfold hist1d
    simp only [Spec.histArgs]
    rw [hb]
  · intro h2
    obtain ⟨e, e1, e2, -⟩ := histEdges_ok auto hne ha hb (weights := weights) (by rw [h2.2.2]; simp)
    unfold hist1d
    simp only [Spec.histArgs]
    rw [histogramBins_eq auto isList hw e1 e2, if_pos h2]
  · intro h1 h2
    obtain ⟨hist, e, pts, h, -⟩ := hist1d_ok auto isList hne ha hw hb h1 density probability joints rotate h2
    exact ⟨_, h⟩

/-- **C98 is false of the code**: weighted data need edges. -/
theorem C98_refuted : ¬ C98_Claim := by
  intro hC
  have hw : ValidWeights 2 (some [1, 3]) := ⟨rfl, by simp, by norm_num⟩
  obtain ⟨r, h⟩ := hC (fun _ => 1) false [0, 1] (some [1, 3]) .none true true true false (fun _ => le_rfl) (by simp) hw trivial
  rw [(C98_partial (fun _ => 1) false [0, 1] (by simp) le_rfl (some [1, 3]) hw .none trivial true true true false).1
    ⟨rfl, by simp⟩] at h
  cases h

/-! ### C99 -/

/-- **C99.** The curve that `hist1d(density=True)` draws has the area of the weight of the data within the edges, with `probability=True`
as a fraction of the total; no point is masked.  With automatic edges (or their number) all data are within the edges, and the area is the total
weight, or one. -/
theorem C99_area (auto : List ℝ → ℕ) (isList : Bool) (data : List ℝ) (hne : data ≠ []) (ha : 1 ≤ auto data) (weights : Option (List ℝ))
    (hw : ValidWeights data.length weights) (bins : BinArg) (hb : BinsOk bins) (probability joints rotate : Bool)
    (hist e : List ℝ) (pts : List (StepPt ℝ))
    (h : hist1d auto isList data (Spec.histArgs bins weights true probability joints rotate) = .ok (hist, e, pts)) :
    (∀ q ∈ pts, q.masked = false) ∧ (∀ l, bins = .arr l → e = l) ∧
    areaUnder ((visible pts).map fun p => if rotate then p.swap else p)
      = weightOf (InRangeOf e) data (weights.getD (data.map fun _ => 1)) / (if probability then dataWeight data weights else 1) ∧
    ((∀ l, bins ≠ .arr l) → areaUnder ((visible pts).map fun p => if rotate then p.swap else p)
      = if probability then 1 else dataWeight data weights) := by
  have h1 : ¬ (bins = .none ∧ weights ≠ none) := by
    intro hc
    rw [(C98_partial auto isList data hne ha weights hw bins hb true probability joints rotate).1 hc] at h
    cases h
  have h2 : ¬ (isList = true ∧ probability = true ∧ weights = none) := by
    intro hc
    rw [(C98_partial auto isList data hne ha weights hw bins hb true probability joints rotate).2.1 hc] at h
    cases h
  obtain ⟨hist', e', pts', g, g1, g2, g3, g4, g5, g6, g7, g8⟩ := hist1d_ok auto isList hne ha hw hb h1 true probability joints rotate h2
  rw [g] at h
  cases h
  have ht := totalWeight_pos hne hw
  obtain ⟨D, P, c1, c2, -, -, -, c3, c4, -⟩ := C44_density data e weights g2 g3
    (fun w hw' => by subst hw'; exact hw.1) ht.ne'
  have key : areaUnder ((visible pts).map fun p => if rotate then p.swap else p)
      = weightOf (InRangeOf e) data (weights.getD (data.map fun _ => 1)) / (if probability then dataWeight data weights else 1) := by
    rw [g8]
    cases probability with
    | true =>
      rw [c2] at g1
      cases g1
      rw [c4, if_pos rfl, totalWeight_eq]
    | false =>
      rw [c1] at g1
      cases g1
      rw [c3, if_neg (by simp), div_one]
  refine ⟨g7, g4, key, fun hauto => ?_⟩
  have hall : weightOf (InRangeOf e) data (weights.getD (data.map fun _ => 1)) = dataWeight data weights := by
    rw [weightOf_all _ _ _ (weights_length hw) (g5 hauto)]
    cases weights with
    | none => simp [dataWeight]
    | some w => rfl
  rw [key, hall]
  cases probability with
  | true => rw [if_pos rfl, if_pos rfl, div_self]; rw [← totalWeight_eq]; exact ht.ne'
  | false => simp

/-- The hypotheses of C99 are met by weighted data in three bins. -/
example : ∃ hist e pts, hist1d (fun _ => 1) true [0, 1, 5] (histArgs (.int 3) (some [1, 0, 2]) true true true false)
    = .ok (hist, e, pts) ∧ areaUnder (visible pts) = 1 := by
  have hw : ValidWeights 3 (some [1, 0, 2]) := ⟨rfl, by simp, by norm_num⟩
  have hb : BinsOk (.int 3) := by norm_num [BinsOk]
  obtain ⟨⟨hist, e, pts⟩, h⟩ := (C98_partial (fun _ => 1) true [0, 1, 5] (by simp) le_rfl _ hw (.int 3) hb true true true false).2.2
    (by simp) (by simp)
  refine ⟨hist, e, pts, h, ?_⟩
  have := (C99_area (fun _ => 1) true [0, 1, 5] (by simp) le_rfl _ hw (.int 3) hb true true false hist e pts h).2.2.2 (by simp)
  simpa using this

end Kalepy
