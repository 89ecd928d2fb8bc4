import Mathlib.Tactic.Linarith
import Mathlib.Tactic.Ring
import Mathlib.Tactic.FieldSimp
import Mathlib.Data.List.GetD
import Verif.Model.Plot
import Verif.Proofs.Np

/-!
# C59: the curve of a histogram
-/

namespace Kalepy

variable {K : Type*} [Field K] [LinearOrder K] [IsStrictOrderedRing K]

namespace Spec

/-- The part of a histogram curve that belongs to one bin: from `(lo, h)` to `(hi, h)`, followed by a gap
(NaN) unless the bins are joined; with exchanged coordinates if rotated. -/
def binCurve (joints rotate : Bool) (lo hi h : K) (hidden : Bool) : List (StepPt K) :=
  ([(some lo, some h), (some hi, some h)] ++ if joints then [] else [(none, none)]).map
    fun p : Option K × Option K => StepPt.mk (if rotate then p.2 else p.1) (if rotate then p.1 else p.2) (hidden && p.2.isSome)

end Spec

omit [Field K] [LinearOrder K] [IsStrictOrderedRing K] in
lemma zip_flatMap {α β γ : Type*} (l : List α) (f : α → List β) (g : α → List γ)
    (h : ∀ a ∈ l, (f a).length = (g a).length) :
    (l.flatMap f).zip (l.flatMap g) = l.flatMap fun a => (f a).zip (g a) := by
  induction l with
  | nil => rfl
  | cons a l ih =>
    simp only [List.flatMap_cons]
    rw [List.zip_append (h a (by simp)), ih fun b hb => h b (by simp [hb])]

omit [Field K] [LinearOrder K] [IsStrictOrderedRing K] in
lemma gapPairs_flatMap {α : Type*} (l : List α) (f g : α → Option K) :
    gapPairs (l.flatMap fun a => [f a, g a]) = l.flatMap fun a => [f a, g a, none] := by
  induction l with
  | nil => rfl
  | cons a l ih => simp [gapPairs, ih]

omit [LinearOrder K] [IsStrictOrderedRing K] in
lemma stepArrays_zip (edges hist : List K) (joints : Bool) (hl : edges.length = hist.length + 1) :
    ((stepArrays edges hist joints).1.zip (stepArrays edges hist joints).2) =
      (List.range hist.length).flatMap fun j =>
        [(some (edges.getD j 0), some (hist.getD j 0)), (some (edges.getD (j + 1) 0), some (hist.getD j 0))]
          ++ if joints then [] else [(none, none)] := by
  have hy : (hist.flatMap fun h => [some h, some h]) =
      (List.range hist.length).flatMap fun j => [some (hist.getD j 0), some (hist.getD j 0)] := by
    conv_lhs => rw [← list_map_getD_range hist]
    rw [List.flatMap_map]
  unfold stepArrays
  simp only [hl, Nat.add_sub_cancel, hy]
  cases joints
  · simp only [Bool.false_eq_true, if_false]
    rw [gapPairs_flatMap, gapPairs_flatMap, zip_flatMap _ _ _ (by simp)]
    rfl
  · simp only [if_true]
    rw [zip_flatMap _ _ _ (by simp)]
    rfl

omit [IsStrictOrderedRing K] in
/-- The points before renormalisation. -/
lemma pts_eq (edges hist : List K) (joints nonzero : Bool) (hl : edges.length = hist.length + 1) :
    (if nonzero then maskWhere (fun y => decide (y = 0))
        (((stepArrays edges hist joints).1.zip (stepArrays edges hist joints).2).map
          fun p => StepPt.mk p.1 p.2 false)
      else ((stepArrays edges hist joints).1.zip (stepArrays edges hist joints).2).map
          fun p => StepPt.mk p.1 p.2 false) =
      (List.range hist.length).flatMap fun j => Spec.binCurve joints false (edges.getD j 0) (edges.getD (j + 1) 0)
        (hist.getD j 0) (nonzero && decide (hist.getD j 0 = 0)) := by
  rw [stepArrays_zip edges hist joints hl, List.map_flatMap]
  cases nonzero
  · simp only [Bool.false_eq_true, if_false]
    refine congrArg (fun f => List.flatMap f (List.range hist.length)) (funext fun j => ?_)
    cases joints <;> simp [Spec.binCurve]
  · simp only [if_true, maskWhere]
    rw [List.map_flatMap]
    congr 1
    funext j
    cases joints <;> simp [Spec.binCurve]

omit [IsStrictOrderedRing K] in
/-- The last two steps, masking of negative values and rotation, for points of one histogram. -/
lemma finish_eq (hist : List K) (lo hi val : ℕ → K) (hid : ℕ → Bool) (joints positive rotate : Bool) :
    (let pts := if positive then maskWhere (fun y => decide (y < 0))
        ((List.range hist.length).flatMap fun j => Spec.binCurve joints false (lo j) (hi j) (val j) (hid j))
      else (List.range hist.length).flatMap fun j => Spec.binCurve joints false (lo j) (hi j) (val j) (hid j)
     if rotate then pts.map fun q => StepPt.mk q.y q.x q.masked else pts) =
      (List.range hist.length).flatMap fun j => Spec.binCurve joints rotate (lo j) (hi j) (val j)
        (hid j || (positive && decide (val j < 0))) := by
  cases positive <;> cases rotate <;>
    simp only [Bool.false_eq_true, if_false, if_true, maskWhere, List.map_flatMap] <;> congr 1 <;> funext j <;>
    cases joints <;> simp [Spec.binCurve]

/-- **C59.** For every histogram (with at least one bin and matching edges): the curve consists, bin by bin, of the
segment from `(edge_j, h_j)` to `(edge_{j+1}, h_j)`, so two points per bin, with a NaN after each bin if
`joints=False`, and with exchanged coordinates if rotated.  With `nonzero` exactly the bins of value zero, with
`positive` exactly those of negative value are masked. -/
theorem C59_curve (edges hist : List K) (hl : edges.length = hist.length + 1) (hne : hist ≠ [])
    (nonzero positive joints rotate : Bool) :
    drawHist1d edges hist none nonzero positive joints rotate =
      .ok ((List.range hist.length).flatMap fun j =>
        Spec.binCurve joints rotate (edges.getD j 0) (edges.getD (j + 1) 0) (hist.getD j 0)
          (nonzero && decide (hist.getD j 0 = 0) || positive && decide (hist.getD j 0 < 0))) := by
  have hpos := List.length_pos_iff.mpr hne
  unfold drawHist1d
  rw [if_neg (by rintro (h | h); omega; exact hne h)]
  simp only [hl, ne_eq, not_true_eq_false, if_false, pts_eq edges hist joints nonzero hl, renormStep]
  rw [← finish_eq]

omit [IsStrictOrderedRing K] in
lemma mem_visible (hist : List K) (lo hi : ℕ → K) (joints nonzero : Bool) (y : K) :
    y ∈ ((((List.range hist.length).flatMap fun j => Spec.binCurve joints false (lo j) (hi j) (hist.getD j 0)
        (nonzero && decide (hist.getD j 0 = 0))).filter fun q => !q.masked).filterMap StepPt.y) ↔
      y ∈ hist ∧ (nonzero = true → y ≠ 0) := by
  simp only [List.mem_filterMap, List.mem_filter, List.mem_flatMap, List.mem_range, Bool.not_eq_true']
  constructor
  · rintro ⟨q, ⟨⟨j, hj, hq⟩, hm⟩, hy⟩
    cases joints <;> simp [Spec.binCurve] at hq
    · rcases hq with rfl | rfl | rfl
      all_goals simp at hy hm
      all_goals subst hy
      all_goals exact ⟨by simp [hj], fun hn => by simpa using hm hn⟩
    · rcases hq with rfl | rfl
      all_goals simp at hy hm
      all_goals subst hy
      all_goals exact ⟨by simp [hj], fun hn => by simpa using hm hn⟩
  · rintro ⟨hy, hn⟩
    obtain ⟨j, hj, rfl⟩ := List.mem_iff_getElem.mp hy
    refine ⟨StepPt.mk (some (lo j)) (some hist[j]) false, ⟨⟨j, hj, ?_⟩, rfl⟩, rfl⟩
    cases joints <;> cases nonzero <;> simp_all [Spec.binCurve]

/-- **C59 (renormalised).** With `renormalize=r` (`True` is 1) the curve is the same with all heights multiplied by
`r / m`, where `m` is the largest height (of the bins that are not masked by `nonzero`), provided it is not zero:
so the highest bin is drawn at the height `r`. -/
theorem C59_renormalized (edges hist : List K) (hl : edges.length = hist.length + 1)
    (nonzero positive joints rotate : Bool) (r m : K) (hr : r ≠ 0) (hm0 : m ≠ 0)
    (hm : m ∈ hist ∧ ∀ h ∈ hist, (nonzero = true → h ≠ 0) → h ≤ m) :
    drawHist1d edges hist (some r) nonzero positive joints rotate =
      .ok ((List.range hist.length).flatMap fun j =>
        Spec.binCurve joints rotate (edges.getD j 0) (edges.getD (j + 1) 0) (hist.getD j 0 * (r / m))
          (nonzero && decide (hist.getD j 0 = 0) || positive && decide (hist.getD j 0 * (r / m) < 0))) ∧
    m * (r / m) = r := by
  refine ⟨?_, by field_simp⟩
  have hne : hist ≠ [] := List.ne_nil_of_mem hm.1
  have hpos := List.length_pos_iff.mpr hne
  unfold drawHist1d
  rw [if_neg (by rintro (h | h); omega; exact hne h)]
  simp only [hl, ne_eq, not_true_eq_false, if_false, pts_eq edges hist joints nonzero hl, renormStep, hr]
  have hmax : ((((List.range hist.length).flatMap fun j => Spec.binCurve joints false (edges.getD j 0)
      (edges.getD (j + 1) 0) (hist.getD j 0) (nonzero && decide (hist.getD j 0 = 0))).filter
        fun q => !q.masked).filterMap StepPt.y).max? = some m := by
    rw [List.max?_eq_some_iff]
    constructor
    · rw [mem_visible]; exact ⟨hm.1, fun _ => hm0⟩
    · intro y hy
      rw [mem_visible] at hy
      exact hm.2 y hy.1 hy.2
  unfold renormPts
  rw [hmax]
  simp only [hm0, if_false]
  have hscale : (((List.range hist.length).flatMap fun j => Spec.binCurve joints false (edges.getD j 0)
      (edges.getD (j + 1) 0) (hist.getD j 0) (nonzero && decide (hist.getD j 0 = 0))).map
        fun q => { q with y := q.y.map fun y => y / m * r }) =
      (List.range hist.length).flatMap fun j => Spec.binCurve joints false (edges.getD j 0)
        (edges.getD (j + 1) 0) (hist.getD j 0 * (r / m)) (nonzero && decide (hist.getD j 0 = 0)) := by
    rw [List.map_flatMap]
    congr 1
    funext j
    have : hist.getD j 0 / m * r = hist.getD j 0 * (r / m) := by ring
    cases joints <;> simp only [Spec.binCurve, ← this] <;> simp
  rw [hscale, ← finish_eq]

/-- **C59.** A histogram that does not have exactly one entry per bin is refused, with all options. -/
theorem C59_mismatch (edges hist : List K) (hl : edges.length ≠ hist.length + 1) (renormalize : Option K)
    (nonzero positive joints rotate : Bool) :
    drawHist1d edges hist renormalize nonzero positive joints rotate = .error .valueError ∨
    drawHist1d edges hist renormalize nonzero positive joints rotate = .error .indexError := by
  unfold drawHist1d
  split
  · exact Or.inl rfl
  · rw [if_pos (by omega)]
    split
    · exact Or.inr rfl
    · exact Or.inl rfl

/-- **C73 (documented).** `hist1d(..., positive=True)`: "only plot bins with positive values". -/
def C73_Claim : Prop :=
  ∀ (edges hist : List ℚ) (pts : List (StepPt ℚ)),
    drawHist1d edges hist none false true true false = .ok pts →
    ∀ q ∈ pts, q.masked = false → ∀ y, q.y = some y → 0 < y

/-- **C73 fails**: empty bins are drawn (as a line at zero); only negative values are masked. -/
theorem C73_refuted : ¬ C73_Claim := by
  intro h
  have := h [0, 1] [0] _ (C59_curve [0, 1] [0] rfl (by simp) false true true false) ⟨some 0, some 0, false⟩
    (by simp [List.range_succ, Spec.binCurve]) rfl 0 rfl
  exact lt_irrefl _ this

/-- **C73 (partial).** With `positive=True` no bin of negative value is drawn, and every other bin is drawn as before.
Missing: bins of value zero are drawn. -/
theorem C73_partial (edges hist : List K) (joints : Bool) (pts : List (StepPt K))
    (h : drawHist1d edges hist none false true joints false = .ok pts) :
    (∀ q ∈ pts, q.masked = false → ∀ y, q.y = some y → 0 ≤ y) ∧
    ∀ j < hist.length, 0 ≤ hist.getD j 0 →
      StepPt.mk (some (edges.getD j 0)) (some (hist.getD j 0)) false ∈ pts ∧
      StepPt.mk (some (edges.getD (j + 1) 0)) (some (hist.getD j 0)) false ∈ pts := by
  by_cases hl : edges.length = hist.length + 1
  swap
  · rcases C59_mismatch edges hist hl none false true joints false with e | e <;> rw [e] at h <;> cases h
  by_cases hne : hist = []
  · subst hne
    rw [drawHist1d, if_pos (Or.inr rfl)] at h; cases h
  rw [C59_curve edges hist hl hne] at h
  cases h
  constructor
  · intro q hq hm y hy
    obtain ⟨j, -, hq⟩ := List.mem_flatMap.mp hq
    cases joints <;> simp [Spec.binCurve] at hq
    · rcases hq with rfl | rfl | rfl
      all_goals simp at hy hm
      all_goals subst hy
      all_goals simpa using hm
    · rcases hq with rfl | rfl
      all_goals simp at hy hm
      all_goals subst hy
      all_goals simpa using hm
  · intro j hj h0
    have h0' := h0
    rw [List.getD_eq_getElem _ _ hj] at h0'
    constructor <;> refine List.mem_flatMap.mpr ⟨j, List.mem_range.mpr hj, ?_⟩ <;>
      simp [Spec.binCurve, hj, h0']

/-- Two bins, without joints: the segments from (0, 5) to (1, 5) and from (1, 7) to (3, 7). -/
example : drawHist1d [0, 1, (3 : ℚ)] [5, 7] none false false false false =
    .ok [⟨some 0, some 5, false⟩, ⟨some 1, some 5, false⟩, ⟨none, none, false⟩,
      ⟨some 1, some 7, false⟩, ⟨some 3, some 7, false⟩, ⟨none, none, false⟩] := by
  rw [C59_curve _ _ rfl (by simp)]
  simp [List.range_succ, Spec.binCurve]

end Kalepy
