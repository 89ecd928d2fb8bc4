import Verif.Props.CornerTop
import Verif.Props.CornerReflect

/-!
# C104, C107: what `Corner.plot_data` and `Corner.plot_kde` show by default
-/

namespace Kalepy

open Spec

variable {d : ℕ}

private lemma isSome_iff {α : Type*} {o : Option α} {p : Prop} (h : o = none ↔ p) (b : Bool) (hb : b = true ↔ ¬ p) : o.isSome = b := by
  cases o <;> cases b <;> simp_all

/-- A corner plot has exactly these components in each panel of the diagonal (curve of the density, histogram, bands, points) and in each
panel below it (points, median lines, histogram, contours), and nothing above the diagonal. -/
def Spec.HasParts (one two : Bool × Bool × Bool × Bool) (out : CornerOut d) : Prop :=
  (∀ jj, parts1 (out.diag jj) = one) ∧ (∀ ii jj, jj < ii → ∃ p, out.panel ii jj = some p ∧ parts2 p = two) ∧
    ∀ ii jj, ii ≤ jj → out.panel ii jj = none

private lemma dataCorner_parts {E : Ext} {srt : List ℝ → List ℕ} {auto : List ℝ → ℕ} {rotate : Bool} {data : List (Fin d → ℝ)}
    {weights : Option (List ℝ)} {edges : EdgeArg} {qs : List ℝ} {e : Fin d → List ℝ} {out : CornerOut d}
    (hD : DataCorner E srt auto rotate data weights edges qs data1dArgs data2dArgs e out) :
    HasParts (false, true, false, true) (true, true, true, false) out := by
  refine ⟨fun jj => ?_, fun ii jj hij => ?_, hD.above⟩
  · obtain ⟨q1, q2, q3, q4⟩ := hD.diagParts jj
    simp only [parts1, q2, q3, isSome_iff q1 false (by simp [data1dArgs]), isSome_iff q4 true (by simp [data1dArgs])]
    simp [data1dArgs]
  · obtain ⟨p, hp, -, -, q1, q2, q3, q4⟩ := hD.below ii jj hij
    refine ⟨p, hp, ?_⟩
    simp only [parts2, q2, q3, q4, isSome_iff q1 true (by simp [data2dArgs])]
    simp [data2dArgs]

/-- **C107, the defaults.** `Corner.plot_data` of an array shows by default the histogram and the points of each parameter on the diagonal,
and the points, the median lines and the histogram of each pair below it: no densities, bands or contours. -/
theorem C107_default (E : Ext) (srt : List ℝ → List ℕ) (auto : List ℝ → ℕ) (r : CornerRnd d) (hr1 : ∀ i, IsChoice (r.sel1 i))
    (hr2 : ∀ i j, IsChoice (r.sel2 i j)) (rotate : Bool) (data : List (Fin d → ℝ)) (weights : Option (List ℝ)) (edges : EdgeArg)
    (quantiles : Option (List ℝ)) (out : CornerOut d)
    (h : Corner.plotData E srt auto r rotate data weights edges quantiles data1dArgs data2dArgs = .ok out) :
    HasParts (false, true, false, true) (true, true, true, false) out := by
  obtain ⟨e, hD⟩ := C107_data E srt auto r hr1 hr2 rotate data weights edges quantiles data1dArgs data2dArgs rfl out h
  exact dataCorner_parts hD

/-- **C107, the defaults.** The same for the data of a KDE. -/
theorem C107_kde_default (E : Ext) (srt : List ℝ → List ℕ) (auto : List ℝ → ℕ) (r : CornerRnd d) (hr1 : ∀ i, IsChoice (r.sel1 i))
    (hr2 : ∀ i j, IsChoice (r.sel2 i j)) (rotate : Bool) (args : KDEArgs d) (k : KDE d) (hk : KDE.init E args = .ok k) (edges : EdgeArg)
    (quantiles : Option (List ℝ)) (out : CornerOut d)
    (h : Corner.plotDataKde E srt auto r rotate k edges quantiles data1dArgs data2dArgs = .ok out) :
    HasParts (false, true, false, true) (true, true, true, false) out := by
  obtain ⟨e, hD⟩ := C107_kde E srt auto r hr1 hr2 rotate args k hk edges quantiles data1dArgs data2dArgs rfl out h
  exact dataCorner_parts hD

/-- **C104, the defaults.** `Corner.plot_kde` shows by default the density and the bands of each parameter on the diagonal, and the median
lines and contours of each pair below it: no histograms and no points. -/
theorem C104_default (E : Ext) (srt : List ℝ → List ℕ) (auto : List ℝ → ℕ) (r : CornerRnd d) (hr1 : ∀ i, IsChoice (r.sel1 i))
    (hr2 : ∀ i j, IsChoice (r.sel2 i j)) (rotate : Bool) (args : KDEArgs d) (k : KDE d) (hk : KDE.init E args = .ok k) (edges : EdgeArg)
    (quantiles : Option (List ℝ)) (out : CornerOut d)
    (h : Corner.plotKde E srt auto r rotate k edges { kde1dArgs with quantiles := quantiles } { kde2dArgs with quantiles := quantiles } = .ok out) :
    HasParts (true, false, true, false) (false, true, false, true) out := by
  obtain ⟨e, -, -, h1, h2, h3⟩ := C104_panels E srt auto r hr1 hr2 rotate args k hk edges _ _ out h
  refine ⟨fun jj => ?_, fun ii jj hij => ?_, h2⟩
  · obtain ⟨-, q1, q2, q3, q4⟩ := h1 jj
    simp only [parts1, q2, q3, isSome_iff q1 true (by simp [kde1dArgs]), isSome_iff q4 false (by simp [kde1dArgs])]
    simp [kde1dArgs]
  · obtain ⟨p, hp, -, -, q1, q2, q3, q4⟩ := h3 ii jj hij
    refine ⟨p, hp, ?_⟩
    simp only [parts2, q2, q3, q4, isSome_iff q1 false (by simp [kde2dArgs])]
    simp [kde2dArgs]

/-- Hypotheses of `C104_default`: a KDE of three parameters with boundaries drawn with the default settings (those of the C107 theorems are shown
in `Verif.Props.CornerData`). -/
example : ∃ (E : Ext) (srt : List ℝ → List ℕ) (auto : List ℝ → ℕ) (r : CornerRnd 3) (args : KDEArgs 3) (k : KDE 3) (out : CornerOut 3),
    KDE.init E args = .ok k ∧ k.dataset = [![0, 10, 5], ![1, 12, 6]] ∧ k.reflect = some [some (some (-1), none), some (some 9, some 14), none] ∧
    Corner.plotKde E srt auto r true k .none kde1dArgs kde2dArgs = .ok out := by
  obtain ⟨srt, hs⟩ := exists_argsort
  let E : Ext := ⟨fun M => M⁻¹, fun _ => 0⟩
  let r : CornerRnd 3 := ⟨fun _ _ n => List.range n, fun _ _ => 0, fun _ => 1, fun _ _ _ n => List.range n⟩
  obtain ⟨k, hk, hw, hD, hM, hr, _, hdat⟩ := unit_init_reflect (d := 3) E [![0, 10, 5], ![1, 12, 6]] (by simp) .box rfl
    [some (some (-1), none), some (some 9, some 14), none] rfl (by
      intro lo hi h
      simp only [List.mem_cons, Option.some.injEq, Prod.mk.injEq, List.not_mem_nil, or_false, reduceCtorEq, and_false, false_or] at h
      rw [h.1, h.2]; norm_num) ⟨(some (-1), none), by simp⟩
  have hM' : (Spec.kernelMatrix k.covariance k.bandwidth).PosDef := by rw [hM]; exact Matrix.PosDef.one
  obtain ⟨out, ho⟩ := C105_reflect E srt hs (fun _ => 1) r (fun _ => isChoice_range) (fun _ _ => isChoice_range) true _ k hk (by norm_num) _ hr rfl rfl
    hM' (fun i => extrema_lt_reflect hk rfl hr (by rw [hD]; rfl) hM' (by
      intro x hx i
      rw [hdat] at hx
      simp only [List.mem_cons, List.not_mem_nil, or_false] at hx
      rcases hx with rfl | rfl <;> fin_cases i <;> simp [StrictlyInside] <;> norm_num) i) (by
      intro i
      rw [hdat]
      refine ⟨_, List.mem_cons_self, _, List.mem_cons_of_mem _ List.mem_cons_self, ?_⟩
      fin_cases i <;> simp) .none (Or.inl rfl) kde1dArgs kde2dArgs
    ⟨by simp [kde2dArgs], by simp [kde2dArgs], by simp [kde2dArgs], by simp [kde1dArgs], Or.inl rfl⟩
  exact ⟨E, srt, _, r, _, k, out, hk, hdat, hr, ho⟩

end Kalepy
