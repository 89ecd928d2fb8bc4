import Verif.Model.CornerTop
import Verif.Props.CornerData

/-!
# C173: corner plots of data with the default settings
-/

namespace Kalepy

open Spec

variable {d : ℕ}

namespace Spec

/-- Which components the diagonal panels have: curve of the density, histogram, bands, points. -/
def diagonalParts : TopMethod → Bool × Bool × Bool × Bool
  | .plot => (true, false, true, true)
  | .clean => (true, false, false, false)
  | .hist => (false, true, false, false)

/-- Which components the panels below the diagonal have: points, median lines, histogram, contours. -/
def lowerParts : TopMethod → Bool × Bool × Bool × Bool
  | .plot => (true, true, true, true)
  | .clean => (false, true, false, true)
  | .hist => (false, true, true, false)

/-- The components that are drawn on the diagonal. -/
def parts1 (o : Dist1dOut) : Bool × Bool × Bool × Bool := (o.curve.isSome, o.hist.isSome, o.bands.isSome, o.carpet.isSome)

/-- The components that are drawn below it. -/
def parts2 (o : Dist2dOut) : Bool × Bool × Bool × Bool := (o.scatter.isSome, o.lines.isSome, o.hist.isSome, o.contour.isSome)

end Spec

private lemma isSome_of_iff {α : Type*} {o : Option α} {p : Prop} (h : o = none ↔ p) (b : Bool) (hb : b = true ↔ ¬ p) : o.isSome = b := by
  cases o <;> cases b <;> simp_all

/-- **C173, the components.** Every panel of the diagonal has exactly the components of the method, and so has every panel below it; nothing
is above the diagonal. -/
theorem C173_components (m : TopMethod) (E : Ext) (srt : List ℝ → List ℕ) (auto : List ℝ → ℕ) (r : CornerRnd d) (hr1 : ∀ i, IsChoice (r.sel1 i))
    (hr2 : ∀ i j, IsChoice (r.sel2 i j)) (rotate : Bool) (data : List (Fin d → ℝ)) (weights : Option (List ℝ)) (edges : EdgeArg)
    (quantiles : Option (List ℝ)) (out : CornerOut d) (h : Corner.first m E srt auto r rotate data weights edges quantiles = .ok out) :
    (∀ jj, parts1 (out.diag jj) = diagonalParts m) ∧
    (∀ ii jj, jj < ii → ∃ p, out.panel ii jj = some p ∧ parts2 p = lowerParts m) ∧
    ∀ ii jj, ii ≤ jj → out.panel ii jj = none := by
  unfold Corner.first at h
  split at h
  · cases h
  rename_i k hk
  cases m with
  | plot =>
    obtain ⟨e, -, -, h1, h2, h3⟩ := C104_panels E srt auto r hr1 hr2 rotate _ k hk edges _ _ out h
    refine ⟨fun jj => ?_, fun ii jj hij => ?_, h2⟩
    · obtain ⟨-, q1, q2, q3, q4⟩ := h1 jj
      simp only [parts1, diagonalParts, q2, q3, isSome_of_iff q1 true (by simp [plot1dArgs]),
        isSome_of_iff q4 true (by simp [plot1dArgs])]
      simp [plot1dArgs]
    · obtain ⟨p, hp, -, -, q1, q2, q3, q4⟩ := h3 ii jj hij
      refine ⟨p, hp, ?_⟩
      simp only [parts2, lowerParts, q2, q3, q4, isSome_of_iff q1 true (by simp [plot2dArgs])]
      simp [plot2dArgs]
  | clean =>
    obtain ⟨e, -, -, h1, h2, h3⟩ := C104_panels E srt auto r hr1 hr2 rotate _ k hk edges _ _ out h
    refine ⟨fun jj => ?_, fun ii jj hij => ?_, h2⟩
    · obtain ⟨-, q1, q2, q3, q4⟩ := h1 jj
      simp only [parts1, diagonalParts, q2, q3, isSome_of_iff q1 true (by simp [clean1dArgs]),
        isSome_of_iff q4 false (by simp [clean1dArgs])]
      simp [clean1dArgs]
    · obtain ⟨p, hp, -, -, q1, q2, q3, q4⟩ := h3 ii jj hij
      refine ⟨p, hp, ?_⟩
      simp only [parts2, lowerParts, q2, q3, q4, isSome_of_iff q1 false (by simp [clean2dArgs])]
      simp [clean2dArgs]
  | hist =>
    obtain ⟨e, hD⟩ := C107_data E srt auto r hr1 hr2 rotate _ none edges quantiles hist1dArgs hist2dArgs rfl out h
    refine ⟨fun jj => ?_, fun ii jj hij => ?_, hD.above⟩
    · obtain ⟨q1, q2, q3, q4⟩ := hD.diagParts jj
      simp only [parts1, diagonalParts, q2, q3, isSome_of_iff q1 false (by simp [hist1dArgs]),
        isSome_of_iff q4 false (by simp [hist1dArgs])]
      simp [hist1dArgs]
    · obtain ⟨p, hp, -, -, q1, q2, q3, q4⟩ := hD.below ii jj hij
      refine ⟨p, hp, ?_⟩
      simp only [parts2, lowerParts, q2, q3, q4, isSome_of_iff q1 false (by simp [hist2dArgs])]
      simp [hist2dArgs]

/-- **C173, what `plot` and `clean` show.** There is a KDE of the data and weights and one set of edges per parameter, enclosing the data
if they are automatic, such that the diagonal panel of each parameter shows its marginal density and its data and the panel in row `ii`
and column `jj` parameter `jj` horizontally and `ii` vertically, with the shared edges.  The quantiles of the bands are those given. -/
theorem C173_kde (m : TopMethod) (hm : m = .plot ∨ m = .clean) (E : Ext) (srt : List ℝ → List ℕ) (auto : List ℝ → ℕ) (r : CornerRnd d) (hr1 : ∀ i, IsChoice (r.sel1 i))
    (hr2 : ∀ i j, IsChoice (r.sel2 i j)) (rotate : Bool) (data : List (Fin d → ℝ)) (weights : Option (List ℝ)) (edges : EdgeArg)
    (quantiles : Option (List ℝ)) (out : CornerOut d) (h : Corner.first m E srt auto r rotate data weights edges quantiles = .ok out) :
    ∃ (k : KDE d) (e : Fin d → List ℝ), KDE.init E (defaultArgs data weights) = .ok k ∧ k.dataset = data ∧ k.weights = weights ∧
      ((edges = .none ∨ ∃ n : ℤ, 0 < n ∧ edges = .int n) → Covers e data) ∧
      (∀ jj : Fin d, ∃ a : Dist1dArgs, a.edges = .arr (e jj) ∧ a.probability = true ∧
        (a.rotate = true ↔ rotate = true ∧ (jj : ℕ) + 1 = d) ∧ a.quantiles = quantiles ∧
        Shows1d E srt auto k jj a 1 (out.diag jj)) ∧
      ∀ ii jj, jj < ii → ∃ p, out.panel ii jj = some p ∧ Shows2d E srt k jj ii 1 p ∧
        ∀ P, p.hist = some P → P.x = e jj ∧ P.y = e ii := by
  unfold Corner.first at h
  split at h
  · cases h
  rename_i k hk
  obtain ⟨s1, s2, -, -⟩ := default_stored hk
  rcases hm with rfl | rfl
  all_goals
    obtain ⟨e, g1, -, h1, -, h3⟩ := C104_panels E srt auto r hr1 hr2 rotate _ k hk edges _ _ out h
    refine ⟨k, e, hk, s1, s2, fun he => s1 ▸ g1 he, fun jj => ?_, fun ii jj hij => ?_⟩
    · refine ⟨_, ?_, ?_, ?_, ?_, (by simpa [plot1dArgs, clean1dArgs] using (h1 jj).1)⟩
      · rfl
      · rfl
      · simp [diagPanel]
      · rfl
    · obtain ⟨p, hp, q0, q, -⟩ := h3 ii jj hij
      exact ⟨p, hp, q0, q⟩

/-- **C173, what `hist` shows.** The panels show the histograms of the data *without* their weights, with shared edges. -/
theorem C173_hist (E : Ext) (srt : List ℝ → List ℕ) (auto : List ℝ → ℕ) (r : CornerRnd d) (hr1 : ∀ i, IsChoice (r.sel1 i))
    (hr2 : ∀ i j, IsChoice (r.sel2 i j)) (rotate : Bool) (data : List (Fin d → ℝ)) (weights : Option (List ℝ)) (edges : EdgeArg)
    (quantiles : Option (List ℝ)) (out : CornerOut d) (h : Corner.first .hist E srt auto r rotate data weights edges quantiles = .ok out) :
    ∃ e : Fin d → List ℝ, ((edges = .none ∨ ∃ n : ℤ, 0 < n ∧ edges = .int n) → Covers e data) ∧
      (∀ jj : Fin d, ∃ bins s hist, out.diag jj = ⟨none, some s, none, none⟩ ∧
        hist1d auto false (dataRow data jj) (histArgs (.arr (e jj)) none true true true (rotate && decide ((jj : ℕ) + 1 = d))) = .ok (hist, bins, s)) ∧
      ∀ ii jj, jj < ii → ∃ p P, out.panel ii jj = some p ∧ p.hist = some P ∧ P.x = e jj ∧ P.y = e ii ∧
        ∀ m n, m + 1 < P.x.length → n + 1 < P.y.length → ∀ v, Spec.shown P m n = some v →
          v = cellDensity (data.map fun x => ![x jj, x ii]) none P.x P.y m n := by
  obtain ⟨c1, c2, -⟩ := C173_components .hist E srt auto r hr1 hr2 rotate data weights edges quantiles out h
  unfold Corner.first at h
  split at h
  · cases h
  rename_i k hk
  obtain ⟨s1, -⟩ := default_stored hk
  rw [s1] at h
  obtain ⟨e, hD⟩ := C107_data E srt auto r hr1 hr2 rotate _ none edges quantiles hist1dArgs hist2dArgs rfl out h
  refine ⟨e, hD.covers, fun jj => ?_, fun ii jj hij => ?_⟩
  · have hp := c1 jj
    have hd := (hD.diag jj).hist
    rcases ho : out.diag jj with ⟨a, b, c, f⟩
    rw [ho] at hp hd
    cases a <;> cases b <;> cases c <;> cases f <;> simp [parts1, diagonalParts] at hp
    rename_i s
    obtain ⟨hist, bins, hh⟩ := hd s rfl
    exact ⟨bins, s, hist, rfl, hh⟩
  · obtain ⟨p, hp, ⟨k2, -, e1, e2, hsh⟩, hx, -⟩ := hD.below ii jj hij
    obtain ⟨p', hp', hparts⟩ := c2 ii jj hij
    rw [hp] at hp'
    cases hp'
    cases hP : p.hist with
    | none => simp [parts2, lowerParts, hP] at hparts
    | some P =>
      refine ⟨p, P, hp, hP, (hx P hP).1, (hx P hP).2, ?_⟩
      have h3 := (hsh.hist P hP).2.2
      rw [e1, e2] at h3
      simpa only [List.map_map, Function.comp_def, Matrix.cons_val_zero, Matrix.cons_val_one] using h3

/-- The conditions on data and weights for the methods.  `hist` needs two points and parameters that vary; `plot` and `clean` a covariance
that is not singular and an effective number of points of at least two; `plot` draws points on the diagonal, which needs upper limits of the axes
that are not negative and weights that are positive and not too different (C92). -/
def Spec.Drawable (m : TopMethod) (r : CornerRnd d) (data : List (Fin d → ℝ)) (weights : Option (List ℝ)) : Prop :=
  TwoPoints data weights ∧
  match m with
  | .hist => ∀ i, Varies data i
  | .clean => (∀ w, weights = some w → 2 * (w.map (· ^ 2)).sum ≤ w.sum ^ 2) ∧ (sampleCov (weighted data weights)).PosDef
  | .plot => (∀ w, weights = some w → 2 * (w.map (· ^ 2)).sum ≤ w.sum ^ 2) ∧ (sampleCov (weighted data weights)).PosDef ∧
    (∀ i, 0 ≤ r.top i) ∧ ∀ w, weights = some w → (∀ x ∈ w, 0 < x) ∧ ((∀ x ∈ w, 1 < x) ∨ ∀ x ∈ w, ∀ y ∈ w, x ≤ 10 * y)

/-- **C173, success.** Under these conditions all panels can be drawn, for automatic edges and positive numbers of bins. -/
theorem C173_succeeds (m : TopMethod) (E : Ext) (hE : IsNormalQuantile E.ppf) (srt : List ℝ → List ℕ) (hs : ∀ l, IsArgsort (srt l) l) (auto : List ℝ → ℕ) (r : CornerRnd d)
    (hr1 : ∀ i, IsChoice (r.sel1 i)) (hr2 : ∀ i j, IsChoice (r.sel2 i j)) (rotate : Bool) (data : List (Fin d → ℝ)) (weights : Option (List ℝ))
    (hdr : Drawable m r data weights) (edges : EdgeArg) (hedges : edges = .none ∨ ∃ n : ℤ, 0 < n ∧ edges = .int n)
    (quantiles : Option (List ℝ)) (hq : quantiles ≠ some []) :
    ∃ out, Corner.first m E srt auto r rotate data weights edges quantiles = .ok out := by
  obtain ⟨h2, hm⟩ := hdr
  cases m with
  | plot =>
    obtain ⟨hn, hM, ht, hw⟩ := hm
    obtain ⟨k, out, hk, ho⟩ := C105_default E hE srt hs auto r hr1 hr2 rotate data weights h2 hn hM edges hedges
      { plot1dArgs with quantiles := quantiles } { plot2dArgs with quantiles := quantiles }
      ⟨by simp [plot2dArgs], hq, by simp [plot2dArgs], by simp [plot1dArgs], Or.inr (Or.inr ⟨ht, hw⟩)⟩
    have hk' : KDE.init E { dataset := data, weights := weights.elim .none fun w => .arr (w.map .fin) } = .ok k := hk
    exact ⟨out, by unfold Corner.first; rw [hk']; exact ho⟩
  | clean =>
    obtain ⟨hn, hM⟩ := hm
    obtain ⟨k, out, hk, ho⟩ := C105_default E hE srt hs auto r hr1 hr2 rotate data weights h2 hn hM edges hedges
      { clean1dArgs with quantiles := quantiles } { clean2dArgs with quantiles := quantiles }
      ⟨by simp [clean2dArgs], hq, by simp [clean2dArgs], by simp [clean1dArgs], Or.inl rfl⟩
    have hk' : KDE.init E { dataset := data, weights := weights.elim .none fun w => .arr (w.map .fin) } = .ok k := hk
    exact ⟨out, by unfold Corner.first; rw [hk']; exact ho⟩
  | hist =>
    obtain ⟨k, hk, e1, -⟩ := C110_default E data weights h2
    have hk' : KDE.init E { dataset := data, weights := weights.elim .none fun w => .arr (w.map .fin) } = .ok k := hk
    have h2' : TwoPoints data none := by
      cases weights with
      | none => exact h2
      | some w =>
        obtain ⟨hl, -, i, j, x, y, hij, -, hj, -⟩ := h2
        have := (List.getElem?_eq_some_iff.mp hj).1
        show 2 ≤ data.length
        omega
    obtain ⟨out, ho⟩ := C107_succeeds E srt hs auto r hr1 hr2 rotate data none h2' hm edges hedges quantiles hq hist1dArgs hist2dArgs
      ⟨by simp [hist2dArgs], by simp [hist2dArgs], by simp [hist2dArgs], by simp [hist1dArgs], Or.inl rfl⟩ (Or.inr rfl) rfl
    exact ⟨out, by unfold Corner.first; rw [hk']; simp only [e1]; exact ho⟩

/-- Hypotheses of `C173_succeeds` for `hist`: three weighted points in two parameters. -/
example (r : CornerRnd 2) : Drawable .hist r [![0, 0], ![1, 0], ![0, 1]] (some [1, 2, 3]) := by
  refine ⟨⟨rfl, by simp, 0, 1, 1, 2, by norm_num, rfl, rfl, by norm_num, by norm_num⟩, fun i => ?_⟩
  fin_cases i
  · exact ⟨![0, 0], by simp, ![1, 0], by simp, by simp⟩
  · exact ⟨![0, 0], by simp, ![0, 1], by simp, by simp⟩

end Kalepy
