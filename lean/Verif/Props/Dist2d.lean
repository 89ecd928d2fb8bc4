import Verif.Model.Dist
import Verif.Props.Hist2d
import Verif.Props.Carpet
import Verif.Props.PadHist
import Verif.Props.Params
import Verif.Props.Scatter

/-!
# C95: the components of `dist2d` show the same parameters
-/

namespace Kalepy

open Spec

variable {d : ℕ}

/-! ### specification -/

/-- `v` is a median: at most half of the data lie on either side. -/
def Spec.IsMedian (l : List ℝ) (v : ℝ) : Prop :=
  2 * l.countP (· < v) ≤ l.length ∧ 2 * l.countP (v < ·) ≤ l.length

/-- Number of rows and columns added around a grid. -/
def Spec.padNumber : PadArg → ℕ
  | .off => 0
  | .auto => 1
  | .num n => n

/-- The line drawn at `v` is the median of the data `l`, the one computed by `quantiles` if there are weights. -/
def Spec.LineAt (srt : List ℝ → List ℕ) (l : List ℝ) (weights : Option (List ℝ)) (v : ℝ) : Prop :=
  match weights with
  | none => IsMedian l v
  | some w => ∃ r, quantiles srt l [1 / 2] (some w) = .ok r ∧ v = r.getD 0 0

/-- Everything drawn by `dist2d` shows parameter `i` along the horizontal and parameter `j` along the vertical axis: points, lines at the medians,
densities of the bins (unless hidden), and the values from which the contours are drawn, except for the padding. -/
structure Spec.Shows2d (E : Ext) (srt : List ℝ → List ℕ) (k : KDE d) (i j : Fin d) (pad : ℕ) (out : Dist2dOut) : Prop where
  scatter : ∀ pts, out.scatter = some pts → pts.Subperm (k.dataset.map fun x => ![x i, x j])
  lines : ∀ v h, out.lines = some (v, h) → LineAt srt (dataRow k.dataset i) k.weights v ∧ LineAt srt (dataRow k.dataset j) k.weights h
  hist : ∀ P, out.hist = some P → P.x.Pairwise (· < ·) ∧ P.y.Pairwise (· < ·) ∧
    ∀ m n, m + 1 < P.x.length → n + 1 < P.y.length → ∀ v, Spec.shown P m n = some v →
      v = cellDensity (k.dataset.map fun x => ![x i, x j]) k.weights P.x P.y m n
  contour : ∀ C, out.contour = some C → C.z.shape = ![C.x.length, C.y.length] ∧
    ∀ m n, pad ≤ m → m + pad < C.x.length → pad ≤ n → n + pad < C.y.length →
      (k.density E srt (some (.rows [[C.x.getD m 0], [C.y.getD n 0]])) .none (.list [(i : ℤ), (j : ℤ)]) false false).1 =
        .ok (.rows [[C.x.getD m 0], [C.y.getD n 0]], ⟨[1], [C.z.get ![m, n]]⟩)

/-! ### proofs -/

lemma countP_le_of_drop {α : Type*} (p : α → Bool) (l : List α) (n : ℕ) (h : ∀ x ∈ l.drop n, p x = false) : l.countP p ≤ n := by
  have h0 : (l.drop n).countP p = 0 := List.countP_eq_zero.mpr fun x hx => by simp [h x hx]
  rw [← List.take_append_drop n l, List.countP_append, h0, add_zero]
  exact List.countP_le_length.trans (by simp)

lemma countP_le_of_take {α : Type*} (p : α → Bool) (l : List α) (n : ℕ) (h : ∀ x ∈ l.take n, p x = false) :
    l.countP p ≤ l.length - n := by
  have h0 : (l.take n).countP p = 0 := List.countP_eq_zero.mpr fun x hx => by simp [h x hx]
  have h1 : l.countP p = (l.take n).countP p + (l.drop n).countP p := by
    rw [← List.countP_append, List.take_append_drop]
  rw [h1, h0, zero_add]
  exact List.countP_le_length.trans (by simp)

lemma npMedian_isMedian {l : List ℝ} {m : ℝ} (h : npMedian l = .ok m) : IsMedian l m := by
  unfold npMedian at h
  split at h
  · cases h
  rename_i hne
  cases h
  have hpos : 0 < l.length := List.length_pos_iff.mpr hne
  have hl := npSort_length l
  have hs := npSort_pairwise l
  have hp := npSort_perm l
  set s := npSort l
  have hmono : ∀ a b, a ≤ b → b < s.length → s.getD a 0 ≤ s.getD b 0 := by
    intro a b hab hb
    rw [List.getD_eq_getElem _ _ (by omega), List.getD_eq_getElem _ _ hb]
    rcases hab.eq_or_lt with rfl | hab
    · exact le_rfl
    · exact List.pairwise_iff_getElem.mp hs a b (by omega) hb hab
  have h1 := hmono ((l.length - 1) / 2) (l.length / 2) (by omega) (by omega)
  unfold IsMedian
  rw [← hp.countP_eq, ← hp.countP_eq]
  constructor
  · have := countP_le_of_drop (fun x => decide (x < (s.getD ((l.length - 1) / 2) 0 + s.getD (l.length / 2) 0) / 2)) s (l.length / 2) (by
      intro x hx
      obtain ⟨n, hn, rfl⟩ := List.mem_iff_getElem.mp hx
      rw [List.getElem_drop]
      have := hmono (l.length / 2) (l.length / 2 + n) (by omega) (by simp at hn; omega)
      rw [List.getD_eq_getElem (n := l.length / 2 + n) _ _ (by simp at hn; omega)] at this
      simp only [decide_eq_false_iff_not, not_lt]
      linarith)
    omega
  · have := countP_le_of_take (fun x => decide ((s.getD ((l.length - 1) / 2) 0 + s.getD (l.length / 2) 0) / 2 < x)) s
      ((l.length - 1) / 2 + 1) (by
      intro x hx
      obtain ⟨n, hn, rfl⟩ := List.mem_iff_getElem.mp hx
      rw [List.getElem_take]
      have := hmono n ((l.length - 1) / 2) (by simp at hn; omega) (by omega)
      rw [List.getD_eq_getElem (n := n) _ _ (by simp at hn; omega)] at this
      simp only [decide_eq_false_iff_not, not_lt]
      linarith)
    omega

lemma optional_ok {α : Type*} {b : Bool} {r : Res α} {o : Option α} (h : optional b r = .ok o) :
    (b = false ∧ o = none) ∨ ∃ x, b = true ∧ r = .ok x ∧ o = some x := by
  unfold optional at h
  split at h
  · rename_i hb
    cases r with
    | error e => cases h
    | ok x => cases h; exact Or.inr ⟨x, hb, rfl, rfl⟩
  · rename_i hb
    cases h
    exact Or.inl ⟨by simpa using hb, rfl⟩

lemma dist2dDraw_ok {E : Ext} {srt : List ℝ → List ℕ} {sel : ℕ → ℕ → List ℕ} {k : KDE d} {data : List (Fin 2 → ℝ)}
    {weights : Option (List ℝ)} {a : Dist2dArgs} {out : Dist2dOut} (h : dist2dDraw E srt sel k data weights a = .ok out) :
    ∃ rows hh sg levels qs mask, scatterPoints data a.scatter sel = .ok out.scatter ∧
      parseEdgesParams srt data a.edges k.reflect a.params = .ok rows ∧
      histogram2d data (rows.getD 0 []) (rows.getD 1 []) weights = .ok hh ∧
      dfmLevels srt .float hh a.quantiles a.sigmas = .ok (sg, levels, qs) ∧ maskLevel levels a.maskBelow = .ok mask ∧
      optional a.median (medianLines srt data weights) = .ok out.lines ∧
      optional a.contour (kdeContour E srt k a.params qs a.pad) = .ok out.contour ∧
      out.hist = if a.hist then some (drawHist2d (rows.getD 0 []) (rows.getD 1 []) hh mask) else none := by
  unfold dist2dDraw at h
  split at h
  · cases h
  rename_i sc h1
  split at h
  · cases h
  rename_i rows h2
  split at h
  · cases h
  rename_i hh h3
  split at h
  · cases h
  rename_i sg levels qs h4
  split at h
  · cases h
  rename_i mask h5
  split at h
  · cases h
  rename_i lines h6
  split at h
  · cases h
  rename_i contour h7
  cases h
  exact ⟨rows, hh, sg, levels, qs, mask, h1, h2, h3, h4, h5, h6, h7, rfl⟩

lemma lineAt_of_median {srt : List ℝ → List ℕ} {l : List ℝ} {w : Option (List ℝ)} {v : ℝ} (h : dataMedian srt l w = .ok v) :
    LineAt srt l w v := by
  unfold dataMedian at h
  cases w with
  | none => exact npMedian_isMedian h
  | some w =>
    simp only at h
    cases hq : quantiles srt l [1 / 2] (some w) with
    | error e => rw [hq] at h; cases h
    | ok r => rw [hq] at h; cases h; exact ⟨r, hq, rfl⟩

lemma medianLines_ok {srt : List ℝ → List ℕ} {data : List (Fin 2 → ℝ)} {w : Option (List ℝ)} {v h : ℝ}
    (hm : medianLines srt data w = .ok (v, h)) : LineAt srt (dataRow data 0) w v ∧ LineAt srt (dataRow data 1) w h := by
  unfold medianLines at hm
  split at hm
  · cases hm
  rename_i v' h1
  split at hm
  · cases hm
  rename_i h' h2
  cases hm
  exact ⟨lineAt_of_median h1, lineAt_of_median h2⟩

lemma scatterPoints_subperm {α : Type*} {pts : List α} {arg : ScatterArg} {sel : ℕ → ℕ → List ℕ} (hs : IsChoice sel)
    {l : List α} (h : scatterPoints pts arg sel = .ok (some l)) : l.Subperm pts := by
  obtain ⟨h1, h2, h3, h4, h5⟩ := C71_scatter pts sel hs
  cases arg with
  | yes => rw [h3] at h; cases h; exact List.Subperm.refl _
  | no => rw [h1] at h; cases h
  | none => rw [h2] at h; cases h
  | num x =>
    rcases lt_or_ge x 1 with hx | hx
    · rw [h4 x hx] at h; cases h
    · obtain ⟨l', e1, e2, _⟩ := h5 x hx
      rw [e1] at h
      cases h
      exact e2

lemma matchEdges_same {x y : List ℝ} {z : NDArr 2 ℝ} (hz : z.shape = ![x.length, y.length]) : matchEdges [x, y] z = .ok [x, y] := by
  unfold matchEdges
  rw [if_pos]
  rw [hz]
  simp [List.ofFn_succ]

lemma padHist_match {x y : List ℝ} {z : NDArr 2 ℝ} {n : ℕ} (hn : 0 < n) (hz : z.shape = ![x.length, y.length])
    {ee cs : List (List ℝ)} {hh : NDArr 2 ℝ} (h : padHist [x, y] z n = .ok (ee, hh)) (hm : matchEdges ee hh = .ok cs) :
    ∃ rx ry v, cs = [rx, ry] ∧ PaddedEdges n x rx ∧ PaddedEdges n y ry ∧ PaddedArr n v z hh := by
  unfold padHist at h
  split at h
  · cases h
  rename_i v hv
  split at h
  · cases h
  rename_i ee' hee
  cases h
  have hP := padNd_spec n v z
  have hf := listSeq_ok.mp hee
  obtain ⟨rx, l1, hx, hf1, rfl⟩ := List.forall₂_cons_left_iff.mp hf
  obtain ⟨ry, l2, hy, hf2, rfl⟩ := List.forall₂_cons_left_iff.mp hf1
  obtain rfl := List.forall₂_nil_left_iff.mp hf2
  have s0 : (padNd n v z).shape 0 = x.length + 2 * n := by rw [hP.1, hz]; rfl
  have s1 : (padNd n v z).shape 1 = y.length + 2 * n := by rw [hP.1, hz]; rfl
  have hlens : (rx.length = x.length + 2 * n ∧ ry.length = y.length + 2 * n) ∨
      (rx.length = x.length + 2 * n + 1 ∧ ry.length = y.length + 2 * n + 1) := by
    unfold matchEdges at hm
    split at hm
    · rename_i he
      left
      simp [List.ofFn_succ] at he
      rw [s0, s1] at he
      exact he
    · split at hm
      · rename_i he
        right
        simp [List.ofFn_succ] at he
        rw [s0, s1] at he
        exact he
      · cases hm
  have two : ∀ (e r : List ℝ), padEdges n e = .ok r → (r.length = e.length + 2 * n ∨ r.length = e.length + 2 * n + 1) →
      PaddedEdges n e r ∧ r.length = e.length + 2 * n := by
    intro e r he hl
    rcases e with _ | ⟨a, _ | ⟨b, l⟩⟩
    · cases he
    · simp only [padEdges] at he
      split at he
      · cases he
        simp at hl
        omega
      · cases he
    · obtain ⟨r', e1, e2, _⟩ := padEdges_spec n (a :: b :: l) (by simp)
      rw [e1] at he
      cases he
      exact ⟨e2, e2.1⟩
  obtain ⟨px, lx⟩ := two x rx hx (by omega)
  obtain ⟨py, ly⟩ := two y ry hy (by omega)
  have hs : (padNd n v z).shape = ![rx.length, ry.length] := by
    funext i
    fin_cases i
    · simpa [lx] using s0
    · simpa [ly] using s1
  rw [matchEdges_same hs] at hm
  cases hm
  exact ⟨rx, ry, v, rfl, px, py, hP⟩

/-- Contours of a grid with a value for each point: the grid is only padded. -/
lemma drawContour2d_ok {srt : List ℝ → List ℕ} {x y : List ℝ} {z : NDArr 2 ℝ} {qs : Option (List ℝ)} {pad : PadArg} {C : ContourCmd}
    (hz : z.shape = ![x.length, y.length]) (h : drawContour2d srt [x, y] z qs pad = .ok C) :
    C.z.shape = ![C.x.length, C.y.length] ∧ ∀ m n, padNumber pad ≤ m → m + padNumber pad < C.x.length →
      padNumber pad ≤ n → n + padNumber pad < C.y.length →
      m - padNumber pad < x.length ∧ n - padNumber pad < y.length ∧
      C.x.getD m 0 = x.getD (m - padNumber pad) 0 ∧ C.y.getD n 0 = y.getD (n - padNumber pad) 0 ∧
      C.z.get ![m, n] = z.get ![m - padNumber pad, n - padNumber pad] := by
  unfold drawContour2d prepHist at h
  split at h
  · cases h
  rename_i ee hist hprep
  split at h
  · cases h
  rename_i sg levels qs' hl
  cases h
  split at hprep
  · cases hprep
  rename_i ee' hist' hpad
  split at hprep
  · cases hprep
  rename_i ee'' hmatch
  cases hprep
  have zero : padNumber pad = 0 → padStep [x, y] z pad = .ok ([x, y], z) := by
    intro h0
    cases pad with
    | off => rfl
    | auto => cases h0
    | num n => cases n with
      | zero => rfl
      | succ n => cases h0
  rcases Nat.eq_zero_or_pos (padNumber pad) with h0 | h0
  · rw [zero h0] at hpad
    cases hpad
    rw [matchEdges_same hz] at hmatch
    cases hmatch
    rw [h0]
    refine ⟨hz, fun m n _ hm _ hn => ⟨hm, hn, rfl, rfl, rfl⟩⟩
  · have hstep : padHist [x, y] z (padNumber pad) = .ok (ee', hist) := by
      cases pad with
      | off => cases h0
      | auto => exact hpad
      | num n => cases n with
        | zero => cases h0
        | succ n => exact hpad
    obtain ⟨rx, ry, v, rfl, px, py, pz⟩ := padHist_match h0 hz hstep hmatch
    set N := padNumber pad
    have s0 : hist.shape 0 = x.length + 2 * N := by rw [pz.1, hz]; rfl
    have s1 : hist.shape 1 = y.length + 2 * N := by rw [pz.1, hz]; rfl
    constructor
    · funext i
      fin_cases i
      · simpa [px.1] using s0
      · simpa [py.1] using s1
    · intro m n h1 h2 h3 h4
      have lx : ([rx, ry].getD 0 []).length = x.length + 2 * N := px.1
      have ly : ([rx, ry].getD 1 []).length = y.length + 2 * N := py.1
      rw [lx] at h2
      rw [ly] at h4
      refine ⟨by omega, by omega, ?_, ?_, ?_⟩
      · have := px.2.1 (m - N) (by omega)
        rwa [Nat.add_sub_cancel' h1] at this
      · have := py.2.1 (n - N) (by omega)
        rwa [Nat.add_sub_cancel' h3] at this
      · have := pz.2.1 ![m - N, n - N] (by
          intro i
          rw [hz]
          fin_cases i
          · show m - N < x.length
            omega
          · show n - N < y.length
            omega)
        rw [← this]
        congr 1
        funext i
        fin_cases i
        · show m = N + (m - N)
          omega
        · show n = N + (n - N)
          omega

lemma density_names {E : Ext} {srt : List ℝ → List ℕ} (k : KDE d) (hd : d ≠ 1) {p q : ℤ} {i j : Fin d} (hp : Names p i) (hq : Names q j)
    (points : Option Pts) (reflect : Reflect) (grid prob : Bool) :
    k.density E srt points reflect (.list [p, q]) grid prob = k.density E srt points reflect (.list [(i : ℤ), (j : ℤ)]) grid prob := by
  have h1 : List.Forall₂ Names [p, q] [i, j] := .cons hp (.cons hq .nil)
  have h2 : List.Forall₂ Names [(i : ℤ), (j : ℤ)] [i, j] := .cons (Or.inl rfl) (.cons (Or.inl rfl) .nil)
  unfold KDE.density
  rw [paramSel_names hd (by simp) h1, paramSel_names hd (by simp) h2]

lemma kdeContour_ok {E : Ext} {srt : List ℝ → List ℕ} {k : KDE d} (hd : d ≠ 1) {p q : ℤ} {i j : Fin d} (hp : Names p i) (hq : Names q j)
    {qs : List ℝ} {pad : PadArg} {C : ContourCmd} (h : kdeContour E srt k [p, q] qs pad = .ok C) :
    C.z.shape = ![C.x.length, C.y.length] ∧
    ∀ m n, padNumber pad ≤ m → m + padNumber pad < C.x.length → padNumber pad ≤ n → n + padNumber pad < C.y.length →
      (k.density E srt (some (.rows [[C.x.getD m 0], [C.y.getD n 0]])) .none (.list [(i : ℤ), (j : ℤ)]) false false).1 =
        .ok (.rows [[C.x.getD m 0], [C.y.getD n 0]], ⟨[1], [C.z.get ![m, n]]⟩) := by
  unfold kdeContour at h
  rw [density_names k hd hp hq] at h
  split at h
  · cases h
  · rename_i x y arr hden
    have h2 : List.Forall₂ Names [(i : ℤ), (j : ℤ)] [i, j] := .cons (Or.inl rfl) (.cons (Or.inl rfl) .nil)
    obtain ⟨pt, hpt⟩ : ∃ pt, (k.points srt).1 = .ok pt := by
      have hden' := hden
      unfold KDE.density at hden'
      rw [paramSel_names hd (by simp) h2] at hden'
      simp only at hden'
      split at hden'
      · cases hden'
      · cases hk : k.points srt with
        | mk r k1 =>
          cases r with
          | error e =>
            simp only [KDE.choosePoints, hk] at hden'
            cases hden'
          | ok pt => exact ⟨pt, rfl⟩
    rw [C83_default_points_params E srt k hd pt hpt _ (by simp) [i, j] h2] at hden
    have hg : decide (1 < [(i : ℤ), (j : ℤ)].length) = true := by simp
    rw [hg] at hden
    have g1 := (C15_grid E srt k _ .none (.list [(i : ℤ), (j : ℤ)]) (by simp) false _ arr hden).1
    rw [Pts.rows.injEq] at g1
    rw [← g1] at hden
    obtain ⟨-, g2, g3, g4⟩ := C15_grid E srt k [x, y] .none (.list [(i : ℤ), (j : ℤ)]) (by simp) false _ arr hden
    simp only [List.map_cons, List.map_nil] at g2
    have hsh : arr.mat.shape = ![x.length, y.length] := by
      simp [Arr.mat, g2]
    obtain ⟨c1, c2⟩ := drawContour2d_ok hsh h
    refine ⟨c1, fun m n a1 a2 a3 a4 => ?_⟩
    obtain ⟨b1, b2, b3, b4, b5⟩ := c2 m n a1 a2 a3 a4
    rw [b3, b4, b5]
    obtain ⟨v, v1, v2⟩ := g4 ![m - padNumber pad, n - padNumber pad] (by
      intro i
      fin_cases i
      · exact b1
      · exact b2)
    have hv : arr.mat.get ![m - padNumber pad, n - padNumber pad] = v := by
      have e : (fun i : Fin [x, y].length => ([x, y].get i).length) = ![x.length, y.length] := by
        funext i
        fin_cases i <;> rfl
      rw [e] at v1
      simp only [Arr.mat, g2, List.getD_cons_zero, List.getD_cons_succ]
      rw [List.getD_eq_getElem?_getD, v1]
      rfl
    rw [hv]
    exact v2
  · cases h

/-! ### C95 -/

/-- **C95** as claimed: whatever two parameters are chosen, all components of `dist2d` show the first one along the horizontal and the
second one along the vertical axis. -/
def C95_Claim : Prop :=
  ∀ (d : ℕ) (E : Ext) (srt : List ℝ → List ℕ) (sel : ℕ → ℕ → List ℕ) (args : KDEArgs d) (k : KDE d) (a : Dist2dArgs) (p q : ℤ) (i j : Fin d)
    (out : Dist2dOut), (∀ l, IsArgsort (srt l) l) → IsChoice sel → KDE.init E args = .ok k → 2 ≤ d →
    a.params = [p, q] → Names p i → Names q j → i ≠ j → dist2d E srt sel k a = .ok out →
    Shows2d E srt k i j (padNumber a.pad) out

/-- **C95**, proved part: it holds for more than two parameters, and for two parameters in their own order. -/
theorem C95_partial (E : Ext) (srt : List ℝ → List ℕ) (sel : ℕ → ℕ → List ℕ) (hs : IsChoice sel) (k : KDE d)
    (a : Dist2dArgs) (p q : ℤ) (i j : Fin d) (hpar : a.params = [p, q]) (hp : Names p i) (hq : Names q j)
    (hd : 2 < d ∨ (d = 2 ∧ (i : ℕ) = 0 ∧ (j : ℕ) = 1)) (out : Dist2dOut) (h : dist2d E srt sel k a = .ok out) :
    Shows2d E srt k i j (padNumber a.pad) out := by
  have hrows : plotRows k.dataset a.params = .ok (k.dataset.map fun x => ![x i, x j]) := by
    unfold plotRows
    rcases hd with hd | ⟨rfl, hi, hj⟩
    · rw [dif_neg (by omega), if_neg (by omega), hpar, if_neg (by simp),
        listSeq_names (.cons hp (.cons hq .nil) : List.Forall₂ Names [p, q] [i, j])]
    · rw [dif_pos rfl]
      congr 1
      apply List.map_congr_left
      intro x _
      have ei : i = 0 := Fin.ext hi
      have ej : j = 1 := Fin.ext hj
      funext l
      fin_cases l
      · simp [ei]
      · simp [ej]
  unfold dist2d at h
  rw [hrows] at h
  obtain ⟨rows, hh, sg, levels, qs, mask, h1, h2, h3, h4, h5, h6, h7, h8⟩ := dist2dDraw_ok h
  have hd1 : d ≠ 1 := by omega
  refine ⟨?_, ?_, ?_, ?_⟩
  · intro pts hpts
    rw [hpts] at h1
    exact scatterPoints_subperm hs h1
  · intro v hl hlines
    rw [hlines] at h6
    rcases optional_ok h6 with ⟨_, h⟩ | ⟨_, _, hm, h⟩
    · cases h
    · cases h
      have := medianLines_ok hm
      have e0 : dataRow (k.dataset.map fun x => ![x i, x j]) 0 = dataRow k.dataset i := by
        simp [dataRow, Function.comp_def]
      have e1 : dataRow (k.dataset.map fun x => ![x i, x j]) 1 = dataRow k.dataset j := by
        simp [dataRow, Function.comp_def]
      rwa [e0, e1] at this
  · intro P hP
    obtain ⟨hx, hy, hxl, hyl, _, hsh, hg⟩ := histogram2d_ok h3
    rw [hP] at h8
    split at h8
    · cases h8
      refine ⟨hx, hy, fun m n hm hn v hv => ?_⟩
      have hm' : m + 1 < (rows.getD 0 []).length := hm
      have hn' : n + 1 < (rows.getD 1 []).length := hn
      have := hg m n (by omega) (by omega)
      simp only [Spec.shown, drawHist2d] at hv
      have hv' : hh.get ![m, n] = v := by
        have e : ![(![n, m] : Fin 2 → ℕ) 1, (![n, m] : Fin 2 → ℕ) 0] = ![m, n] := rfl
        rw [e] at hv
        cases mask with
        | none => simpa using hv
        | some t =>
          simp only at hv
          split at hv
          · cases hv
          · simpa using hv
      rw [← hv', this]
      rfl
    · cases h8
  · intro C hC
    rw [hC] at h7
    rcases optional_ok h7 with ⟨_, h⟩ | ⟨_, _, hm, h⟩
    · cases h
    · cases h
      rw [hpar] at hm
      exact kdeContour_ok hd1 hp hq hm

end Kalepy
