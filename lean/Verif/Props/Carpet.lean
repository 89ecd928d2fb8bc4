import Mathlib.Analysis.SpecialFunctions.Log.Base
import Verif.Model.Carpet
import Verif.Props.Scatter
import Verif.Props.Quantiles

/-!
# C90, C91, C92: carpet plots
-/

namespace Kalepy

open Spec

/-! ### specification -/

/-- The coordinate of a drawn point that shows the datum (the ordinate if the plot is rotated). -/
def Spec.dataCoord (rotate : Bool) (m : Marker) : ℝ := if rotate then m.y else m.x

/-- The other coordinate, which is random. -/
def Spec.fuzzCoord (rotate : Bool) (m : Marker) : ℝ := if rotate then m.x else m.y

/-- How many of `n` data are drawn. -/
def Spec.numDrawn (n : ℕ) : ScatterLimit → ℕ
  | .num k => min k n
  | _ => n

/-- The points `ms` show the data with the (distinct) numbers `I`. -/
def Spec.ShowsData (rotate : Bool) (xs : List ℝ) (limit : ScatterLimit) (ms : List Marker) (I : List ℕ) : Prop :=
  I.Nodup ∧ (∀ i ∈ I, i < xs.length) ∧ I.length = numDrawn xs.length limit ∧
    ms.map (dataCoord rotate) = I.map fun i => xs.getD i 0

/-! ### proofs -/

lemma filterMap_getElem? {α : Type*} (l : List α) (dflt : α) (I : List ℕ) (h : ∀ i ∈ I, i < l.length) :
    (I.filterMap fun i => l[i]?) = I.map fun i => l.getD i dflt := by
  induction I with
  | nil => rfl
  | cons a I ih =>
    have ha : a < l.length := h a (by simp)
    rw [List.filterMap_cons_some (List.getElem?_eq_getElem ha), List.map_cons, ih fun i hi => h i (by simp [hi]),
      List.getD_eq_getElem _ _ ha]

lemma carpetSelect_ok {xs : List ℝ} {weights : Option (List ℝ)} {limit : ScatterLimit} {sel : ℕ → ℕ → List ℕ}
    (hs : IsChoice sel) (hw : ∀ w, weights = some w → w.length = xs.length) :
    ∃ I : List ℕ, I.Nodup ∧ (∀ i ∈ I, i < xs.length) ∧ I.length = numDrawn xs.length limit ∧
      carpetSelect xs weights limit sel =
        .ok (I.map fun i => xs.getD i 0, weights.map fun w => I.map fun i => w.getD i 0) := by
  have hall : ∃ I : List ℕ, I.Nodup ∧ (∀ i ∈ I, i < xs.length) ∧ I.length = xs.length ∧
      xs = (I.map fun i => xs.getD i 0) ∧ weights = weights.map fun w => I.map fun i => w.getD i 0 := by
    refine ⟨List.range xs.length, List.nodup_range, fun i hi => List.mem_range.mp hi, by simp,
      (list_map_getD_range xs).symm, ?_⟩
    cases weights with
    | none => rfl
    | some w =>
      simp only [Option.map_some, Option.some.injEq]
      rw [← hw w rfl, list_map_getD_range]
  cases limit with
  | inf =>
    obtain ⟨I, h1, h2, h3, h4, h5⟩ := hall
    exact ⟨I, h1, h2, h3, by rw [← h4, ← h5]; rfl⟩
  | none =>
    obtain ⟨I, h1, h2, h3, h4, h5⟩ := hall
    exact ⟨I, h1, h2, h3, by rw [← h4, ← h5]; rfl⟩
  | num n =>
    by_cases hn : n < xs.length
    · obtain ⟨c1, c2, c3⟩ := hs xs.length n hn.le
      refine ⟨sel xs.length n, c2, c3, by rw [c1]; simp [numDrawn, hn.le], ?_⟩
      cases weights with
      | none =>
        simp only [carpetSelect, hn, if_true, Option.map_none]
        rw [filterMap_getElem? xs 0 _ c3]
      | some w =>
        have c3' : ∀ i ∈ sel xs.length n, i < w.length := by rw [hw w rfl]; exact c3
        simp only [carpetSelect, hn, if_true, Option.map_some]
        rw [if_pos c3', filterMap_getElem? xs 0 _ c3, filterMap_getElem? w 0 _ c3']
    · obtain ⟨I, h1, h2, h3, h4, h5⟩ := hall
      refine ⟨I, h1, h2, by rw [h3]; simp [numDrawn]; omega, ?_⟩
      rw [← h4, ← h5]
      simp [carpetSelect, hn]

lemma carpetOrdinates_length {kind : FuzzKind} {ystd yave : ℝ} {fuzz : ℕ → ℝ} {n : ℕ} {ys : List ℝ}
    (h : carpetOrdinates kind ystd yave fuzz n = .ok ys) : ys.length = n := by
  cases kind with
  | normal =>
    simp only [carpetOrdinates] at h
    split at h
    · cases h
    · cases h; simp
  | uniform => cases h; simp
  | other => cases h

/-- What a successful call has computed. -/
lemma carpet_ok {srt : List ℝ → List ℕ} {sel : ℕ → ℕ → List ℕ} {fuzz : ℕ → ℝ} {xs : List ℝ} {weights : Option (List ℝ)}
    {top : ℝ} {a : CarpetArgs} {ms : List Marker} {lo hi : ℝ} (hs : IsChoice sel)
    (hw : ∀ w, weights = some w → w.length = xs.length)
    (h : carpet srt sel fuzz xs weights top a = .ok (ms, lo, hi)) :
    ∃ (I : List ℕ) (ww : Option (List ℝ)) (ys : List ℝ), I.Nodup ∧ (∀ i ∈ I, i < xs.length) ∧
      I.length = numDrawn xs.length a.limit ∧
      carpetWeights srt (weights.map fun w => I.map fun i => w.getD i 0) = .ok ww ∧
      carpetOrdinates a.random (carpetScale a top).1 (carpetScale a top).2 fuzz I.length = .ok ys ∧
      ys.length = I.length ∧ (∀ v, ww = some v → v.length = I.length) ∧
      IsExtrema ys lo hi ∧ ms.length = I.length ∧
      ∀ k (hk : k < ms.length), dataCoord a.rotate ms[k] = xs.getD (I.getD k 0) 0 ∧
        fuzzCoord a.rotate ms[k] = ys.getD k 0 + a.shift ∧
        ms[k].size = carpetSize I.length ((ww.getD (I.map fun _ => 1)).getD k 0) := by
  obtain ⟨I, h1, h2, h3, h4⟩ := carpetSelect_ok (limit := a.limit) hs hw
  simp only [carpet, h4, List.length_map] at h
  split at h
  · cases h
  rename_i ww hww
  split at h
  · cases h
  · cases h
  rename_i y ys hys
  split at h
  · cases h
  rename_i hlen
  push Not at hlen
  have hyl := carpetOrdinates_length hys
  have hwl : ∀ v, ww = some v → v.length = I.length := by
    rintro v rfl
    simpa using hlen
  simp only [Except.ok.injEq, Prod.mk.injEq] at h
  obtain ⟨e1, e2, e3⟩ := h
  have e4 : IsExtrema (y :: ys) lo hi := by
    rw [← e2, ← e3]
    have m1 := npMin_spec y ys
    have m2 := npMax_spec y ys
    exact ⟨m1.1, m2.1, fun z hz => ⟨m1.2 z hz, m2.2 z hz⟩⟩
  have hml : ms.length = I.length := by
    rw [← e1]
    simp only [List.length_map, List.length_zip, hlen, hyl]
    simp
  refine ⟨I, ww, y :: ys, h1, h2, h3, hww, hys, hyl, hwl, e4, hml, ?_⟩
  have hmap : (((I.map fun i => xs.getD i 0).map fun _ => (1 : ℝ))) = I.map fun _ => 1 := by
    rw [List.map_map]; rfl
  rw [hmap] at e1 hlen
  generalize hS : ww.getD (I.map fun _ => 1) = S at *
  have hSl : S.length = I.length := by simpa using hlen
  intro k hk
  have hkI : k < I.length := by omega
  have : ms[k] = (fun p : ℝ × ℝ × ℝ => (if a.rotate then ⟨p.2.1 + a.shift, p.1, p.2.2⟩ else ⟨p.1, p.2.1 + a.shift, p.2.2⟩ : Marker))
      (xs.getD (I.getD k 0) 0, (y :: ys).getD k 0, carpetSize I.length (S.getD k 0)) := by
    simp only [← e1, List.getElem_map, List.getElem_zip]
    rw [List.getD_eq_getElem I 0 hkI, List.getD_eq_getElem (y :: ys) 0 (by omega), List.getD_eq_getElem S 0 (by omega)]
  rw [this]
  by_cases hr : a.rotate <;> simp [hr, dataCoord, fuzzCoord]

lemma map_eq_of_get {α β γ : Type*} {l : List α} {l' : List β} {f : α → γ} {g : β → γ} (hl : l.length = l'.length)
    (h : ∀ k (hk : k < l.length) (hk' : k < l'.length), f l[k] = g l'[k]) : l.map f = l'.map g := by
  apply List.ext_getElem
  · simpa using hl
  · intro k h1 h2
    simpa using h k (by simpa using h1) (by simpa using h2)

/-- **C90.** Every point drawn by `carpet` shows one datum, at its own position on the data axis, no datum twice; all data are drawn,
or `limit` of them if this is less; the returned range is that of the random ordinates before the shift; sizes are between 5 and 100,
and equal without weights. -/
theorem C90_points (srt : List ℝ → List ℕ) (sel : ℕ → ℕ → List ℕ) (hs : IsChoice sel) (fuzz : ℕ → ℝ) (xs : List ℝ)
    (weights : Option (List ℝ)) (hw : ∀ w, weights = some w → w.length = xs.length) (top : ℝ) (a : CarpetArgs)
    (ms : List Marker) (lo hi : ℝ) (h : carpet srt sel fuzz xs weights top a = .ok (ms, lo, hi)) :
    (∃ I, ShowsData a.rotate xs a.limit ms I) ∧ (ms.map (dataCoord a.rotate)).Subperm xs ∧
    ms.length = numDrawn xs.length a.limit ∧
    IsExtrema (ms.map fun m => fuzzCoord a.rotate m - a.shift) lo hi ∧
    (∀ m ∈ ms, 5 ≤ m.size ∧ m.size ≤ 100) ∧
    (weights = none → ∀ m ∈ ms, ∀ m' ∈ ms, m.size = m'.size) := by
  obtain ⟨I, ww, ys, h1, h2, h3, h4, h5, h6, h7, h8, h9, h10⟩ := carpet_ok hs hw h
  have hd : ms.map (dataCoord a.rotate) = I.map fun i => xs.getD i 0 := by
    refine map_eq_of_get h9 fun k hk hk' => ?_
    rw [(h10 k hk).1, List.getD_eq_getElem I 0 hk']
  refine ⟨⟨I, h1, h2, h3, hd⟩, ?_, h9.trans h3, ?_, ?_, ?_⟩
  · rw [hd, ← filterMap_getElem? xs 0 I h2]
    exact (choice_subperm xs I h1 h2).1
  · have : (ms.map fun m => fuzzCoord a.rotate m - a.shift) = ys.map id := by
      refine map_eq_of_get (h9.trans h6.symm) fun k hk hk' => ?_
      rw [(h10 k hk).2.1, List.getD_eq_getElem ys 0 hk']
      simp
    rw [this, List.map_id]
    exact h8
  · intro m hm
    obtain ⟨k, hk, rfl⟩ := List.getElem_of_mem hm
    rw [(h10 k hk).2.2, carpetSize]
    exact ⟨le_min (le_max_right _ _) (by norm_num), min_le_right _ _⟩
  · rintro rfl m hm m' hm'
    obtain ⟨k, hk, rfl⟩ := List.getElem_of_mem hm
    obtain ⟨k', hk', rfl⟩ := List.getElem_of_mem hm'
    have e : ww = none := by
      simp only [Option.map_none, carpetWeights, Except.ok.injEq] at h4
      exact h4.symm
    subst e
    rw [(h10 k hk).2.2, (h10 k' hk').2.2]
    simp only [Option.getD_none]
    rw [List.getD_eq_getElem _ _ (by simpa using by omega), List.getD_eq_getElem _ _ (by simpa using by omega)]
    simp

/-- The dispersion of the ordinates: as given, else a fifth of the baseline, else a fiftieth of the upper limit of the axis. -/
noncomputable def Spec.dispersion (a : CarpetArgs) (top : ℝ) : ℝ :=
  match a.ystd, a.yave with
  | some s, _ => s
  | none, some y => |y| / 5
  | none, none => top / 50

/-- The baseline of the ordinates: as given, else five dispersions below zero. -/
noncomputable def Spec.baseline (a : CarpetArgs) (top : ℝ) : ℝ :=
  match a.yave with
  | some y => y
  | none => -(5 * dispersion a top)

/-- **C90**, the other coordinate: normal numbers with the baseline (plus the shift) as mean and the dispersion as standard deviation, or uniform ones between
baseline minus and plus dispersion; each datum has its own random number.  So uniform points are below zero by default. -/
theorem C90_position (srt : List ℝ → List ℕ) (sel : ℕ → ℕ → List ℕ) (hs : IsChoice sel) (fuzz : ℕ → ℝ) (xs : List ℝ)
    (weights : Option (List ℝ)) (hw : ∀ w, weights = some w → w.length = xs.length) (top : ℝ) (a : CarpetArgs)
    (ms : List Marker) (lo hi : ℝ) (h : carpet srt sel fuzz xs weights top a = .ok (ms, lo, hi)) :
    (a.random = .normal → 0 ≤ dispersion a top ∧ ∀ k (hk : k < ms.length),
      fuzzCoord a.rotate ms[k] - a.shift = baseline a top + dispersion a top * fuzz k) ∧
    (a.random = .uniform → ∀ k (hk : k < ms.length),
      fuzzCoord a.rotate ms[k] - a.shift = (1 - fuzz k) * (baseline a top - dispersion a top) + fuzz k * (baseline a top + dispersion a top)) ∧
    a.random ≠ .other ∧
    (a.random = .uniform → a.yave = none → 0 < dispersion a top → (∀ k, 0 ≤ fuzz k ∧ fuzz k ≤ 1) → ∀ m ∈ ms, fuzzCoord a.rotate m - a.shift < 0) := by
  obtain ⟨I, ww, ys, h1, h2, h3, h4, h5, h6, h7, h8, h9, h10⟩ := carpet_ok hs hw h
  have e1 : (carpetScale a top).1 = dispersion a top := by
    unfold carpetScale dispersion
    cases a.ystd <;> cases a.yave <;> simp
    ring
  have e2 : (carpetScale a top).2 = baseline a top := by
    have : (carpetScale a top).2 = a.yave.getD (-5 * (carpetScale a top).1) := rfl
    rw [this, e1]
    unfold baseline
    cases a.yave <;> simp
  rw [e1, e2] at h5
  have hu : a.random = .uniform → ∀ k (hk : k < ms.length),
      fuzzCoord a.rotate ms[k] - a.shift = (1 - fuzz k) * (baseline a top - dispersion a top) + fuzz k * (baseline a top + dispersion a top) := by
    intro hr k hk
    rw [hr] at h5
    simp only [carpetOrdinates] at h5
    have := (Except.ok.inj h5).symm
    rw [(h10 k hk).2.1, this, List.getD_eq_getElem _ _ (by simp; omega)]
    simp
    ring
  refine ⟨fun hr => ?_, hu, fun hr => ?_, fun hr hy hd hf m hm => ?_⟩
  · rw [hr] at h5
    simp only [carpetOrdinates] at h5
    split at h5
    · cases h5
    rename_i hneg
    have := (Except.ok.inj h5).symm
    refine ⟨not_lt.mp hneg, fun k hk => ?_⟩
    rw [(h10 k hk).2.1, this, List.getD_eq_getElem _ _ (by simp; omega)]
    simp
  · rw [hr] at h5
    simp only [carpetOrdinates] at h5
    cases h5
  · obtain ⟨k, hk, rfl⟩ := List.getElem_of_mem hm
    rw [hu hr k hk]
    have hb : baseline a top = -(5 * dispersion a top) := by rw [baseline, hy]
    rw [hb]
    obtain ⟨a1, a2⟩ := hf k
    nlinarith

/-! ### sizes -/

lemma carpetSize_mono (n : ℕ) {v w : ℝ} (h : v ≤ w) : carpetSize n v ≤ carpetSize n w := by
  unfold carpetSize
  gcongr

/-- **C91** as claimed: a point with larger weight is not drawn smaller. -/
def C91_Claim : Prop :=
  ∀ (srt : List ℝ → List ℕ) (sel : ℕ → ℕ → List ℕ) (fuzz : ℕ → ℝ) (xs w : List ℝ) (top : ℝ) (a : CarpetArgs)
    (ms : List Marker) (lo hi : ℝ), (∀ l, IsArgsort (srt l) l) → IsChoice sel → w.length = xs.length → (∀ x ∈ w, 0 < x) →
    carpet srt sel fuzz xs (some w) top a = .ok (ms, lo, hi) →
    ∃ I, ShowsData a.rotate xs a.limit ms I ∧ ∀ k l (hk : k < ms.length) (hl : l < ms.length),
      w.getD (I.getD k 0) 0 ≤ w.getD (I.getD l 0) 0 → ms[k].size ≤ ms[l].size

lemma npMedian_mem_range {l : List ℝ} {m : ℝ} (h : npMedian l = .ok m) : ∃ a ∈ l, ∃ b ∈ l, m = (a + b) / 2 := by
  unfold npMedian at h
  split at h
  · cases h
  rename_i hne
  cases h
  have hpos : 0 < (npSort l).length := by rw [npSort_length]; exact List.length_pos_iff.mpr hne
  have hl := npSort_length l
  have hlp : 0 < l.length := List.length_pos_iff.mpr hne
  have i1 : (l.length - 1) / 2 < (npSort l).length := by omega
  have i2 : l.length / 2 < (npSort l).length := by omega
  refine ⟨(npSort l)[(l.length - 1) / 2], (npSort_mem l _).mp (List.getElem_mem _), (npSort l)[l.length / 2],
    (npSort_mem l _).mp (List.getElem_mem _), ?_⟩
  rw [List.getD_eq_getElem _ _ i1, List.getD_eq_getElem _ _ i2]

lemma npMedian_pos {l : List ℝ} {m : ℝ} (h : npMedian l = .ok m) (hp : ∀ x ∈ l, 0 < x) : 0 < m := by
  obtain ⟨a, ha, b, hb, rfl⟩ := npMedian_mem_range h
  have := hp a ha
  have := hp b hb
  linarith

/-- **C91**, proved part: if all weights are greater than one, or no weight is more than ten times another one. -/
theorem C91_partial (srt : List ℝ → List ℕ) (sel : ℕ → ℕ → List ℕ) (fuzz : ℕ → ℝ) (xs w : List ℝ) (top : ℝ) (a : CarpetArgs)
    (ms : List Marker) (lo hi : ℝ) (hsrt : ∀ l, IsArgsort (srt l) l) (hs : IsChoice sel) (hw : w.length = xs.length)
    (hcond : (∀ x ∈ w, 1 < x) ∨ ∀ x ∈ w, ∀ y ∈ w, x ≤ 10 * y)
    (h : carpet srt sel fuzz xs (some w) top a = .ok (ms, lo, hi)) :
    ∃ I, ShowsData a.rotate xs a.limit ms I ∧ ∀ k l (hk : k < ms.length) (hl : l < ms.length),
      w.getD (I.getD k 0) 0 ≤ w.getD (I.getD l 0) 0 → ms[k].size ≤ ms[l].size := by
  obtain ⟨I, ww, ys, h1, h2, h3, h4, h5, h6, h7, h8, h9, h10⟩ := carpet_ok hs (by rintro _ ⟨⟩; exact hw) h
  have hd : ms.map (dataCoord a.rotate) = I.map fun i => xs.getD i 0 := by
    refine map_eq_of_get h9 fun k hk hk' => ?_
    rw [(h10 k hk).1, List.getD_eq_getElem I 0 hk']
  refine ⟨I, ⟨h1, h2, h3, hd⟩, ?_⟩
  simp only [Option.map_some, carpetWeights] at h4
  set v := I.map fun i => w.getD i 0 with hv
  have hmem : ∀ x ∈ v, x ∈ w := by
    intro x hx
    obtain ⟨i, hi, rfl⟩ := List.mem_map.mp hx
    have := h2 i hi
    rw [List.getD_eq_getElem _ _ (by omega)]
    exact List.getElem_mem _
  split at h4
  swap
  · cases h4
  rename_i hpos
  split at h4
  · cases h4
  rename_i iqr hiqr
  split at h4
  · cases h4
  rename_i m hm
  split at h4
  · cases h4
  rename_i hm0
  cases h4
  have hvl : ∀ k, k < ms.length → k < v.length := by
    intro k hk
    simp only [hv, List.length_map]
    omega
  have hvk : ∀ k (hk : k < ms.length), w.getD (I.getD k 0) 0 = v[k]'(hvl k hk) := by
    intro k hk
    simp only [hv, List.getElem_map]
    rw [List.getD_eq_getElem I 0 (by omega)]
  have key : ∀ (g : ℝ → ℝ), (if 1 < iqr then v.map (Real.logb 10) else v) = v.map g → (∀ x y, 0 < x → x ≤ y → g x ≤ g y) →
      (∀ x ∈ v, 0 < g x) → ∀ k l (hk : k < ms.length) (hl : l < ms.length),
      w.getD (I.getD k 0) 0 ≤ w.getD (I.getD l 0) 0 → ms[k].size ≤ ms[l].size := by
    intro g hg hmono hgpos k l hk hl hkl
    rw [hg] at hm h10
    have hmp : 0 < m := npMedian_pos hm (by
      intro x hx
      obtain ⟨y, hy, rfl⟩ := List.mem_map.mp hx
      exact hgpos y hy)
    rw [(h10 k hk).2.2, (h10 l hl).2.2]
    apply carpetSize_mono
    simp only [Option.getD_some, List.map_map]
    rw [List.getD_eq_getElem _ _ (by simpa using hvl k hk), List.getD_eq_getElem _ _ (by simpa using hvl l hl)]
    simp only [List.getElem_map, Function.comp_apply]
    rw [hvk k hk, hvk l hl] at hkl
    exact div_le_div_of_nonneg_right (hmono _ _ (hpos _ (List.getElem_mem _)) hkl) hmp.le
  by_cases hi : 1 < iqr
  · rcases hcond with hc | hc
    · refine key (Real.logb 10) (if_pos hi) ?_ ?_
      · intro x y hx hxy
        exact Real.logb_le_logb_of_le (by norm_num) hx hxy
      · intro x hx
        exact Real.logb_pos (by norm_num) (hc x (hmem x hx))
    · exfalso
      have hne : v.map (Real.logb 10) ≠ [] := by
        intro h0
        have h0' : v = [] := by simpa using h0
        rw [h0'] at hm
        simp [npMedian] at hm
      obtain ⟨elo, ehi, he⟩ : ∃ elo ehi, IsExtrema (v.map (Real.logb 10)) elo ehi := by
        cases hc' : v.map (Real.logb 10) with
        | nil => exact absurd hc' hne
        | cons b l =>
          have m1 := npMin_spec b l
          have m2 := npMax_spec b l
          exact ⟨_, _, m1.1, m2.1, fun z hz => ⟨m1.2 z hz, m2.2 z hz⟩⟩
      have hq : QuantileArgs (v.map (Real.logb 10)) ((v.map (Real.logb 10)).map fun _ => 1) := by
        refine ⟨hne, by simp, by simp, ?_⟩
        have e : ((v.map (Real.logb 10)).map fun _ => (1 : ℝ)).sum = v.length := by
          rw [List.map_map]; simp [Function.comp_def]
        rw [e]
        exact_mod_cast List.length_pos_iff.mpr (by simpa using hne)
      obtain ⟨r, r1, r2, r3, r4, r5⟩ := C35_quantiles (percs := [3 / 4, 1 / 4]) (hsrt _) hq (by
        intro p hp
        simp only [List.mem_cons, List.not_mem_nil, or_false] at hp
        rcases hp with rfl | rfl <;> norm_num) elo ehi he
      have e : iqrange srt (v.map (Real.logb 10)) = .ok (r.getD 0 0 - r.getD 1 0) := by
        have : quantiles srt (v.map (Real.logb 10)) [3 / 4, 1 / 4] none = .ok r := r1
        simp only [iqrange, this]
      rw [e] at hiqr
      cases hiqr
      obtain ⟨p, q, rfl⟩ := List.length_eq_two.mp r2
      have b1 := r3 p (by simp)
      have b2 := r3 q (by simp)
      obtain ⟨x, hx, ex⟩ := List.mem_map.mp he.2.1
      obtain ⟨y, hy, ey⟩ := List.mem_map.mp he.1
      have hle : ehi ≤ 1 + elo := by
        have hy0 := hpos y hy
        have hx0 := hpos x hx
        have := hc x (hmem x hx) y (hmem y hy)
        have h10' : Real.logb 10 x ≤ Real.logb 10 (10 * y) := Real.logb_le_logb_of_le (by norm_num) hx0 this
        rw [Real.logb_mul (by norm_num) hy0.ne', Real.logb_self_eq_one (by norm_num)] at h10'
        linarith
      simp only [List.getD_cons_zero, List.getD_cons_succ] at hi
      linarith [b1.1, b1.2, b2.1, b2.2]
  · exact key id (by rw [if_neg hi, List.map_id]) (fun x y _ h => h) hpos

/-! ### success -/

lemma carpetWeights_ok {srt : List ℝ → List ℕ} (hsrt : ∀ l, IsArgsort (srt l) l) {w : List ℝ} (hne : w ≠ [])
    (hpos : ∀ x ∈ w, 0 < x) (hcond : (∀ x ∈ w, 1 < x) ∨ ∀ x ∈ w, ∀ y ∈ w, x ≤ 10 * y) :
    ∃ v, carpetWeights srt (some w) = .ok (some v) ∧ v.length = w.length := by
  have hne' : w.map (Real.logb 10) ≠ [] := by simpa using hne
  obtain ⟨elo, ehi, he⟩ : ∃ elo ehi, IsExtrema (w.map (Real.logb 10)) elo ehi := by
    cases hc' : w.map (Real.logb 10) with
    | nil => exact absurd hc' hne'
    | cons b l =>
      have m1 := npMin_spec b l
      have m2 := npMax_spec b l
      exact ⟨_, _, m1.1, m2.1, fun z hz => ⟨m1.2 z hz, m2.2 z hz⟩⟩
  have hq : QuantileArgs (w.map (Real.logb 10)) ((w.map (Real.logb 10)).map fun _ => 1) := by
    refine ⟨hne', by simp, by simp, ?_⟩
    have e : ((w.map (Real.logb 10)).map fun _ => (1 : ℝ)).sum = w.length := by
      rw [List.map_map]; simp [Function.comp_def]
    rw [e]
    exact_mod_cast List.length_pos_iff.mpr hne
  obtain ⟨r, r1, r2, r3, r4, r5⟩ := C35_quantiles (percs := [3 / 4, 1 / 4]) (hsrt _) hq (by
    intro p hp
    simp only [List.mem_cons, List.not_mem_nil, or_false] at hp
    rcases hp with rfl | rfl <;> norm_num) elo ehi he
  have e : iqrange srt (w.map (Real.logb 10)) = .ok (r.getD 0 0 - r.getD 1 0) := by
    have : quantiles srt (w.map (Real.logb 10)) [3 / 4, 1 / 4] none = .ok r := r1
    simp only [iqrange, this]
  have med : ∀ l : List ℝ, l ≠ [] → (∀ x ∈ l, 0 < x) → ∃ m, npMedian l = .ok m ∧ 0 < m := by
    intro l hl hp
    have : ∃ m, npMedian l = .ok m := by
      unfold npMedian
      rw [if_neg hl]
      exact ⟨_, rfl⟩
    obtain ⟨m, hm⟩ := this
    exact ⟨m, hm, npMedian_pos hm hp⟩
  simp only [carpetWeights]
  rw [if_pos hpos]
  simp only [e]
  by_cases hi : 1 < r.getD 0 0 - r.getD 1 0
  · have hlog : ∀ x ∈ w.map (Real.logb 10), 0 < x := by
      rcases hcond with hc | hc
      · intro x hx
        obtain ⟨y, hy, rfl⟩ := List.mem_map.mp hx
        exact Real.logb_pos (by norm_num) (hc y hy)
      · exfalso
        obtain ⟨p, q, rfl⟩ := List.length_eq_two.mp r2
        have b1 := r3 p (by simp)
        have b2 := r3 q (by simp)
        obtain ⟨x, hx, ex⟩ := List.mem_map.mp he.2.1
        obtain ⟨y, hy, ey⟩ := List.mem_map.mp he.1
        have hle : ehi ≤ 1 + elo := by
          have h10' : Real.logb 10 x ≤ Real.logb 10 (10 * y) :=
            Real.logb_le_logb_of_le (by norm_num) (hpos x hx) (hc x hx y hy)
          rw [Real.logb_mul (by norm_num) (hpos y hy).ne', Real.logb_self_eq_one (by norm_num)] at h10'
          linarith
        simp only [List.getD_cons_zero, List.getD_cons_succ] at hi
        linarith [b1.1, b1.2, b2.1, b2.2]
    obtain ⟨m, hm, hm0⟩ := med _ hne' hlog
    rw [if_pos hi]
    simp only [hm]
    rw [if_neg hm0.ne']
    exact ⟨_, rfl, by simp⟩
  · obtain ⟨m, hm, hm0⟩ := med _ hne hpos
    rw [if_neg hi]
    simp only [hm]
    rw [if_neg hm0.ne']
    exact ⟨_, rfl, by simp⟩

/-- The dispersion of the ordinates is not negative. -/
def Spec.DispersionOk (top : ℝ) (a : CarpetArgs) : Prop :=
  match a.ystd, a.yave with
  | some s, _ => 0 ≤ s
  | none, some _ => True
  | none, none => 0 ≤ top

/-- **C92** as claimed: `carpet` draws any non-empty data on any axis. -/
def C92_Claim : Prop :=
  ∀ (srt : List ℝ → List ℕ) (sel : ℕ → ℕ → List ℕ) (fuzz : ℕ → ℝ) (xs : List ℝ) (top : ℝ),
    (∀ l, IsArgsort (srt l) l) → IsChoice sel → xs ≠ [] → ∃ r, carpet srt sel fuzz xs none top {} = .ok r

/-- **C92**, proved part: it succeeds if the upper limit of the axis is not negative, or the dispersion or baseline are given, or the ordinates are
uniform; with weights that are all greater than one, or none of which is more than ten times another one. -/
theorem C92_partial (srt : List ℝ → List ℕ) (hsrt : ∀ l, IsArgsort (srt l) l) (sel : ℕ → ℕ → List ℕ) (hs : IsChoice sel)
    (fuzz : ℕ → ℝ) (xs : List ℝ) (hne : xs ≠ []) (weights : Option (List ℝ))
    (hw : ∀ w, weights = some w → w.length = xs.length ∧ (∀ x ∈ w, 0 < x) ∧
      ((∀ x ∈ w, 1 < x) ∨ ∀ x ∈ w, ∀ y ∈ w, x ≤ 10 * y)) (top : ℝ) (a : CarpetArgs)
    (hlim : ∀ n, a.limit = .num n → 0 < n)
    (hr : a.random = .uniform ∨ a.random = .normal ∧ DispersionOk top a) :
    ∃ r, carpet srt sel fuzz xs weights top a = .ok r := by
  obtain ⟨I, h1, h2, h3, h4⟩ := carpetSelect_ok (limit := a.limit) (weights := weights) hs fun w h => (hw w h).1
  have hIpos : 0 < I.length := by
    rw [h3]
    have : 0 < xs.length := List.length_pos_iff.mpr hne
    cases hl : a.limit with
    | num n =>
      have := hlim n hl
      simp only [numDrawn]
      omega
    | none => exact this
    | inf => exact this
  have hord : ∃ y ys, carpetOrdinates a.random (carpetScale a top).1 (carpetScale a top).2 fuzz I.length = .ok (y :: ys) := by
    have hex : ∃ ys, carpetOrdinates a.random (carpetScale a top).1 (carpetScale a top).2 fuzz I.length = .ok ys := by
      rcases hr with hr | ⟨hr, hd⟩
      · rw [hr]
        exact ⟨_, rfl⟩
      · rw [hr]
        have : ¬ (carpetScale a top).1 < 0 := by
          unfold DispersionOk at hd
          unfold carpetScale
          rcases hs1 : a.ystd with _ | s <;> rcases hs2 : a.yave with _ | y <;> simp only [hs1, hs2] at hd ⊢
          · simp only [Option.getD_none]
            push Not
            positivity
          · simp only [Option.getD_none]
            push Not
            positivity
          · simpa using hd
          · simpa using hd
        simp only [carpetOrdinates, if_neg this]
        exact ⟨_, rfl⟩
    obtain ⟨ys, hys⟩ := hex
    have hl := carpetOrdinates_length hys
    cases ys with
    | nil => simp at hl; omega
    | cons y ys => exact ⟨y, ys, hys⟩
  obtain ⟨y, ys, hys⟩ := hord
  have hww : ∃ ww, carpetWeights srt (weights.map fun w => I.map fun i => w.getD i 0) = .ok ww ∧
      ∀ v, ww = some v → v.length = I.length := by
    cases weights with
    | none => exact ⟨none, rfl, by simp⟩
    | some w =>
      obtain ⟨w1, w2, w3⟩ := hw w rfl
      have hmem : ∀ x ∈ I.map (fun i => w.getD i 0), x ∈ w := by
        intro x hx
        obtain ⟨i, hi, rfl⟩ := List.mem_map.mp hx
        have := h2 i hi
        rw [List.getD_eq_getElem _ _ (by omega)]
        exact List.getElem_mem _
      obtain ⟨v, e1, e2⟩ := carpetWeights_ok hsrt (w := I.map fun i => w.getD i 0)
        (by simpa using List.length_pos_iff.mp hIpos) (fun x hx => w2 x (hmem x hx))
        (w3.imp (fun h x hx => h x (hmem x hx)) fun h x hx y hy => h x (hmem x hx) y (hmem y hy))
      exact ⟨some v, e1, by rintro _ ⟨⟩; simpa using e2⟩
  obtain ⟨ww, e1, e2⟩ := hww
  simp only [carpet, h4, e1, List.length_map, hys]
  rw [if_neg]
  · exact ⟨_, rfl⟩
  · push Not
    cases ww with
    | none => simp
    | some v => simpa using e2 v rfl

/-- Hypotheses of `C92_partial`, `C90_points` and `C91_partial`: five weighted data of which three are drawn, rotated. -/
example : ∃ (srt : List ℝ → List ℕ) (sel : ℕ → ℕ → List ℕ) (ms : List Marker) (lo hi : ℝ),
    carpet srt sel (fun _ => 1) [5, 3, 4, 3, 1] (some [1, 2, 1, 5, 3]) 10 { limit := .num 3, rotate := true } = .ok (ms, lo, hi) ∧
    ms.length = 3 ∧ (ms.map Marker.y).Subperm [5, 3, 4, 3, 1] := by
  obtain ⟨srt, hsrt⟩ := exists_argsort
  have hs : IsChoice fun _ n => List.range n := by
    intro size n hn
    refine ⟨by simp, List.nodup_range, fun i hi => ?_⟩
    have := List.mem_range.mp hi
    omega
  have hw : ∀ w, some [(1 : ℝ), 2, 1, 5, 3] = some w → w.length = ([5, 3, 4, 3, 1] : List ℝ).length ∧ (∀ x ∈ w, 0 < x) ∧
      ((∀ x ∈ w, 1 < x) ∨ ∀ x ∈ w, ∀ y ∈ w, x ≤ 10 * y) := by
    rintro w ⟨⟩
    refine ⟨rfl, by simp, Or.inr ?_⟩
    simp
    norm_num
  obtain ⟨⟨ms, lo, hi⟩, h⟩ := C92_partial srt hsrt _ hs (fun _ => 1) [5, 3, 4, 3, 1] (by simp) (some [1, 2, 1, 5, 3]) hw 10
    { limit := .num 3, rotate := true } (by rintro n ⟨⟩; norm_num) (Or.inr ⟨rfl, by norm_num [DispersionOk]⟩)
  have := C90_points srt _ hs (fun _ => 1) [5, 3, 4, 3, 1] (some [1, 2, 1, 5, 3]) (fun w h => (hw w h).1) 10 _ ms lo hi h
  exact ⟨srt, _, ms, lo, hi, h, this.2.2.1, by simpa [funext_iff, dataCoord] using (show (ms.map fun m => dataCoord true m).Subperm _ from this.2.1)⟩

/-- **C92** fails whenever the upper limit of the axis is negative, with all other arguments at their defaults. -/
theorem C92_fails (srt : List ℝ → List ℕ) (sel : ℕ → ℕ → List ℕ) (fuzz : ℕ → ℝ) (xs : List ℝ) (top : ℝ) (ht : top < 0) :
    carpet srt sel fuzz xs none top {} = .error .valueError := by
  have h : (carpetScale {} top).1 < 0 := by
    show top * (1 / 50) < 0
    linarith
  have ho : carpetOrdinates .normal (carpetScale {} top).1 (carpetScale {} top).2 fuzz xs.length = .error .valueError := if_pos h
  simp only [carpet, carpetSelect, carpetWeights, ho]

theorem C92_refuted : ¬ C92_Claim := by
  intro hc
  obtain ⟨srt, hsrt⟩ := exists_argsort
  have hs : IsChoice fun _ n => List.range n := by
    intro size n hn
    refine ⟨by simp, List.nodup_range, fun i hi => ?_⟩
    have := List.mem_range.mp hi
    omega
  obtain ⟨r, hr⟩ := hc srt _ (fun _ => 0) [0] (-1) hsrt hs (by simp)
  rw [C92_fails srt _ _ _ _ (by norm_num)] at hr
  cases hr

/-- **C91** fails: of two data with weights 1e-9 and 0.1 the lighter one is drawn larger. -/
theorem C91_refuted : ¬ C91_Claim := by
  intro hc
  obtain ⟨srt, hsrt⟩ := exists_argsort
  have hs : IsChoice fun _ n => List.range n := by
    intro size n hn
    refine ⟨by simp, List.nodup_range, fun i hi => ?_⟩
    have := List.mem_range.mp hi
    omega
  have l0 : Real.logb 10 (10 : ℝ) = 1 := Real.logb_self_eq_one (by norm_num)
  have l1 : Real.logb 10 (((10 : ℝ) ^ 9)⁻¹) = -9 := by
    rw [Real.logb_inv, Real.logb_pow, l0]; norm_num
  have l2 : Real.logb 10 ((10 : ℝ)⁻¹) = -1 := by
    rw [Real.logb_inv, l0]
  have hid : srt [-9, -1] = [0, 1] := by
    have h1 : (srt [-9, -1]).Perm [0, 1] := (hsrt [-9, -1]).1
    have h2 := (hsrt [-9, -1]).2
    have hl : (srt [-9, -1]).length = 2 := h1.length_eq
    obtain ⟨a, b, e⟩ := List.length_eq_two.mp hl
    rw [e] at h1 h2 ⊢
    have ha : a = 0 ∨ a = 1 := by simpa using h1.mem_iff.mp (by simp : a ∈ [a, b])
    have hb : b = 0 ∨ b = 1 := by simpa using h1.mem_iff.mp (by simp : b ∈ [a, b])
    have hn : a ≠ b := by
      have := h1.nodup_iff.mpr (by decide)
      simpa using this
    rcases ha with rfl | rfl <;> rcases hb with rfl | rfl
    · exact absurd rfl hn
    · rfl
    · norm_num at h2
    · exact absurd rfl hn
  have hiqr : iqrange srt [-9, -1] = .ok 8 := by
    simp only [iqrange, quantiles, hid]
    norm_num [npInterp, quantileGrid, npCumsum, searchRight]
    rw [if_neg (by simp)]
    norm_num
  have hsort : npSort [(-9 : ℝ), -1] = [-9, -1] := by
    norm_num [npSort]
  have hmed : npMedian [(-9 : ℝ), -1] = .ok (-5) := by
    simp only [npMedian, hsort]
    rw [if_neg (by simp)]
    norm_num
  have h2 : Real.sqrt 2 < 3 := by
    rw [Real.sqrt_lt' (by norm_num)]; norm_num
  have h0 : (0 : ℝ) < Real.sqrt 2 := by positivity
  have h1 : 1 < Real.sqrt 2 := by
    rw [Real.lt_sqrt (by norm_num)]; norm_num
  have hP : ∃ lo hi, carpet srt (fun _ n => List.range n) (fun _ => 0) [0, 1] (some [((10 : ℝ) ^ 9)⁻¹, (10 : ℝ)⁻¹]) 1 {} =
      .ok ([⟨0, -5 * (1 * (1 / 50)) + 1 * (1 / 50) * 0 + 0, carpetSize 2 (-9 / -5)⟩,
        ⟨1, -5 * (1 * (1 / 50)) + 1 * (1 / 50) * 0 + 0, carpetSize 2 (-1 / -5)⟩], lo, hi) := by
    have hp : ∀ x ∈ [((10 : ℝ) ^ 9)⁻¹, (10 : ℝ)⁻¹], 0 < x := by simp
    have hs' : ¬ (carpetScale {} 1).1 < 0 := by
      show ¬ ((1 : ℝ) * (1 / 50) < 0)
      norm_num
    have ho : carpetOrdinates .normal (carpetScale {} 1).1 (carpetScale {} 1).2 (fun _ => 0) 2 =
        .ok [-5 * (1 * (1 / 50)) + 1 * (1 / 50) * 0, -5 * (1 * (1 / 50)) + 1 * (1 / 50) * 0] := if_neg hs'
    have hn : ¬ ((-5 : ℝ) = 0) := by norm_num
    have hi : (1 : ℝ) < 8 := by norm_num
    simp only [carpet, carpetSelect, carpetWeights, if_pos hp, List.map_cons, List.map_nil, l1, l2, hiqr, if_pos hi, hmed,
      if_neg hn, List.length_cons, List.length_nil, zero_add, Nat.reduceAdd, ho]
    exact ⟨_, _, if_neg (by simp)⟩
  obtain ⟨lo, hi, hP⟩ := hP
  obtain ⟨I, ⟨hI1, hI2, hI3, hI4⟩, hw⟩ := hc srt _ _ _ _ _ _ _ _ _ hsrt hs (by simp) (by simp) hP
  obtain ⟨i, j, rfl⟩ := List.length_eq_two.mp hI3
  have hi : i = 0 ∨ i = 1 := by
    have := hI2 i (by simp)
    simp only [List.length_cons, List.length_nil] at this
    omega
  have hj : j = 0 ∨ j = 1 := by
    have := hI2 j (by simp)
    simp only [List.length_cons, List.length_nil] at this
    omega
  have hlt : carpetSize 2 (-1 / -5) < carpetSize 2 (-9 / -5) := by
    have e1 : (300 : ℝ) * (-1 / -5) / Real.sqrt 2 < 100 := by
      rw [div_lt_iff₀ h0]; linarith
    have e2 : (100 : ℝ) < 300 * (-9 / -5) / Real.sqrt 2 := by
      rw [lt_div_iff₀ h0]; linarith
    have h22 : ((2 : ℕ) : ℝ) = 2 := by norm_num
    unfold carpetSize
    rw [h22]
    refine lt_of_lt_of_le (min_lt_of_left_lt (max_lt e1 (by norm_num))) (le_min (le_max_of_le_left e2.le) le_rfl)
  have := hw 0 1 (by simp) (by simp)
  rcases hi with rfl | rfl <;> rcases hj with rfl | rfl
  · simp at hI1
  · have h3 := this (by norm_num)
    exact absurd h3 (not_le.mpr hlt)
  · simp [dataCoord] at hI4
  · simp at hI1

end Kalepy
