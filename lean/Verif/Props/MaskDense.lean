import Verif.Props.ContourLevels
import Verif.Props.Dist2dOk

/-!
# C143: `mask_dense` covers the points inside the contours
-/

namespace Kalepy

open Spec

variable {d : ℕ}

/-! ### specification -/

/-- The position with index `idx` is covered by the mask: the array has a value there, which lies between the two levels. -/
def Spec.Covered (M : MaskCmd) (idx : Fin 2 → ℕ) : Prop := ∃ v, M.z.get idx = some v ∧ M.lo ≤ v ∧ v ≤ M.hi

/-! ### proofs -/

lemma npMinR_spec {l : List ℝ} {m : ℝ} (h : npMinR l = .ok m) : m ∈ l ∧ ∀ x ∈ l, m ≤ x := by
  cases l with
  | nil => cases h
  | cons a l =>
    cases h
    exact npMin_spec a l

lemma flat_map_some (z : NDArr 2 ℝ) : (z.map some).flat.filterMap id = z.flat := by
  have : (z.map some).flat = z.flat.map some := by
    simp [NDArr.flat, NDArr.map, NDArr.size, List.map_map, Function.comp_def]
  rw [this]
  simp

lemma NDArr.mem_flat_option (z : NDArr 2 (Option ℝ)) (v : ℝ) : v ∈ z.flat.filterMap id ↔ ∃ idx, ValidIdx z.shape idx ∧ z.get idx = some v := by
  simp only [List.mem_filterMap, id]
  constructor
  · rintro ⟨o, ho, rfl⟩
    exact (NDArr.mem_flat z _).mp ho
  · rintro ⟨idx, hi, e⟩
    exact ⟨_, (NDArr.mem_flat z _).mpr ⟨idx, hi, rfl⟩, e⟩

/-- What is known of a mask that is drawn. -/
lemma maskRegion_ok {srt : List ℝ → List ℕ} {qs x y : List ℝ} {z : NDArr 2 (Option ℝ)} {raw : NDArr 2 ℝ} {M : MaskCmd}
    (h : maskRegion srt qs x y z raw = .ok (some M)) : 2 ≤ raw.shape 0 ∧ 2 ≤ raw.shape 1 ∧ M.x = x ∧ M.y = y ∧ M.z = z ∧ M.lo < M.hi ∧
      (∃ s levels q, dfmLevels srt .float raw (some qs) none = .ok (s, levels, q) ∧ M.lo ∈ levels ∧ ∀ l ∈ levels, M.lo ≤ l) ∧
      (∃ idx, ValidIdx z.shape idx ∧ z.get idx = some M.hi) ∧ ∀ idx v, ValidIdx z.shape idx → z.get idx = some v → v ≤ M.hi := by
  unfold maskRegion at h
  split at h
  · cases h
  rename_i hsh
  split at h
  · cases h
  rename_i s levels q hl
  split at h
  · cases h
  rename_i lo hlo
  split at h
  · cases h
  rename_i v vs hv
  by_cases hc : npMax v vs ≤ lo
  · simp only [if_pos hc] at h
    cases h
  · simp only [if_neg hc] at h
    cases h
    obtain ⟨m1, m2⟩ := npMax_spec v vs
    rw [← hv] at m1 m2
    refine ⟨by omega, by omega, rfl, rfl, rfl, not_le.mp hc, ⟨s, levels, q, hl, npMinR_spec hlo⟩, (NDArr.mem_flat_option z _).mp m1,
      fun idx v hi e => m2 v ((NDArr.mem_flat_option z _).mpr ⟨idx, hi, e⟩)⟩

/-- The mask of an array without masked cells. -/
lemma maskRegion_exact {srt : List ℝ → List ℕ} {qs x y : List ℝ} {z : NDArr 2 ℝ} (h0 : 2 ≤ z.shape 0) (h1 : 2 ≤ z.shape 1)
    {s : List (Option ℝ)} {levels q : List ℝ} (hl : dfmLevels srt .float z (some qs) none = .ok (s, levels, q)) (hne : levels ≠ []) :
    ((∀ l ∈ levels, ∀ idx, ValidIdx z.shape idx → z.get idx ≤ l) → maskRegion srt qs x y (z.map some) z = .error .valueError) ∧
    ((∃ l ∈ levels, ∃ idx, ValidIdx z.shape idx ∧ l < z.get idx) → ∃ M, maskRegion srt qs x y (z.map some) z = .ok (some M)) := by
  obtain ⟨a, l, rfl⟩ := List.exists_cons_of_ne_nil hne
  have hpos : ∃ v vs, z.flat = v :: vs := by
    cases hf : z.flat with
    | cons v vs => exact ⟨v, vs, rfl⟩
    | nil =>
      exfalso
      have := z.flat_length
      rw [hf, List.length_nil, NDArr.size, Fin.prod_univ_two] at this
      have := Nat.mul_pos (show 0 < z.shape 0 by omega) (show 0 < z.shape 1 by omega)
      omega
  obtain ⟨v, vs, hv⟩ := hpos
  obtain ⟨m1, m2⟩ := npMax_spec v vs
  obtain ⟨n1, n2⟩ := npMin_spec a l
  have hunf : maskRegion srt qs x y (z.map some) z =
      if npMax v vs ≤ npMin a l then .error .valueError else .ok (some ⟨x, y, z.map some, npMin a l, npMax v vs⟩) := by
    unfold maskRegion
    rw [if_neg (by omega), hl]
    simp only [npMinR, flat_map_some, hv]
  rw [hunf]
  constructor
  · intro h
    refine if_pos ?_
    rw [← hv] at m1
    obtain ⟨idx, hi, e⟩ := (NDArr.mem_flat z _).mp m1
    rw [← e]
    exact h _ n1 idx hi
  · rintro ⟨l', hl', idx, hi, hlt⟩
    refine ⟨_, if_neg (not_le.mpr ?_)⟩
    calc npMin a l ≤ l' := n2 _ hl'
      _ < z.get idx := hlt
      _ ≤ npMax v vs := m2 _ (by rw [← hv]; exact (NDArr.mem_flat z _).mpr ⟨idx, hi, rfl⟩)

/-- The levels depend on the fractions only. -/
lemma dfmLevels_some {srt : List ℝ → List ℕ} {z : NDArr d ℝ} {qs sg : Option (List ℝ)} {s : List (Option ℝ)} {levels q : List ℝ}
    (h : dfmLevels srt .float z qs sg = .ok (s, levels, q)) :
    ∃ s', dfmLevels srt .float z (some (defaultQuantiles qs sg).1) none = .ok (s', levels, q) := by
  unfold dfmLevels at h ⊢
  generalize defaultQuantiles qs sg = p at h
  obtain ⟨p1, p2⟩ := p
  simp only [defaultQuantiles] at h ⊢
  cases hd : dfmLevelsOf srt .float z.flat p1 with
  | error e => rw [hd] at h; cases h
  | ok l =>
    rw [hd] at h
    cases h
    exact ⟨_, rfl⟩

/-- The levels of drawn contours are those of the fractions that are asked for. -/
lemma drawn_levels {E : Ext} {srt : List ℝ → List ℕ} {sel : ℕ → ℕ → List ℕ} {k : KDE d} {data : List (Fin 2 → ℝ)}
    {weights : Option (List ℝ)} {a : Dist2dArgs} {out : Dist2dOut} (h : dist2dDraw E srt sel k data weights a = .ok out)
    {C : ContourCmd} (hC : out.contour = some C) :
    ∃ s q, dfmLevels srt .float C.z (some (defaultQuantiles a.quantiles a.sigmas).1) none = .ok (s, C.levels, q) := by
  obtain ⟨rows, hh, sg, levels, qs, mask, -, -, -, h4, -, -, h7, -⟩ := dist2dDraw_ok h
  rcases optional_ok h7 with ⟨-, e⟩ | ⟨C', -, hk, e⟩
  · rw [hC] at e
    cases e
  · rw [hC] at e
    cases e
    have hq := dfmLevels_quantiles h4
    subst hq
    unfold kdeContour at hk
    split at hk
    · cases hk
    · exact drawContour2d_levels hk
    · cases hk

/-- The steps of `dist2dFinish` that draw a mask. -/
lemma dist2dFinish_mask {srt : List ℝ → List ℕ} {k : KDE d} {data : List (Fin 2 → ℝ)} {weights : Option (List ℝ)} {a : Dist2dArgs}
    {maskDense : Option Bool} {out : Dist2dOut} {lines : Option (List ℝ)} {M : MaskCmd}
    (h : dist2dFinish srt k data weights a maskDense out = .ok (lines, some M)) :
    maskDenseArg maskDense out.scatter.isSome a = true ∧ ∃ rows hh x y z raw, parseEdgesParams srt data a.edges k.reflect a.params = .ok rows ∧
      histogram2d data (rows.getD 0 []) (rows.getD 1 []) weights = .ok hh ∧ maskSource rows hh a out = .ok (x, y, z, raw) ∧
      maskRegion srt (defaultQuantiles a.quantiles a.sigmas).1 x y z raw = .ok (some M) := by
  unfold dist2dFinish at h
  split at h
  · cases h
  by_cases hm : maskDenseArg maskDense out.scatter.isSome a = true
  · rw [if_pos hm] at h
    refine ⟨hm, ?_⟩
    split at h
    · cases h
    rename_i rows h1
    split at h
    · cases h
    rename_i hh h2
    split at h
    · cases h
    rename_i x y z raw h3
    split at h
    · cases h
    rename_i m h4
    cases h
    exact ⟨rows, hh, x, y, z, raw, h1, h2, h3, h4⟩
  · rw [if_neg hm] at h
    cases h

/-! ### C143 -/

/-- **C143.** If contours are drawn, the mask lies on the same grid, and covers exactly the positions that are on or inside one of the contours. -/
theorem C143_contour (E : Ext) (srt : List ℝ → List ℕ) (sel : ℕ → ℕ → List ℕ) (k : KDE d) (data : List (Fin 2 → ℝ)) (weights : Option (List ℝ))
    (a : Dist2dArgs) (maskDense : Option Bool) (out : Dist2dOut) (h : dist2dDraw E srt sel k data weights a = .ok out) (C : ContourCmd)
    (hC : out.contour = some C) (lines : Option (List ℝ)) (M : MaskCmd) (hM : dist2dFinish srt k data weights a maskDense out = .ok (lines, some M)) :
    M.x = C.x ∧ M.y = C.y ∧ M.z.shape = C.z.shape ∧ ∀ idx, ValidIdx C.z.shape idx → (Covered M idx ↔ ∃ l ∈ C.levels, l ≤ C.z.get idx) := by
  obtain ⟨-, rows, hh, x, y, z, raw, -, -, h3, h4⟩ := dist2dFinish_mask hM
  obtain ⟨s, q, hl⟩ := drawn_levels h hC
  unfold maskSource at h3
  rw [hC] at h3
  cases h3
  obtain ⟨-, -, e1, e2, e3, -, ⟨s', levels, q', g1, g2, g3⟩, -, g4⟩ := maskRegion_ok h4
  rw [hl] at g1
  cases g1
  refine ⟨e1, e2, by rw [e3]; rfl, fun idx hi => ?_⟩
  unfold Covered
  rw [e3]
  constructor
  · rintro ⟨v, e, hlo, -⟩
    cases e
    exact ⟨_, g2, hlo⟩
  · rintro ⟨l, hl, hle⟩
    exact ⟨_, rfl, (g3 l hl).trans hle, g4 idx _ hi rfl⟩

/-- **C143.** If the histogram is drawn without contours, and `mask_below` is `True`, the mask covers exactly the centres of the bins
that are shown. -/
theorem C143_hist (E : Ext) (srt : List ℝ → List ℕ) (hs : ∀ l, IsArgsort (srt l) l) (sel : ℕ → ℕ → List ℕ) (k : KDE d) (data : List (Fin 2 → ℝ))
    (weights : Option (List ℝ)) (hw : ValidWeights data.length weights) (a : Dist2dArgs) (maskDense : Option Bool) (out : Dist2dOut)
    (h : dist2dDraw E srt sel k data weights a = .ok out) (hC : out.contour = none) (P : Pcolor) (hP : out.hist = some P) (hb : a.maskBelow = .auto)
    (lines : Option (List ℝ)) (M : MaskCmd) (hM : dist2dFinish srt k data weights a maskDense out = .ok (lines, some M)) :
    M.z.shape = ![P.x.length - 1, P.y.length - 1] ∧ M.x.length = P.x.length - 1 ∧ M.y.length = P.y.length - 1 ∧
    (∀ i, i + 1 < P.x.length → M.x.getD i 0 = (P.x.getD i 0 + P.x.getD (i + 1) 0) / 2) ∧
    (∀ j, j + 1 < P.y.length → M.y.getD j 0 = (P.y.getD j 0 + P.y.getD (j + 1) 0) / 2) ∧
    ∀ i j, i + 1 < P.x.length → j + 1 < P.y.length → (Covered M ![i, j] ↔ shown P i j ≠ none) := by
  obtain ⟨-, rows, hh, x, y, z, raw, h1, h2, h3, h4⟩ := dist2dFinish_mask hM
  obtain ⟨rows', hh', sg, levels, qs, mask, -, g1, g2, g3, g4, -, -, g6⟩ := dist2dDraw_ok h
  rw [h1] at g1
  cases g1
  rw [h2] at g2
  cases g2
  have hPd : P = drawHist2d (rows.getD 0 []) (rows.getD 1 []) hh mask := by
    by_cases hh1 : a.hist = true
    · rw [if_pos hh1, hP] at g6
      exact Option.some.inj g6
    · rw [if_neg hh1, hP] at g6
      cases g6
  obtain ⟨hx, hy, hxl, hyl, -, hsh, -⟩ := histogram2d_ok h2
  obtain ⟨f0, ft⟩ := histogram2d_facts hw h2
  have hPx : P.x = rows.getD 0 [] := by rw [hPd]; rfl
  have hPy : P.y = rows.getD 1 [] := by rw [hPd]; rfl
  unfold maskSource at h3
  rw [hC, hP] at h3
  simp only at h3
  cases hmid : listSeq midpoints1 rows with
  | error e => rw [hmid] at h3; cases h3
  | ok ee =>
    rw [hmid] at h3
    cases h3
    obtain ⟨-, -, e1, e2, e3, -, ⟨s', levels', q', d1, d2, d3⟩, -, d4⟩ := maskRegion_ok h4
    have hlev : levels' = levels := by
      obtain ⟨s'', hl⟩ := dfmLevels_some g3
      rw [hl] at d1
      cases d1
      rfl
    subst hlev
    have hmask : mask = some M.lo := by
      rw [hb] at g4
      unfold maskLevel at g4
      cases hlv : levels' with
      | nil => rw [hlv] at d2; cases d2
      | cons b l =>
        rw [hlv] at g4 d2 d3
        cases g4
        obtain ⟨n1, n2⟩ := npMin_spec b l
        rw [le_antisymm (n2 _ d2) (d3 _ n1)]
    have hmidl : ∀ (n : ℕ) (e : List ℝ), rows[n]? = some e → ∃ m, ee[n]? = some m ∧ m.length = e.length - 1 ∧
        ∀ i, i + 1 < e.length → m.getD i 0 = (e.getD i 0 + e.getD (i + 1) 0) / 2 := by
      intro n e hn
      have := listSeq_ok.mp hmid
      obtain ⟨hlt, rfl⟩ := List.getElem?_eq_some_iff.mp hn
      have hlen := this.length_eq
      have hmn := List.Forall₂.get this hlt (by omega)
      simp only [List.get_eq_getElem] at hmn
      refine ⟨_, List.getElem?_eq_getElem (by omega), ?_⟩
      unfold midpoints1 at hmn
      by_cases hc : rows[n].length < 2
      · rw [if_pos hc] at hmn
        cases hmn
      · rw [if_neg hc] at hmn
        rw [← Except.ok.inj hmn]
        refine ⟨by simp, fun i hi => ?_⟩
        rw [List.getD_eq_getElem _ _ (by simp; omega), List.getElem_zipWith, List.getElem_tail, List.getD_eq_getElem _ _ (by omega),
          List.getD_eq_getElem _ _ hi]
        ring
    have hrow : ∀ n, 2 ≤ (rows.getD n []).length → rows[n]? = some (rows.getD n []) := by
      intro n hn
      rw [List.getD_eq_getElem?_getD] at hn ⊢
      cases hr : rows[n]? with
      | none => rw [hr] at hn; simp at hn
      | some e => rfl
    obtain ⟨m0, a1, a2, a3⟩ := hmidl 0 _ (hrow 0 hxl)
    obtain ⟨m1, b1, b2, b3⟩ := hmidl 1 _ (hrow 1 hyl)
    have hee0 : ee.getD 0 [] = m0 := by rw [List.getD_eq_getElem?_getD, a1]; rfl
    have hee1 : ee.getD 1 [] = m1 := by rw [List.getD_eq_getElem?_getD, b1]; rfl
    refine ⟨?_, ?_, ?_, ?_, ?_, ?_⟩
    · rw [e3, hPx, hPy]
      exact hsh
    · rw [e1, hee0, a2, hPx]
    · rw [e2, hee1, b2, hPy]
    · rw [e1, hee0, hPx]
      exact a3
    · rw [e2, hee1, hPy]
      exact b3
    · intro i j hi hj
      have hval : ValidIdx hh.shape ![i, j] := by
        intro k
        rw [hsh]
        fin_cases k
        · show i < (rows.getD 0 []).length - 1
          rw [hPx] at hi
          omega
        · show j < (rows.getD 1 []).length - 1
          rw [hPy] at hj
          omega
      have hget : M.z.get ![i, j] = shown P i j := by rw [e3]; rfl
      unfold Covered
      rw [hget]
      have hsp : shown P i j = if M.lo ≠ 0 ∧ hh.get ![i, j] ≤ M.lo then none else some (hh.get ![i, j]) := by
        rw [hPd, hmask]
        rfl
      constructor
      · rintro ⟨v, e, -⟩
        rw [e]
        simp
      · intro hne
        by_cases hc : M.lo ≠ 0 ∧ hh.get ![i, j] ≤ M.lo
        · rw [hsp, if_pos hc] at hne
          exact absurd rfl hne
        · rw [if_neg hc] at hsp
          refine ⟨_, hsp, ?_, d4 ![i, j] _ hval hsp⟩
          rw [not_and_or, not_not, not_le] at hc
          rcases hc with hc | hc
          · rw [hc]
            exact f0 _ hval
          · exact hc.le

/-- **C143.** The mask does not change the lines: whatever `mask_dense` says, the contours drawn are those that matplotlib draws for the
computed contour command, and none if there is no such command. -/
theorem C143_lines (srt : List ℝ → List ℕ) (k : KDE d) (data : List (Fin 2 → ℝ)) (weights : Option (List ℝ)) (a : Dist2dArgs) (maskDense : Option Bool)
    (out : Dist2dOut) (lines : Option (List ℝ)) (mask : Option MaskCmd) (h : dist2dFinish srt k data weights a maskDense out = .ok (lines, mask)) :
    (out.contour = none → lines = none) ∧ ∀ C, out.contour = some C → ∃ L, axContour C = .ok L ∧ lines = some L := by
  have hl : drawnLines out = .ok lines := by
    unfold dist2dFinish at h
    split at h
    · cases h
    rename_i l hl
    rw [hl]
    by_cases hm : maskDenseArg maskDense out.scatter.isSome a = true
    · rw [if_pos hm] at h
      split at h
      · cases h
      split at h
      · cases h
      split at h
      · cases h
      split at h
      · cases h
      cases h
      rfl
    · rw [if_neg hm] at h
      cases h
      rfl
  unfold drawnLines at hl
  constructor
  · intro hC
    rw [hC] at hl
    exact (Except.ok.inj hl).symm
  · intro C hC
    rw [hC] at hl
    simp only at hl
    cases hax : axContour C with
    | error e => rw [hax] at hl; cases hl
    | ok L =>
      rw [hax] at hl
      exact ⟨L, rfl, (Except.ok.inj hl).symm⟩

/-- **C143.** There is no mask if it is switched off, or by default if no points are drawn, or neither the histogram nor contours. -/
theorem C143_off (srt : List ℝ → List ℕ) (k : KDE d) (data : List (Fin 2 → ℝ)) (weights : Option (List ℝ)) (a : Dist2dArgs) (maskDense : Option Bool)
    (out : Dist2dOut) (hoff : maskDense = some false ∨ maskDense = none ∧ (out.scatter = none ∨ a.hist = false ∧ a.contour = false))
    (lines : Option (List ℝ)) (mask : Option MaskCmd) (h : dist2dFinish srt k data weights a maskDense out = .ok (lines, mask)) : mask = none := by
  unfold dist2dFinish at h
  have hm : maskDenseArg maskDense out.scatter.isSome a = false := by
    rcases hoff with rfl | ⟨rfl, h | ⟨h1, h2⟩⟩
    · rfl
    · simp [maskDenseArg, h]
    · simp [maskDenseArg, h1, h2]
  split at h
  · cases h
  · rw [hm] at h
    simp only [Bool.false_eq_true, if_false, Except.ok.injEq, Prod.mk.injEq] at h
    exact h.2.symm

/-- **C143** as claimed: whenever the components of `dist2d` can be computed and matplotlib accepts the contours, the plot with the mask is drawn. -/
def C143_Claim : Prop :=
  ∀ (d : ℕ) (E : Ext) (srt : List ℝ → List ℕ) (sel : ℕ → ℕ → List ℕ) (args : KDEArgs d) (k : KDE d) (data : List (Fin 2 → ℝ)) (a : Dist2dArgs) (out : Dist2dOut),
    (∀ l, IsArgsort (srt l) l) → IsChoice sel → KDE.init E args = .ok k → plotRows k.dataset a.params = .ok data → dist2d E srt sel k a = .ok out →
    (∀ C, out.contour = some C → ∃ lines, axContour C = .ok lines) → ∃ r, dist2dFinish srt k data k.weights a none out = .ok r

/-- **C143**, proved part: with contours that matplotlib accepts, the plot with a mask is drawn if and only if some value of the array exceeds
the lowest level. -/
theorem C143_partial (E : Ext) (srt : List ℝ → List ℕ) (sel : ℕ → ℕ → List ℕ) (k : KDE d) (data : List (Fin 2 → ℝ)) (weights : Option (List ℝ))
    (a : Dist2dArgs) (maskDense : Option Bool) (out : Dist2dOut) (h : dist2dDraw E srt sel k data weights a = .ok out) (C : ContourCmd)
    (hC : out.contour = some C) (lines : List ℝ) (hL : axContour C = .ok lines) (hne : C.levels ≠ [])
    (hon : maskDense = some true ∨ maskDense = none ∧ out.scatter ≠ none ∧ a.contour = true) :
    ((∃ l ∈ C.levels, ∃ idx, ValidIdx C.z.shape idx ∧ l < C.z.get idx) →
      ∃ M, dist2dFinish srt k data weights a maskDense out = .ok (some lines, some M)) ∧
    ((∀ l ∈ C.levels, ∀ idx, ValidIdx C.z.shape idx → C.z.get idx ≤ l) →
      dist2dFinish srt k data weights a maskDense out = .error .valueError) := by
  obtain ⟨s, q, hl⟩ := drawn_levels h hC
  obtain ⟨rows, hh, -, -, -, -, -, g1, g2, -⟩ := dist2dDraw_ok h
  have hsh : 2 ≤ C.z.shape 0 ∧ 2 ≤ C.z.shape 1 := by
    by_contra hc
    unfold axContour at hL
    rw [if_pos (by omega)] at hL
    cases hL
  have hlines : drawnLines out = .ok (some lines) := by
    unfold drawnLines
    rw [hC]
    simp only [hL]
    rfl
  have hm : maskDenseArg maskDense out.scatter.isSome a = true := by
    rcases hon with rfl | ⟨rfl, h1, h2⟩
    · rfl
    · simp only [maskDenseArg, Option.getD_none, h2, Bool.or_true, Bool.and_true]
      exact Option.isSome_iff_ne_none.mpr h1
  have hsrc : maskSource rows hh a out = .ok (C.x, C.y, C.z.map some, C.z) := by
    unfold maskSource
    rw [hC]
  obtain ⟨r1, r2⟩ := maskRegion_exact (x := C.x) (y := C.y) hsh.1 hsh.2 hl hne
  constructor
  · intro hex
    obtain ⟨M, hM⟩ := r2 hex
    refine ⟨M, ?_⟩
    unfold dist2dFinish
    simp only [hlines, hm, if_true, g1, g2, hsrc, hM]
  · intro hall
    unfold dist2dFinish
    simp only [hlines, hm, if_true, g1, g2, hsrc, r1 hall]

open Classical in
/-- **C143** fails: all data are in one of four bins, no contours are drawn, and `mask_below` is `False`.  The bin holds more than every fraction, all levels are
equal to its density, the largest value, and matplotlib raises `ValueError`. -/
theorem C143_refuted : ¬ C143_Claim := by
  intro hc
  obtain ⟨srt, hs⟩ := exists_argsort
  let E : Ext := ⟨fun M => M⁻¹, fun _ => 0⟩
  obtain ⟨args, k, hk, hd, hr, hw⟩ := box_kde2 E
  let ex : List ℝ := [-1, 5, 6]
  let ey : List ℝ := [9, 13, 14]
  let a : Dist2dArgs := { contour := false, maskBelow := .off, edges := .list [.arr ex, .arr ey] }
  have hplot : plotRows k.dataset a.params = .ok k.dataset := plotRows_two
  have hE : parseEdgesParams srt k.dataset a.edges k.reflect a.params = .ok [ex, ey] := by
    rw [hr]
    show parseEdges srt k.dataset (.list [.arr ex, .arr ey]) none none 5 1000 none 1 none = _
    have hdat : ∃ dat, parseExtremaOf k.dataset none = .ok dat := by rw [hd]; exact ⟨_, rfl⟩
    obtain ⟨dat, hdat⟩ := hdat
    have hsp : edgeSpecs 2 (.list [.arr ex, .arr ey]) = .ok [.arr ex, .arr ey] := by simp [edgeSpecs, EdgeSpec.scalar]
    have hf : (finSeq fun i : Fin 2 => getEdges1d srt (([.arr ex, .arr ey] : List EdgeSpec).getD i .auto) (dataRow k.dataset i) (dat i)
        none 2 5 1000 1 1 none) = .ok ![ex, ey] := by
      rw [finSeq_ok]
      intro i
      fin_cases i <;> rfl
    simp only [parseEdges, hdat, hsp, Option.isNone_none, if_true, Option.getD_none, Option.map_none, hf]
    rfl
  have hvw : ValidWeights k.dataset.length k.weights := validWeights_stored hk rfl
  obtain ⟨out, hout⟩ := dist2dDraw_success (E := E) (k := k) (a := a) hs isChoice_range (dataset_ne hk) hvw
    ⟨by simp [a], by simp [a], by simp [a]⟩ hE
    ⟨by simp [ex]; norm_num, by simp [ex], by rw [hd]; simp [InRangeOf, ex]⟩
    ⟨by simp [ey]; norm_num, by simp [ey], by rw [hd]; simp [InRangeOf, ey]; norm_num⟩ (by simp [a])
  have h2d : dist2d E srt (fun _ n => List.range n) k a = .ok out := by
    unfold dist2d
    rw [hplot]
    exact hout
  obtain ⟨rows, hh, sg, levels, qs, mask, g0, g1, g2, g3, g4, -, g7, g8⟩ := dist2dDraw_ok hout
  rw [hE] at g1
  cases g1
  have hcn : out.contour = none := by
    rcases optional_ok g7 with ⟨-, e⟩ | ⟨C', e, -⟩
    · exact e
    · cases e
  cases g4
  have hP : out.hist = some (drawHist2d ex ey hh none) := g8
  replace g2 : histogram2d k.dataset ex ey k.weights = .ok hh := g2
  obtain ⟨-, -, -, -, -, hsh, hcell⟩ := histogram2d_ok g2
  obtain ⟨f0, ft⟩ := histogram2d_facts hvw g2
  have hsh' : hh.shape = ![2, 2] := hsh
  -- three cells are empty
  have c1 : ∀ x, CountedIn ex 1 x ↔ 5 ≤ x ∧ (x < 6 ∨ x = 6) := by intro x; simp [CountedIn, ex]
  have d1 : ∀ x, CountedIn ey 1 x ↔ 13 ≤ x ∧ (x < 14 ∨ x = 14) := by intro x; simp [CountedIn, ey]
  have hempty : ∀ i j, (i = 1 ∨ j = 1) → cellDensity k.dataset k.weights ex ey i j = 0 := by
    intro i j hij
    refine empty_density ?_
    rw [hd]
    intro x hx hcc
    simp only [List.mem_cons, List.not_mem_nil, or_false] at hx
    rcases hij with rfl | rfl
    · have := ((c1 _).mp hcc.1).1
      rcases hx with rfl | rfl <;> norm_num at this
    · have := ((d1 _).mp hcc.2).1
      rcases hx with rfl | rfl <;> norm_num at this
  have hz : ∀ idx, ValidIdx hh.shape idx → idx ≠ ![0, 0] → hh.get idx = 0 := by
    intro idx hi hne
    have h0 := hi 0
    have h1 := hi 1
    rw [hsh'] at h0 h1
    have h0 : idx 0 < 2 := h0
    have h1 : idx 1 < 2 := h1
    have e : idx = ![idx 0, idx 1] := by
      funext k
      fin_cases k <;> rfl
    rw [e, hcell (idx 0) (idx 1) h0 h1]
    refine hempty _ _ ?_
    by_contra hcon
    apply hne
    rw [e]
    rw [show idx 0 = 0 by omega, show idx 1 = 0 by omega]
  have hv00 : ValidIdx hh.shape ![0, 0] := by
    intro k
    rw [hsh']
    fin_cases k <;> simp
  have hsum : ∀ g : ℝ → ℝ, g 0 = 0 → ∑ idx ∈ validIdx hh.shape, g (hh.get idx) = g (hh.get ![0, 0]) := by
    intro g hg
    refine Finset.sum_eq_single _ ?_ ?_
    · intro idx hi hne
      rw [hz idx (validIdx_mem.mp hi) hne, hg]
    · intro hni
      exact absurd (validIdx_mem.mpr hv00) hni
  have htot : hh.sum = hh.get ![0, 0] := hsum id rfl
  have hpos : 0 < hh.get ![0, 0] := by rw [← htot]; exact ft
  obtain ⟨levels', qs', s', f, k1, -, hlen, -, hperm, -, hmem⟩ := C55_mass_partial hh f0 ft srt hs a.quantiles a.sigmas
  rw [g3] at k1
  cases k1
  have hq := dfmLevels_quantiles g3
  have hfr : ∀ q ∈ qs, 0 ≤ q ∧ q < 1 := by
    intro q hq'
    rw [hq] at hq'
    exact contourFractions_sigmas (a := a) rfl q hq'
  have hlev : ∀ l ∈ levels, l = hh.get ![0, 0] := by
    intro l hl
    rw [hperm.mem_iff] at hl
    obtain ⟨q, hql, rfl⟩ := List.mem_map.mp hl
    obtain ⟨q0, q1⟩ := hfr q hql
    obtain ⟨⟨idx, hi, e⟩, hm⟩ := hmem q
    by_cases hid : idx = ![0, 0]
    · rw [← e, hid]
    · exfalso
      rw [hz idx hi hid] at e
      have := (hm q0).1
      rw [← e, hsum (fun x => if 0 < x then x else 0) (by simp), htot, if_pos hpos] at this
      nlinarith
  have hlne : levels ≠ [] := by
    rw [← List.length_pos_iff, hlen, hq, List.length_pos_iff]
    exact defaultQuantiles_ne (by simp [a]) (by simp [a])
  obtain ⟨s', hl'⟩ := dfmLevels_some g3
  obtain ⟨mm, hmid⟩ : ∃ mm, listSeq midpoints1 [ex, ey] = .ok mm := ⟨_, rfl⟩
  have hbad := (maskRegion_exact (x := mm.getD 0 []) (y := mm.getD 1 []) (by rw [hsh']; simp) (by rw [hsh']; simp) hl' hlne).1 (by
    intro l hl idx hi
    rw [hlev l hl]
    by_cases hid : idx = ![0, 0]
    · rw [hid]
    · rw [hz idx hi hid]
      exact hpos.le)
  obtain ⟨r, hres⟩ := hc 2 E srt _ args k k.dataset a out hs isChoice_range hk hplot h2d (by rw [hcn]; simp)
  have hscat : out.scatter.isSome = true := by
    rw [show a.scatter = .yes from rfl, (C71_scatter k.dataset _ isChoice_range).2.2.1] at g0
    rw [← Except.ok.inj g0]
    rfl
  have hm : maskDenseArg none out.scatter.isSome a = true := by
    rw [hscat]
    rfl
  have hzz : ({ shape := hh.shape, get := fun idx => (drawHist2d ex ey hh none).c.get ![idx 1, idx 0] } : NDArr 2 (Option ℝ)) = hh.map some := by
    have : (fun idx : Fin 2 → ℕ => (drawHist2d ex ey hh none).c.get ![idx 1, idx 0]) = fun idx => some (hh.get idx) := by
      funext idx
      show some (hh.get ![idx 0, idx 1]) = _
      congr 2
      funext k
      fin_cases k <;> rfl
    rw [this]
    rfl
  have hsrc : maskSource [ex, ey] hh a out = .ok (mm.getD 0 [], mm.getD 1 [], hh.map some, hh) := by
    unfold maskSource
    rw [hcn, hP]
    simp only [hmid, hzz]
  have hlin : drawnLines out = .ok none := by
    unfold drawnLines
    rw [hcn]
  replace g2 : histogram2d k.dataset ([ex, ey].getD 0 []) ([ex, ey].getD 1 []) k.weights = .ok hh := g2
  unfold dist2dFinish at hres
  simp only [hlin, hm, if_true, hE, g2, hsrc, hbad] at hres
  cases hres

end Kalepy
