import Verif.Props.Dist1d
import Verif.Props.Params
import Verif.Props.ResampleReflect

/-!
# C12 for one parameter of several: total mass with boundaries
-/

namespace Kalepy

open Spec MeasureTheory

variable {d : ℕ}

/-- The integral of kernels and their mirror images over the region inside the boundaries. -/
lemma folded_integral {n : ℕ} (hn : 0 < n) (D : Dist) {M : Matrix (Fin n) (Fin n) ℝ} (hM : M.PosDef) (wd : List ((Fin n → ℝ) × ℝ)) (i : Fin n)
    {lo hi : Option ℝ} (hlt : ∀ l u, lo = some l → hi = some u → l < u) :
    Integrable ((slab i (Spec.inside lo hi)).indicator fun x => (wd.map fun p => p.2 * (Spec.shape D (Spec.dist2 M (x - p.1))
      + ((lo.toList ++ hi.toList).map fun b => Spec.shape D (Spec.dist2 M (x - Spec.mirror i b p.1))).sum)).sum) ∧
    ∫ x, (slab i (Spec.inside lo hi)).indicator (fun x => (wd.map fun p => p.2 * (Spec.shape D (Spec.dist2 M (x - p.1))
      + ((lo.toList ++ hi.toList).map fun b => Spec.shape D (Spec.dist2 M (x - Spec.mirror i b p.1))).sum)).sum) x
      = (wd.map fun p => p.2 * ∫ x in slab i (Spec.unfolded lo hi), Spec.shape D (Spec.dist2 M (x - p.1))).sum := by
  have hmeas := measurable_slab (d := n) i (measurable_inside lo hi)
  let f : (Fin n → ℝ) × ℝ → (Fin n → ℝ) → ℝ := fun p x => p.2 *
    ((slab i (Spec.inside lo hi)).indicator (fun x => Spec.shape D (Spec.dist2 M (x - p.1))) x
      + ((lo.toList ++ hi.toList).map fun b => (slab i (Spec.inside lo hi)).indicator
        (fun x => Spec.shape D (Spec.dist2 M (x - Spec.mirror i b p.1))) x).sum)
  have hb : ∀ p : (Fin n → ℝ) × ℝ, Integrable (fun x => ((lo.toList ++ hi.toList).map fun b =>
        (slab i (Spec.inside lo hi)).indicator
        (fun x => Spec.shape D (Spec.dist2 M (x - Spec.mirror i b p.1))) x).sum) ∧
      ∫ x, ((lo.toList ++ hi.toList).map fun b => (slab i (Spec.inside lo hi)).indicator
        (fun x => Spec.shape D (Spec.dist2 M (x - Spec.mirror i b p.1))) x).sum
        = ((lo.toList ++ hi.toList).map fun b => ∫ x, (slab i (Spec.inside lo hi)).indicator
        (fun x => Spec.shape D (Spec.dist2 M (x - Spec.mirror i b p.1))) x).sum := fun p =>
    integral_listSum _ _ fun b _ => (integrable_shape_dist2 hn _ hM _).indicator hmeas
  have hf : ∀ p, Integrable (f p) ∧ ∫ x, f p x = p.2 * ∫ x in slab i (Spec.unfolded lo hi),
      Spec.shape D (Spec.dist2 M (x - p.1)) := by
    intro p
    have hI := (integrable_shape_dist2 hn D hM p.1).indicator hmeas
    refine ⟨(hI.add (hb p).1).const_mul p.2, ?_⟩
    simp only [f]
    rw [integral_const_mul, integral_add hI (hb p).1, (hb p).2, mass_unfolded hn D hM p.1 i hlt]
  have hind : ((slab i (Spec.inside lo hi)).indicator fun x => (wd.map fun p => p.2 * (Spec.shape D (Spec.dist2 M (x - p.1))
      + ((lo.toList ++ hi.toList).map fun b => Spec.shape D (Spec.dist2 M (x - Spec.mirror i b p.1))).sum)).sum)
      = fun x => (wd.map fun p => f p x).sum := by
    funext x
    by_cases hx : x ∈ slab i (Spec.inside lo hi)
    · simp only [f, Set.indicator_of_mem hx]
    · simp only [f, Set.indicator_of_notMem hx]
      simp
  rw [hind]
  obtain ⟨h1, h2⟩ := integral_listSum wd f fun p _ => (hf p).1
  exact ⟨h1, by rw [h2]; exact congrArg List.sum (List.map_congr_left fun p _ => (hf p).2)⟩

/-- **C12** for one parameter of a KDE of several parameters with boundaries, after any history of calls: the pdf of the parameter `i`
(`params=[i]`) is a function which is zero beyond the boundaries of this parameter; its integral is never more than 1, and equal to 1 if there is at
most one boundary, or for a finite kernel that reaches (from every datum) no further than one interval length beyond either boundary.  The boundaries of the other parameters, and the correlations with them, have no influence.

What is missing: 1 for two boundaries and wider kernels, where it is not true in general (`C12_refuted`). -/
theorem C12_marginal_partial {E : Ext} {a : KDEArgs d} {k : KDE d} (h : KDE.init E a = .ok k) (srt : List ℝ → List ℕ) (hd : d ≠ 1)
    (hM : (Spec.kernelMatrix k.covariance k.bandwidth).PosDef) (rows : List ReflRow) (hr : k.reflect = some rows) (i : Fin d) :
    ∃ F : ℝ → ℝ,
      (∀ (history : List (Spec.Call d)) (l : List ℝ), ((history.foldl (fun k c => (Spec.call E srt k c).2) k).pdf E srt (some (.rows [l])) .none
          (.list [(i : ℤ)]) false).1 = .ok (.rows [l], ⟨[l.length], l.map F⟩)) ∧
      (∀ x, Spec.Violates (rows.getD i none) x → F x = 0) ∧ Integrable F ∧ ∫ x, F x ≤ 1 ∧
      ((∀ lo hi, rows.getD i none = some (some lo, some hi) → k.kernel.dist.finite = true ∧ ∀ x ∈ a.dataset,
          2 * lo - hi ≤ x i - Real.sqrt (Spec.kernelMatrix k.covariance k.bandwidth i i) ∧
          x i + Real.sqrt (Spec.kernelMatrix k.covariance k.bandwidth i i) ≤ 2 * hi - lo) → ∫ x, F x = 1) := by
  classical
  have hM' : ((Spec.kernelMatrix k.covariance k.bandwidth).submatrix [i].get [i].get).PosDef :=
    hM.submatrix (fun a b _ => Subsingleton.elim (α := Fin 1) a b)
  obtain ⟨hT, hw0⟩ := weighted_total_pos h
  set T := ((Spec.weighted a.dataset k.weights).map Prod.snd).sum with hTdef
  set M' := (Spec.kernelMatrix k.covariance k.bandwidth).submatrix [i].get [i].get with hM'def
  set wd : List ((Fin 1 → ℝ) × ℝ) := Spec.weighted (a.dataset.map (Spec.project [i])) k.weights with hwd
  have hwd' : wd = (Spec.weighted a.dataset k.weights).map fun p => (Spec.project [i] p.1, p.2) := weighted_map _ _ _
  have hwT : (wd.map Prod.snd).sum = T := by rw [hwd', List.map_map]; rfl
  have hwn : ∀ p ∈ wd, 0 ≤ p.2 := by
    intro p hp
    rw [hwd'] at hp
    obtain ⟨q, hq, rfl⟩ := List.mem_map.mp hp
    exact hw0 q hq
  obtain ⟨lo, hi, hv, hb, hlt, hone⟩ : ∃ lo hi : Option ℝ, (∀ t, Spec.Violates (rows.getD i none) t ↔ Spec.Violates (some (lo, hi)) t) ∧
      Spec.bounds (rows.getD i none) = lo.toList ++ hi.toList ∧ (∀ l u, lo = some l → hi = some u → l < u) ∧
      (∀ l u, lo = some l → hi = some u → rows.getD i none = some (some l, some u)) := by
    have hres : rows.length = d ∧ ∀ lo hi, some (some lo, some hi) ∈ rows → lo < hi := by
      obtain ⟨rows', _, _, _, _, _, _, _, hr', hne', _, _, _, _, _, _, _, _, he⟩ := init_inv h
      have e : rows' = some rows := by rw [← hr, he]
      rw [e] at hr'
      exact C20_result _ hne' _ rows hr'
    have hmem : rows.getD i none ∈ rows := by
      rw [List.getD_eq_getElem _ _ (by rw [hres.1]; exact i.2)]
      exact List.getElem_mem _
    rcases hrow : rows.getD i none with _ | ⟨lo, hi⟩
    · exact ⟨none, none, fun t => by simp [Spec.Violates], rfl, by simp, by simp⟩
    · refine ⟨lo, hi, fun t => Iff.rfl, rfl, ?_, ?_⟩
      · rintro l u rfl rfl
        exact hres.2 l u (hrow ▸ hmem)
      · rintro l u rfl rfl
        rfl
  obtain ⟨g1, g2⟩ := folded_integral (n := 1) one_pos k.kernel.dist hM' wd 0 hlt
  set G : (Fin 1 → ℝ) → ℝ := fun x => (wd.map fun p => p.2 * (Spec.shape k.kernel.dist (Spec.dist2 M' (x - p.1))
      + ((lo.toList ++ hi.toList).map fun b => Spec.shape k.kernel.dist (Spec.dist2 M' (x - Spec.mirror 0 b p.1))).sum)).sum with hGdef
  set C := Real.sqrt M'.det * k.kernel.dist.norm 1 with hC
  have hC0 : 0 < C := mul_pos (Real.sqrt_pos.mpr hM'.det_pos) (k.kernel.dist.norm_pos 1 one_pos)
  obtain ⟨f1, f2⟩ := line_integral ((g1.div_const C).div_const T) (by rw [integral_div, integral_div, g2])
  have hval : (wd.map fun p => p.2 * ∫ x in slab 0 (Spec.unfolded lo hi), Spec.shape k.kernel.dist (Spec.dist2 M' (x - p.1))).sum / C / T
      = (wd.map fun p => p.2 * ∫ x in slab 0 (Spec.unfolded lo hi), Spec.kernelDensity k.kernel.dist M' (x - p.1)).sum / T := by
    congr 1
    rw [div_eq_mul_inv, ← List.sum_map_mul_right]
    refine congrArg List.sum (List.map_congr_left fun p _ => ?_)
    simp only [Spec.kernelDensity]
    rw [integral_div, mul_assoc, ← div_eq_mul_inv]
    rfl
  rw [hval] at f2
  have key : ∀ y : Fin 1 → ℝ, (if y ∈ Spec.Allowed (Spec.rowsFor rows [i]) then Spec.kernelSum k.kernel.dist M' wd y else 0)
      + ((List.finRange 1).map fun j => if Spec.AllowedFrom (Spec.rowsFor rows [i]) j y then
          ((Spec.bounds ((Spec.rowsFor rows [i]).getD j none)).map fun b => Spec.kernelSum k.kernel.dist M'
            (Spec.weighted ((a.dataset.map (Spec.project [i])).map (Spec.mirror j b)) k.weights) y).sum else 0).sum
      = (slab 0 (Spec.inside lo hi)).indicator G y := by
    intro y
    have e1 : y ∈ Spec.Allowed (Spec.rowsFor rows [i]) ↔ y ∈ slab 0 (Spec.inside lo hi) := by
      rw [slab, Set.mem_ofPred_eq, ← not_violates, ← hv]
      exact ⟨fun hy => hy 0, fun hy j => by rw [Subsingleton.elim j 0]; exact hy⟩
    have e2 : Spec.AllowedFrom (Spec.rowsFor rows [i]) 0 y ↔ y ∈ slab 0 (Spec.inside lo hi) := by
      rw [slab, Set.mem_ofPred_eq, ← not_violates, ← hv]
      exact ⟨fun hy => hy 0 le_rfl, fun hy j _ => by rw [Subsingleton.elim j 0]; exact hy⟩
    have e3 : (Spec.rowsFor rows [i]).getD ((0 : Fin 1) : ℕ) none = rows.getD i none := rfl
    have e4 : List.finRange 1 = [0] := rfl
    rw [e4, List.map_singleton, List.sum_singleton, e3, hb]
    by_cases hy : y ∈ slab 0 (Spec.inside lo hi)
    · rw [if_pos (e1.mpr hy), if_pos (e2.mpr hy), Set.indicator_of_mem hy, hGdef]
      have e5 : ∀ b, Spec.weighted ((a.dataset.map (Spec.project [i])).map (Spec.mirror (0 : Fin 1) b)) k.weights
          = wd.map fun p => (Spec.mirror 0 b p.1, p.2) := fun b => weighted_map _ _ _
      simp only [e5]
      simp only [Spec.kernelSum, List.map_map, Function.comp_def]
      generalize lo.toList ++ hi.toList = bs
      clear_value wd
      clear * -
      induction wd with
      | nil => simp
      | cons p l ih =>
        simp only [List.map_cons, List.sum_cons]
        rw [← ih, List.sum_map_add, List.sum_map_mul_left]
        ring
    · rw [if_neg (fun hc => hy (e1.mp hc)), if_neg (fun hc => hy (e2.mp hc)), Set.indicator_of_notMem hy, add_zero]
  refine ⟨_, ?_, ?_, f1, ?_, ?_⟩
  · intro history l
    have := C82_params_reflect h srt hd rows hr [(i : ℤ)] (by simp) [i] (.cons (Or.inl rfl) .nil) hM' history (l.map fun x _ => x)
    have e : rowsOf (m := [i].length) (l.map fun x _ => x) = [l] := by simp [rowsOf, Function.comp_def]
    rw [e, List.length_map, List.map_map] at this
    rw [this]
    congr 3
    refine List.map_congr_left fun t _ => ?_
    exact congrArg (fun z => z / C / T) (key fun _ => t)
  · intro x hx
    have : (fun _ => x : Fin 1 → ℝ) ∉ slab 0 (Spec.inside lo hi) := fun hc => (not_violates.mpr hc) ((hv x).mp hx)
    simp only [Set.indicator_of_notMem this, zero_div]
  · rw [f2, div_le_one hT, ← hwT]
    refine List.sum_le_sum fun p hp => ?_
    obtain ⟨k1, k2⟩ := kernelDensity_integral one_pos k.kernel.dist hM' p.1
    have : ∫ x in slab 0 (Spec.unfolded lo hi), Spec.kernelDensity k.kernel.dist M' (x - p.1) ≤ 1 := by
      rw [← k2]
      exact setIntegral_le_integral k1 (Filter.Eventually.of_forall fun x => kernelDensity_nonneg one_pos _ _ _)
    have h0 := hwn p hp
    nlinarith
  · intro hc
    rw [f2, div_eq_one_iff_eq hT.ne', ← hwT]
    refine congrArg List.sum (List.map_congr_left fun p hp => ?_)
    obtain ⟨k1, k2⟩ := kernelDensity_integral one_pos k.kernel.dist hM' p.1
    have hpd : ∃ x ∈ a.dataset, p.1 0 = x i := by
      rw [hwd'] at hp
      obtain ⟨q, hq, rfl⟩ := List.mem_map.mp hp
      refine ⟨q.1, ?_, rfl⟩
      cases hk : k.weights with
      | none =>
        rw [hk] at hq
        obtain ⟨x, hx, rfl⟩ := List.mem_map.mp hq
        exact hx
      | some w =>
        rw [hk] at hq
        exact (List.of_mem_zip (show (q.1, q.2) ∈ _ from hq)).1
    obtain ⟨q, hq, hpq⟩ := hpd
    rw [setIntegral_eq_integral_of_forall_compl_eq_zero, k2, mul_one]
    intro x hx
    simp only [slab, Spec.unfolded, Set.mem_ofPred_eq, not_forall] at hx
    obtain ⟨l, u, hl, hu, hx⟩ := hx
    obtain ⟨hf, hd'⟩ := hc l u (hone l u hl hu)
    obtain ⟨b1, b2⟩ := hd' q hq
    rw [Spec.kernelDensity, shape_eq_zero hf, zero_div]
    have hsq := sq_le_diag_mul_dist2 hM' (x - p.1) 0
    have hMi := hM'.diag_pos (i := 0)
    have hss := Real.sq_sqrt hMi.le
    have hs0 := Real.sqrt_nonneg (M' 0 0)
    have hs : Real.sqrt (Spec.kernelMatrix k.covariance k.bandwidth i i) = Real.sqrt (M' 0 0) := rfl
    rw [hs, ← hpq] at b1 b2
    set s := Real.sqrt (M' 0 0)
    have hlt : s ^ 2 < (x - p.1) 0 ^ 2 := by
      rw [Pi.sub_apply]
      by_cases hc : 2 * l - u ≤ x 0
      · have : 2 * u - l < x 0 := by
          by_contra hcc
          exact hx ⟨hc, not_lt.mp hcc⟩
        nlinarith
      · nlinarith [not_le.mp hc]
    rw [hss] at hlt
    by_contra hc
    have := mul_le_mul_of_nonneg_left (not_lt.mp hc) hMi.le
    linarith

/-- Hypotheses of `C12_marginal_partial`: the first of two parameters has a boundary on one side, the second on both sides; both integrals are 1. -/
example : ∃ (E : Ext) (a : KDEArgs 2) (k : KDE 2) (rows : List ReflRow), KDE.init E a = .ok k ∧ k.reflect = some rows ∧
    rows = [some (some 0, none), some (some 0, some 5)] ∧ (Spec.kernelMatrix k.covariance k.bandwidth).PosDef ∧
    ∀ (i : Fin 2) (lo hi : ℝ), rows.getD i none = some (some lo, some hi) → k.kernel.dist.finite = true ∧ ∀ x ∈ a.dataset,
      2 * lo - hi ≤ x i - Real.sqrt (Spec.kernelMatrix k.covariance k.bandwidth i i) ∧
      x i + Real.sqrt (Spec.kernelMatrix k.covariance k.bandwidth i i) ≤ 2 * hi - lo := by
  obtain ⟨k, hk, _, hD, hM, hr, _, _⟩ := unit_init_reflect ⟨fun A => A, id⟩ ([![0, 1], ![1, 4], ![3, 2]] : List (Fin 2 → ℝ))
    (by simp) .box rfl [some (some 0, none), some (some 0, some 5)] rfl (by
      intro lo hi h
      simp only [List.mem_cons, Option.some.injEq, Prod.mk.injEq, List.not_mem_nil, or_false, reduceCtorEq, and_false, false_or] at h
      rw [h.1, h.2]; norm_num) ⟨(some 0, none), by simp⟩
  refine ⟨_, _, k, _, hk, hr, rfl, by rw [hM]; exact Matrix.PosDef.one, fun i lo hi he => ⟨by rw [hD]; rfl, fun x hx => ?_⟩⟩
  rw [hM]
  fin_cases i
  · simp at he
  · simp at he
    obtain ⟨rfl, rfl⟩ := he
    simp only [List.mem_cons, List.not_mem_nil, or_false] at hx
    rcases hx with rfl | rfl | rfl <;> norm_num

end Kalepy
