import Verif.Props.MarginalMass
import Verif.Props.CornerReflect

/-!
# C101 for KDEs with reflecting boundaries
-/

namespace Kalepy

open Spec MeasureTheory

variable {d : ℕ}

/-- **C101**, for a KDE of several parameters with reflecting boundaries: the curve drawn by `dist1d` follows (times `density`) a function that is zero
beyond the boundaries of the parameter, and whose integral is that of the histogram (one, or the total weight with `probability=False`) if there is at
most one boundary or if the kernel fits between the boundaries (see C12); otherwise it is not larger. -/
theorem C101_reflect {E : Ext} {args : KDEArgs d} {k : KDE d} (hk : KDE.init E args = .ok k) (hd : d ≠ 1) (rows : List ReflRow)
    (hr : k.reflect = some rows) (hM : (Spec.kernelMatrix k.covariance k.bandwidth).PosDef) (srt : List ℝ → List ℕ) (auto : List ℝ → ℕ)
    (sel : ℕ → ℕ → List ℕ) (hsel : IsChoice sel) (fuzz : ℕ → ℝ) (top : ℝ) (a : Dist1dArgs) (hb : BinsOk a.edges) (i : Fin d)
    (ha : 1 ≤ auto (dataRow k.dataset i)) (hq : Names a.param i) (out : Dist1dOut) (h : dist1d E srt auto sel fuzz top k a = .ok out) :
    ∃ F : ℝ → ℝ, Integrable F ∧ (∀ x, Spec.Violates (rows.getD i none) x → F x = 0) ∧
      ∫ x, F x ≤ (if a.probability then 1 else dataWeight (dataRow k.dataset i) k.weights) ∧
      ((∀ lo hi, rows.getD i none = some (some lo, some hi) → k.kernel.dist.finite = true ∧ ∀ x ∈ args.dataset,
          2 * lo - hi ≤ x i - Real.sqrt (Spec.kernelMatrix k.covariance k.bandwidth i i) ∧
          x i + Real.sqrt (Spec.kernelMatrix k.covariance k.bandwidth i i) ≤ 2 * hi - lo) →
        ∫ x, F x = (if a.probability then 1 else dataWeight (dataRow k.dataset i) k.weights)) ∧
      (∀ l, (k.density E srt (some (.rows [l])) .none (single i) false a.probability).1 = .ok (.rows [l], ⟨[l.length], l.map F⟩)) ∧
      (∀ c, out.curve = some c → ∀ p ∈ c, (upright a.rotate p).2 = F (upright a.rotate p).1 * (a.density.getD (some 1)).getD 0) ∧
      ∀ s, out.hist = some s → (∀ l, a.edges ≠ .arr l) → areaUnder ((visible s).map (upright a.rotate))
          = if a.probability then 1 else dataWeight (dataRow k.dataset i) k.weights := by
  have hne := dataset_ne hk
  have hw : ∀ w, k.weights = some w → w.length = k.dataset.length := fun w e => (stored_weights hk e).1
  obtain ⟨hs, -⟩ := C100_components E srt auto sel hsel fuzz top k hw a i hq out h
  have hT : k.totalWeight = dataWeight (dataRow k.dataset i) k.weights := by
    cases hkw : k.weights with
    | none => simp [KDE.totalWeight, hkw, dataWeight, dataRow]
    | some w => simp [KDE.totalWeight, hkw, dataWeight]
  have hT0 : 0 < k.totalWeight := by
    cases hkw : k.weights with
    | none => simpa [KDE.totalWeight, hkw] using List.length_pos_iff.mpr hne
    | some w => simpa [KDE.totalWeight, hkw] using (stored_weights hk hkw).2.2
  obtain ⟨F, f1, f2, f3, f4, f5⟩ := C12_marginal_partial hk srt hd hM rows hr i
  have hF : ∀ l, (k.density E srt (some (.rows [l])) .none (single i) false true).1 = .ok (.rows [l], ⟨[l.length], l.map F⟩) := by
    intro l
    rw [single, if_neg hd]
    exact f1 [] l
  obtain ⟨G, g1, g2, g3, g4, g5⟩ : ∃ G : ℝ → ℝ, Integrable G ∧ (∀ x, Spec.Violates (rows.getD i none) x → G x = 0) ∧
      ∫ x, G x ≤ (if a.probability then 1 else dataWeight (dataRow k.dataset i) k.weights) ∧
      (∫ x, F x = 1 → ∫ x, G x = (if a.probability then 1 else dataWeight (dataRow k.dataset i) k.weights)) ∧
      ∀ l, (k.density E srt (some (.rows [l])) .none (single i) false a.probability).1 = .ok (.rows [l], ⟨[l.length], l.map G⟩) := by
    cases hp : a.probability with
    | true => exact ⟨F, f3, f2, by simpa using f4, by simp, hF⟩
    | false =>
      refine ⟨fun x => F x * k.totalWeight, f3.mul_const _, fun x hx => by simp [f2 x hx], ?_, fun h1 => ?_, fun l => ?_⟩
      · rw [integral_mul_const, ← hT]
        simp only [Bool.false_eq_true, if_false]
        nlinarith
      · rw [integral_mul_const, h1, hT]; simp
      · have := density_unnormalised hT0.ne' (hF l)
        rwa [List.map_map] at this
  refine ⟨G, g1, g2, g3, fun hc => g4 (f5 hc), g5, ?_, ?_⟩
  · intro c hc p hp
    obtain ⟨v, hv, he⟩ := hs.curve c hc p hp
    rw [g5] at hv
    simp only [Except.ok.injEq, Prod.mk.injEq, Arr.mk.injEq, List.map_cons, List.map_nil, List.cons.injEq, and_true] at hv
    rw [he, ← hv.2.2]
  · intro s hs'
    obtain ⟨hist, e, hh⟩ := hs.hist s hs'
    have hvw : ValidWeights (dataRow k.dataset i).length k.weights := validWeights_stored hk (by simp [dataRow])
    have hne' : dataRow k.dataset i ≠ [] := by simpa [dataRow] using hne
    exact (C99_area auto false _ hne' ha k.weights hvw a.edges hb a.probability true a.rotate hist e s hh).2.2.2

/-- Hypotheses of `C101_reflect`: the curve and the histogram of the second of two parameters, with a boundary on one side of the first and on both sides
of the second. -/
example : ∃ (E : Ext) (srt : List ℝ → List ℕ) (args : KDEArgs 2) (k : KDE 2) (a : Dist1dArgs) (out : Dist1dOut), KDE.init E args = .ok k ∧
    k.reflect = some [some (some 0, none), some (some 0, some 5)] ∧ (Spec.kernelMatrix k.covariance k.bandwidth).PosDef ∧ BinsOk a.edges ∧
    Names a.param (1 : Fin 2) ∧ dist1d E srt (fun _ => 1) (fun _ n => List.range n) (fun _ => 0) 1 k a = .ok out ∧ out.curve.isSome ∧ out.hist.isSome := by
  obtain ⟨srt, hs⟩ := exists_argsort
  let E : Ext := ⟨fun M => M⁻¹, fun _ => 0⟩
  obtain ⟨k, hk, hw, hD, hM, hr, _, hdat⟩ := unit_init_reflect E ([![0, 1], ![1, 4], ![3, 2]] : List (Fin 2 → ℝ))
    (by simp) .box rfl [some (some 0, none), some (some 0, some 5)] rfl (by
      intro lo hi h
      simp only [List.mem_cons, Option.some.injEq, Prod.mk.injEq, List.not_mem_nil, or_false, reduceCtorEq, and_false, false_or] at h
      rw [h.1, h.2]; norm_num) ⟨(some 0, none), by simp⟩
  have hM' : (Spec.kernelMatrix k.covariance k.bandwidth).PosDef := by rw [hM]; exact Matrix.PosDef.one
  let a : Dist1dArgs := { edges := .arr [0, 2, 6], param := 1, carpet := .no, hist := some true, density := some (some 1) }
  have hq : Names a.param (1 : Fin 2) := Or.inl rfl
  obtain ⟨F, hF⟩ := single_density_reflect hk srt (by norm_num) hr hM' (1 : Fin 2) a.probability
  obtain ⟨g1, -, -⟩ := scalar_density hq (by norm_num) hF
  obtain ⟨s, e⟩ := g1 [0, 2, 6]
  obtain ⟨out, ho⟩ : ∃ out, dist1d E srt (fun _ => 1) (fun _ n => List.range n) (fun _ => 0) 1 k a = .ok out := by
    unfold dist1d
    rw [show dimIndex 2 a.param = .ok 1 from dimIndex_names hq]
    refine dist1dDraw_success hs isChoice_range (l := [0, 2, 6]) (by simp [dataRow, hdat])
      (validWeights_stored hk (by simp [dataRow])) (fun t _ => ?_) rfl (by simp) (by norm_num) (by simp [a]) (Or.inl rfl)
    simp only [dist1dCurve, dist1dDensity, a]
    simp only [a] at e
    simp only [e, plotPairs_flat]
    exact ⟨_, rfl⟩
  have hc := (C100_components E srt (fun _ => 1) (fun _ n => List.range n) isChoice_range (fun _ => 0) 1 k (fun w hw' => by rw [hw] at hw'; cases hw') a 1 hq out ho).2
  refine ⟨E, srt, _, k, a, out, hk, hr, hM', by norm_num [BinsOk, a], hq, ho, ?_, ?_⟩
  · cases hcv : out.curve with
    | none => have := hc.1.mp hcv; simp [a] at this
    | some c => rfl
  · rw [hc.2.1]; rfl

end Kalepy
