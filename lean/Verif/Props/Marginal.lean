import Verif.Proofs.Marginal
import Verif.Props.Normal

/-!
# C10: `params`
-/

namespace Kalepy

open MeasureTheory Matrix

variable {d : ℕ}

/-- Specification: the list of parameter numbers as an argument. -/
def Spec.paramList (ps : List (Fin d)) : ParamArg := .list (ps.map fun i : Fin d => ((i : ℕ) : ℤ))

/-- Specification: a full point from the coordinates `y` of the parameters `ps` (in this order) and the other
coordinates `z`. -/
def Spec.merge (ps : List (Fin d)) (y : Fin ps.length → ℝ) (z : {i // i ∉ ps} → ℝ) (i : Fin d) : ℝ :=
  if h : i ∈ ps then y ⟨ps.idxOf i, List.idxOf_lt_length_iff.mpr h⟩ else z ⟨i, h⟩

/-- Specification: the coordinates `ps` of a point. -/
def Spec.project (ps : List (Fin d)) (x : Fin d → ℝ) : Fin ps.length → ℝ := fun j => x (ps.get j)

/-! ### The density with `params` -/

lemma dimIndex_cast (i : Fin d) : dimIndex d ((i : ℕ) : ℤ) = .ok i := by
  simp [dimIndex, pyIndex]

lemma paramSel_list (hd : d ≠ 1) {ps : List (Fin d)} (hne : ps ≠ []) :
    paramSel d (Spec.paramList ps) = .ok (some ps, false) := by
  have h : ∀ ps : List (Fin d), listSeq (dimIndex d) (ps.map fun i : Fin d => ((i : ℕ) : ℤ)) = .ok ps := by
    intro ps
    induction ps with
    | nil => rfl
    | cons i ps ih => simp only [List.map_cons, listSeq, dimIndex_cast, ih]
  simp only [Spec.paramList, paramSel, if_neg hd, h, List.map_eq_nil_iff, if_neg hne, Except.map]

/-- **C10**, what `params` computes, for all kernels: the density of the projected data with the same kernel and the
kernel matrix restricted to the selected rows and columns. -/
theorem C10_params_density {E : Ext} {a : KDEArgs d} {k : KDE d} (h : KDE.init E a = .ok k) (srt : List ℝ → List ℕ)
    (hd : d ≠ 1) (hr : a.reflect = .none) (ps : List (Fin d)) (hne : ps ≠ [])
    (hM : ((Spec.kernelMatrix k.covariance k.bandwidth).submatrix ps.get ps.get).PosDef)
    (history : List (Spec.Call d)) (pts : List (Fin ps.length → ℝ)) :
    ((history.foldl (fun k c => (Spec.call E srt k c).2) k).pdf E srt (some (.rows (Spec.rowsOf pts)))
      .none (Spec.paramList ps) false).1 = .ok (.rows (Spec.rowsOf pts),
      ⟨[pts.length], pts.map fun y =>
        Spec.kernelSum k.kernel.dist ((Spec.kernelMatrix k.covariance k.bandwidth).submatrix ps.get ps.get)
            (Spec.weighted (a.dataset.map (Spec.project ps)) k.weights) y
          / (Real.sqrt ((Spec.kernelMatrix k.covariance k.bandwidth).submatrix ps.get ps.get).det
              * k.kernel.dist.norm ps.length)
          / ((Spec.weighted a.dataset k.weights).map Prod.snd).sum⟩) := by
  have hist := C14_history E srt h history (.pdf (some (.rows (Spec.rowsOf pts))) .none (Spec.paramList ps) false)
  rw [Spec.call, Spec.call, Spec.Outcome.values.injEq] at hist
  rw [hist, KDE.pdf]
  have hw : ∀ l, k.weights = some l → l.length = a.dataset.length := fun l hl => (stored_valid h hl).1
  have ht : ((Spec.weighted a.dataset k.weights).map Prod.snd).sum = k.totalWeight := by
    have e2 : k.dataset = a.dataset := by
      obtain ⟨_, _, _, _, _, _, _, _, _, _, _, _, _, _, _, _, _, _, rfl⟩ := init_inv h
      rfl
    rw [KDE.totalWeight, e2]
    cases hk : k.weights with
    | none => simp [Spec.weighted, List.map_map, Function.comp_def]
    | some l =>
      simp only [Spec.weighted]
      rw [List.map_snd_zip (hw l hk).le]
  rw [ht]
  obtain ⟨rows, w, cov, bw0, D, out, eff, ext, hr', hne', _, _, _, _, _, _, _, _, rfl⟩ := init_inv h
  simp only at hM hw ⊢
  have hrow : rows = none := by rw [hr] at hr'; simpa [checkReflect, eq_comm] using hr'
  subst hrow
  rw [density_eq_steps E srt _ _ .none (Spec.paramList ps) false true (sel := some ps) (squeeze := false) (r := .none)
    (paramSel_list hd hne) rfl]
  have hlen : 0 < ps.length := List.length_pos_of_ne_nil hne
  simp only [KDE.choosePoints, andThen, evalPoints, PtsUse.evalRows, Pts.toRows, Bool.false_eq_true, if_false]
  obtain ⟨⟨n, c⟩, hc, hdim, hcols⟩ := toCols_rowsOf hlen pts
  simp only at hdim hcols
  subst hdim
  have hcp : c = pts := List.map_injective_iff.mpr List.ofFn_injective hcols
  subst hcp
  have hb : badWeights (selectCols a.dataset ps) w = false := by
    cases w with
    | none => rfl
    | some l => simp [badWeights, selectCols, hw l rfl]
  obtain ⟨W, hW, hp⟩ := corePlan_posDef E D hM
    (Real.sqrt ((Spec.kernelMatrix cov (rescaleBw bw0 a.rescale)).submatrix ps.get ps.get).det)
    (sqrt_det_ne hM) (selectCols a.dataset ps) w hb none (by simp)
  have hv : ((Kernel.init D (rescaleBw bw0 a.rescale) cov a.helper a.chunk).densityParams E ps ⟨ps.length, c⟩
      (selectCols a.dataset ps) w none).1 = .ok (c.map fun y =>
        Spec.kernelSum D ((Spec.kernelMatrix cov (rescaleBw bw0 a.rescale)).submatrix ps.get ps.get)
            (Spec.weighted (a.dataset.map (Spec.project ps)) w) y
          / (Real.sqrt ((Spec.kernelMatrix cov (rescaleBw bw0 a.rescale)).submatrix ps.get ps.get).det
              * D.norm ps.length)) := by
    change densityCore D (Real.sqrt ((Spec.kernelMatrix cov (rescaleBw bw0 a.rescale)).submatrix ps.get ps.get).det)
      (matrixInvert E ((Spec.kernelMatrix cov (rescaleBw bw0 a.rescale)).submatrix ps.get ps.get)) ⟨ps.length, c⟩
      (selectCols a.dataset ps) w none = _
    rw [densityCore_eq_plan, hp]
    simp only [Except.map, coreAt, Option.map_none, kval_eq_kernelSum hM hW, weighted_eq]
    rfl
  simp only [hc, KDE.evalKernel, checkReflect]
  rcases hk : (Kernel.init D (rescaleBw bw0 a.rescale) cov a.helper a.chunk).densityParams E ps ⟨ps.length, c⟩
      (selectCols a.dataset ps) w none with ⟨v, kern⟩
  rw [hk] at hv
  simp only at hv
  subst hv
  simp [finish, packResult, valShape, KDE.totalWeight, Kernel.init, Function.comp_def, Pts.toRows]

/-! ### Marginals -/

/-- The selected and the other coordinates together. -/
noncomputable def splitEquiv (ps : List (Fin d)) (hps : ps.Nodup) : Fin ps.length ⊕ {i // i ∉ ps} ≃ Fin d :=
  Equiv.ofBijective (Sum.elim ps.get Subtype.val) (by
    constructor
    · rintro (i | i) (j | j) h
      · simp only [Sum.elim_inl] at h
        rw [(List.nodup_iff_injective_get.mp hps) h]
      · simp only [Sum.elim_inl, Sum.elim_inr] at h
        exact absurd (h ▸ List.get_mem ps i) j.2
      · simp only [Sum.elim_inl, Sum.elim_inr] at h
        exact absurd (h ▸ List.get_mem ps j) i.2
      · simp only [Sum.elim_inr] at h
        rw [Subtype.ext h]
    · intro i
      by_cases hi : i ∈ ps
      · obtain ⟨j, hj⟩ := List.get_of_mem hi
        exact ⟨Sum.inl j, hj⟩
      · exact ⟨Sum.inr ⟨i, hi⟩, rfl⟩)

lemma merge_split {ps : List (Fin d)} (hps : ps.Nodup) (y : Fin ps.length → ℝ) (z : {i // i ∉ ps} → ℝ)
    (p : Fin d → ℝ) :
    (Spec.merge ps y z - p) ∘ splitEquiv ps hps = Sum.elim (y - Spec.project ps p) (z - fun i : {i // i ∉ ps} => p i) := by
  funext j
  rcases j with j | j
  · have hmem : ps.get j ∈ ps := List.get_mem ps j
    have hs : splitEquiv ps hps (Sum.inl j) = ps.get j := rfl
    simp only [Function.comp_apply, hs, Pi.sub_apply, Sum.elim_inl, Spec.project, Spec.merge, dif_pos hmem]
    congr 2
    exact Fin.ext (by simpa using hps.idxOf_getElem j.1 j.2)
  · have hs : splitEquiv ps hps (Sum.inr j) = j.1 := rfl
    simp only [Function.comp_apply, hs, Pi.sub_apply, Sum.elim_inr, Spec.merge, dif_neg j.2]

/-- Property C10, as stated: for every kernel, the values returned with `params` are those of the full pdf with the
other coordinates integrated out. -/
def C10_Claim : Prop :=
  ∀ (d : ℕ) (E : Ext) (srt : List ℝ → List ℕ) (a : KDEArgs d) (k : KDE d), KDE.init E a = .ok k →
    d ≠ 1 → a.reflect = .none → (Spec.kernelMatrix k.covariance k.bandwidth).PosDef →
    ∀ ps : List (Fin d), ps ≠ [] → ps.Nodup →
    ∃ (F : (Fin d → ℝ) → ℝ) (G : (Fin ps.length → ℝ) → ℝ),
      (∀ pts : List (Fin d → ℝ), (k.pdf E srt (some (.rows (Spec.rowsOf pts))) .none .none false).1
        = .ok (.rows (Spec.rowsOf pts), ⟨[pts.length], pts.map F⟩)) ∧
      (∀ pts : List (Fin ps.length → ℝ),
        (k.pdf E srt (some (.rows (Spec.rowsOf pts))) .none (Spec.paramList ps) false).1
          = .ok (.rows (Spec.rowsOf pts), ⟨[pts.length], pts.map G⟩)) ∧
      ∀ y, G y = ∫ z, F (Spec.merge ps y z)

/-- **C10** for the Gaussian kernel: after any history of calls, `pdf` with `params` returns the marginal of the full
pdf: every other coordinate integrated over the real line.

What is missing: for the kernels with finite support the statement is false (`C10_refuted`): `params` computes the
density with the lower-dimensional kernel of the same name (`C10_params_density`). -/
theorem C10_gaussian_partial {E : Ext} {a : KDEArgs d} {k : KDE d} (h : KDE.init E a = .ok k)
    (srt : List ℝ → List ℕ) (hd : d ≠ 1) (hr : a.reflect = .none)
    (hM : (Spec.kernelMatrix k.covariance k.bandwidth).PosDef) (hD : k.kernel.dist = .gaussian)
    (ps : List (Fin d)) (hne : ps ≠ []) (hps : ps.Nodup) :
    ∃ (F : (Fin d → ℝ) → ℝ) (G : (Fin ps.length → ℝ) → ℝ),
      (∀ (history : List (Spec.Call d)) (pts : List (Fin d → ℝ)),
        ((history.foldl (fun k c => (Spec.call E srt k c).2) k).pdf E srt (some (.rows (Spec.rowsOf pts)))
          .none .none false).1 = .ok (.rows (Spec.rowsOf pts), ⟨[pts.length], pts.map F⟩)) ∧
      (∀ (history : List (Spec.Call d)) (pts : List (Fin ps.length → ℝ)),
        ((history.foldl (fun k c => (Spec.call E srt k c).2) k).pdf E srt (some (.rows (Spec.rowsOf pts)))
          .none (Spec.paramList ps) false).1 = .ok (.rows (Spec.rowsOf pts), ⟨[pts.length], pts.map G⟩)) ∧
      ∀ y, G y = ∫ z, F (Spec.merge ps y z) := by
  have hd0 : 0 < d := by
    obtain ⟨i, _⟩ := List.exists_mem_of_ne_nil ps hne
    exact Nat.lt_of_le_of_lt (Nat.zero_le _) i.2
  have hA := hM.submatrix (List.nodup_iff_injective_get.mp hps)
  set M := Spec.kernelMatrix k.covariance k.bandwidth with hMdef
  set e := splitEquiv ps hps
  have hMe : (M.submatrix e e).PosDef := hM.submatrix e.injective
  have hblock : (M.submatrix e e).toBlocks₁₁ = M.submatrix ps.get ps.get := rfl
  have hcard : (Fintype.card {i // i ∉ ps} : ℝ) = d - ps.length := by
    have := Fintype.card_congr e
    rw [Fintype.card_sum, Fintype.card_fin, Fintype.card_fin] at this
    have h2 : (ps.length : ℝ) + (Fintype.card {i // i ∉ ps} : ℝ) = d := by exact_mod_cast this
    linarith
  have hdist : ∀ u, Spec.dist2 M u = (u ∘ e) ⬝ᵥ (M.submatrix e e)⁻¹ *ᵥ (u ∘ e) := by
    intro u
    rw [inv_submatrix_equiv, submatrix_mulVec_equiv, comp_equiv_dotProduct_comp_equiv]
    simp [Spec.dist2, Function.comp_assoc]
  have hint : ∀ (y : Fin ps.length → ℝ) (p : Fin d → ℝ),
      ∫ z, Spec.shape .gaussian (Spec.dist2 M (Spec.merge ps y z - p))
        = Spec.shape .gaussian (Spec.dist2 (M.submatrix ps.get ps.get) (y - Spec.project ps p)) *
          (Real.sqrt M.det / Real.sqrt (M.submatrix ps.get ps.get).det) *
          (2 * Real.pi) ^ (((d : ℝ) - ps.length) / 2) := by
    intro y p
    have := gauss_marginal hMe (y - Spec.project ps p) (fun i : {i // i ∉ ps} => p i)
    rw [hblock, det_submatrix_equiv_self, hcard] at this
    rw [Spec.shape, Spec.dist2, ← this]
    refine integral_congr_ae (Filter.Eventually.of_forall fun z => ?_)
    simp only [Spec.shape, hdist, merge_split hps, e]
  have hI : ∀ (y : Fin ps.length → ℝ) (p : Fin d → ℝ),
      Integrable fun z => Spec.shape .gaussian (Spec.dist2 M (Spec.merge ps y z - p)) := by
    intro y p
    by_contra hn
    have h1 := hint y p
    rw [integral_undef hn] at h1
    have : 0 < Spec.shape .gaussian (Spec.dist2 (M.submatrix ps.get ps.get) (y - Spec.project ps p)) *
          (Real.sqrt M.det / Real.sqrt (M.submatrix ps.get ps.get).det) *
          (2 * Real.pi) ^ (((d : ℝ) - ps.length) / 2) := by
      have := Real.sqrt_pos.mpr hM.det_pos
      have := Real.sqrt_pos.mpr hA.det_pos
      have := Real.pi_pos
      simp only [Spec.shape]
      positivity
    linarith
  refine ⟨fun x => Spec.kernelSum k.kernel.dist M (Spec.weighted a.dataset k.weights) x
          / (Real.sqrt M.det * k.kernel.dist.norm d) / ((Spec.weighted a.dataset k.weights).map Prod.snd).sum,
    fun y => Spec.kernelSum k.kernel.dist (M.submatrix ps.get ps.get)
            (Spec.weighted (a.dataset.map (Spec.project ps)) k.weights) y
          / (Real.sqrt (M.submatrix ps.get ps.get).det * k.kernel.dist.norm ps.length)
          / ((Spec.weighted a.dataset k.weights).map Prod.snd).sum,
    fun history pts => ?_, fun history pts => C10_params_density h srt hd hr ps hne hA history pts, ?_⟩
  · have hist := C14_history E srt h history (.pdf (some (.rows (Spec.rowsOf pts))) .none .none false)
    rw [Spec.call, Spec.call, Spec.Outcome.values.injEq] at hist
    rw [hist]
    exact (C02_kde_density h srt hd0 hr hM pts).2
  · intro y
    obtain ⟨_, h2⟩ := integral_listSum (Spec.weighted a.dataset k.weights)
      (fun q z => q.2 * Spec.shape .gaussian (Spec.dist2 M (Spec.merge ps y z - q.1)))
      fun q _ => (hI y q.1).const_mul q.2
    simp only [hD, Spec.kernelSum]
    rw [integral_div, integral_div, h2]
    simp only [integral_const_mul, hint]
    have hwm : Spec.weighted (a.dataset.map (Spec.project ps)) k.weights
        = (Spec.weighted a.dataset k.weights).map fun q => (Spec.project ps q.1, q.2) := weighted_map _ _ _
    rw [hwm, List.map_map]
    congr 1
    have h1 := (Real.sqrt_pos.mpr hM.det_pos).ne'
    have h3 := (Real.sqrt_pos.mpr hA.det_pos).ne'
    have hpi : (0:ℝ) < 2 * Real.pi := by positivity
    have hpow : (2 * Real.pi) ^ ((d : ℝ) / 2) = (2 * Real.pi) ^ ((ps.length : ℝ) / 2) *
        (2 * Real.pi) ^ (((d : ℝ) - ps.length) / 2) := by
      rw [← Real.rpow_add hpi]
      congr 1
      ring
    have h4 := (Real.rpow_pos_of_pos hpi ((ps.length : ℝ) / 2)).ne'
    have h5 := (Real.rpow_pos_of_pos hpi (((d : ℝ) - ps.length) / 2)).ne'
    simp only [Dist.norm, hpow, Function.comp_def, ← mul_assoc]
    rw [List.sum_map_mul_right, List.sum_map_mul_right]
    field_simp

/-- Concrete case of the hypotheses: a correlated Gaussian kernel in three dimensions, two of them selected. -/
example : ∃ (E : Ext) (a : KDEArgs 3) (k : KDE 3), KDE.init E a = .ok k ∧ a.reflect = .none ∧
    (Spec.kernelMatrix k.covariance k.bandwidth).PosDef ∧ k.kernel.dist = .gaussian ∧
    ([2, 0] : List (Fin 3)) ≠ [] ∧ ([2, 0] : List (Fin 3)).Nodup := by
  obtain ⟨dat, h1, h2⟩ := dataExtrema_spec (data := [![0, 1, 0], ![2, 5, 1]]) (by simp)
  have hk := init_of_stages (E := ⟨fun A => A, id⟩)
    (a := { dataset := [![0, 1, 0], ![2, 5, 1]]
            bandwidth := .val (.num 1)
            covariance := some 1 })
    (reflect := none) (weights := none) (cov := 1) rfl (by simp) rfl rfl rfl rfl rfl
    (by rw [kernelOut, if_neg (by simp [Dist.finite]), if_pos (by simp [effNum])])
    (by rw [effExtrema, if_pos (by simp [Kernel.init, rescaleBw]), h1]) rfl
  refine ⟨_, _, _, hk, rfl, ?_, rfl, by simp, by decide⟩
  have : Spec.kernelMatrix (1 : Matrix (Fin 3) (Fin 3) ℝ) (rescaleBw (Matrix.of fun i j =>
      if false = true ∧ i ≠ j then 0 else (1:ℝ)) .none) = 1 := by
    ext i j
    simp [Spec.kernelMatrix, rescaleBw]
  exact Eq.subst (motive := fun M => M.PosDef) this.symm PosDef.one

/-- **C10 is false of the code** for the box kernel: one datum at the origin of the plane.  With `params=[0]` the value
at 1 is `1/2`, but the disc above 1 is a single point. -/
theorem C10_refuted : ¬ C10_Claim := by
  intro hC
  obtain ⟨k, hk, hw, hD, hM⟩ := unit_init ⟨fun A => A, id⟩ ([![0, 0]] : List (Fin 2 → ℝ)) (by simp) [1]
    ⟨rfl, by simp, 1, by simp, by norm_num⟩ .box rfl
  have hpd : (Spec.kernelMatrix k.covariance k.bandwidth).PosDef := by rw [hM]; exact PosDef.one
  have hsub : (1 : Matrix (Fin 2) (Fin 2) ℝ).submatrix ([0] : List (Fin 2)).get ([0] : List (Fin 2)).get = 1 := by
    ext i j
    fin_cases i; fin_cases j
    simp
  obtain ⟨F, G, hF, hG, hint⟩ := hC 2 _ (fun l => List.range l.length) _ k hk (by norm_num) rfl hpd [0] (by simp) (by simp)
  have hG1 : G ![1] = 1 / 2 := by
    have e1 := hG [![1]]
    have e2 := C10_params_density hk (fun l => List.range l.length) (by norm_num) rfl [0] (by simp)
      (by rw [hM, hsub]; exact PosDef.one) [] [![1]]
    simp only [List.foldl_nil] at e2
    rw [e1, hM, hsub, hw, hD] at e2
    simp only [Spec.kernelSum, Spec.weighted, List.map_cons, List.map_nil, List.zip_cons_cons, List.zip_nil_left, List.sum_cons,
      List.sum_nil, add_zero, det_one, Real.sqrt_one, one_mul, div_one] at e2
    have hn : Dist.norm .box ([0] : List (Fin 2)).length = 2 := nballVol_one
    have hs : Spec.shape .box (Spec.dist2 (1 : Matrix (Fin ([0] : List (Fin 2)).length) _ ℝ)
        (![1] - Spec.project [0] ![0, 0])) = 1 := by
      rw [Spec.shape, if_pos]
      rw [Spec.dist2, inv_one, one_mulVec]
      change (∑ i : Fin 1, _) ≤ (1:ℝ)
      rw [Fin.sum_univ_one]
      simp [Spec.project]
    rw [hn, hs] at e2
    simpa using e2
  have hF0 : ∀ z : {i : Fin 2 // i ∉ [0]} → ℝ, z ⟨1, by simp⟩ ≠ 0 → F (Spec.merge [0] ![1] z) = 0 := by
    intro z hz
    have e1 := hF [Spec.merge [0] ![1] z]
    have e2 := (C02_kde_density hk (fun l => List.range l.length) (by norm_num) rfl hpd [Spec.merge [0] ![1] z]).2
    rw [e1, hM, hw, hD] at e2
    have hs : Spec.shape .box (Spec.dist2 (1 : Matrix (Fin 2) (Fin 2) ℝ) (Spec.merge [0] ![1] z - ![0, 0])) = 0 := by
      rw [Spec.shape, if_neg]
      rw [box_dist2_one]
      have h0 : (Spec.merge [0] ![1] z - ![0, 0] : Fin 2 → ℝ) 0 = 1 := by simp [Spec.merge]
      have h1 : (Spec.merge [0] ![1] z - ![0, 0] : Fin 2 → ℝ) 1 = z ⟨1, by simp⟩ := by simp [Spec.merge]
      rw [h0, h1]
      have := sq_pos_of_ne_zero hz
      linarith
    simp only [Spec.kernelSum, Spec.weighted, List.map_cons, List.map_nil, List.zip_cons_cons, List.zip_nil_left, hs] at e2
    simpa using e2
  have hi := hint ![1]
  rw [hG1, integral_eq_zero_of_ae] at hi
  · norm_num at hi
  · have := Measure.ae_eval_ne (fun _ : {i : Fin 2 // i ∉ [0]} => (volume : Measure ℝ)) ⟨1, by simp⟩ 0
    rw [volume_pi]
    filter_upwards [this] with z hz
    exact hF0 z hz

end Kalepy
