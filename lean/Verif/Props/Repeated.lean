import Verif.Props.Regularity

/-!
# C134: integer weights and repeated data
-/

namespace Kalepy

open Matrix

variable {d : ℕ}

/-! ## Specification -/

/-- Specification: every point, as many times as its number says. -/
def Spec.repeated (p : List ((Fin d → ℝ) × ℕ)) : List (Fin d → ℝ) :=
  p.flatMap fun q => List.replicate q.2 q.1

/-- Specification: `a` gives the numbers of `p` as weights, and `a'` repeats the points of `p`. -/
def Spec.SameData (p : List ((Fin d → ℝ) × ℕ)) (a a' : KDEArgs d) : Prop :=
  a.dataset = p.map Prod.fst ∧ a.weights = .arr (p.map fun q => Flt.fin q.2) ∧
  a'.dataset = Spec.repeated p ∧ a'.weights = .none

/-- Specification: the sum of the numbers. -/
def Spec.total (p : List ((Fin d → ℝ) × ℕ)) : ℕ := (p.map Prod.snd).sum

/-- Specification: the sum of the squares of the numbers. -/
def Spec.totalSq (p : List ((Fin d → ℝ) × ℕ)) : ℕ := (p.map fun q => q.2 ^ 2).sum

/-- **C134**, as users would expect it: integer weights mean the same as repeated points. -/
def C134_Claim : Prop :=
  ∀ (d : ℕ) (E : Ext) (srt : List ℝ → List ℕ) (p : List ((Fin d → ℝ) × ℕ)) (a a' : KDEArgs d) (k k' : KDE d),
    0 < d → Spec.SameData p a a' → a' = { a with dataset := a'.dataset, weights := .none } →
    a.reflect = .none → a.covariance = none →
    KDE.init E a = .ok k → KDE.init E a' = .ok k' →
    (Spec.kernelMatrix k.covariance k.bandwidth).PosDef → (Spec.kernelMatrix k'.covariance k'.bandwidth).PosDef →
    ∃ F, Spec.Reports E srt k F ∧ Spec.Reports E srt k' F

/-! ## Sums -/

lemma repeated_sum (p : List ((Fin d → ℝ) × ℕ)) (g : (Fin d → ℝ) → ℝ) :
    ((Spec.repeated p).map g).sum = (p.map fun q => (q.2 : ℝ) * g q.1).sum := by
  induction p with
  | nil => rfl
  | cons q p ih =>
    rw [Spec.repeated, List.flatMap_cons, List.map_append, List.sum_append, List.map_cons, List.sum_cons, ← ih]
    simp [Spec.repeated]

lemma repeated_weighted (p : List ((Fin d → ℝ) × ℕ)) (g : (Fin d → ℝ) → ℝ) :
    ((Spec.weighted (Spec.repeated p) none).map fun q => q.2 * g q.1).sum = (p.map fun q => (q.2 : ℝ) * g q.1).sum := by
  rw [← repeated_sum]
  simp [Spec.weighted, Function.comp_def]

lemma counts_weighted (p : List ((Fin d → ℝ) × ℕ)) :
    Spec.weighted (p.map Prod.fst) (some (p.map fun q => (q.2 : ℝ))) = p.map fun q => (q.1, (q.2 : ℝ)) := by
  simp only [Spec.weighted]
  induction p with
  | nil => rfl
  | cons q p ih => simp only [List.map_cons, List.zip_cons_cons, ih]

lemma total_cast (p : List ((Fin d → ℝ) × ℕ)) : (Spec.total p : ℝ) = (p.map fun q => (q.2 : ℝ)).sum := by
  induction p with
  | nil => simp [Spec.total]
  | cons q p ih =>
    simp only [Spec.total, List.map_cons, List.sum_cons, Nat.cast_add] at ih ⊢
    rw [ih]

lemma totalSq_cast (p : List ((Fin d → ℝ) × ℕ)) : (Spec.totalSq p : ℝ) = (p.map fun q => (q.2 : ℝ) ^ 2).sum := by
  induction p with
  | nil => simp [Spec.totalSq]
  | cons q p ih =>
    simp only [Spec.totalSq, List.map_cons, List.sum_cons, Nat.cast_add, Nat.cast_pow] at ih ⊢
    rw [ih]

lemma repeated_length (p : List ((Fin d → ℝ) × ℕ)) : ((Spec.repeated p).length : ℝ) = Spec.total p := by
  have := repeated_sum p fun _ => 1
  rw [total_cast]
  simpa using this

lemma repeated_snd (p : List ((Fin d → ℝ) × ℕ)) :
    ((Spec.weighted (Spec.repeated p) none).map Prod.snd).sum = Spec.total p := by
  rw [total_cast]
  simpa using repeated_weighted p fun _ => 1

lemma counts_snd (p : List ((Fin d → ℝ) × ℕ)) :
    ((p.map fun q => (q.1, (q.2 : ℝ))).map Prod.snd).sum = Spec.total p := by
  rw [total_cast]
  simp [Function.comp_def]

/-- The stored weights. -/
lemma same_weights {E : Ext} {p : List ((Fin d → ℝ) × ℕ)} {a a' : KDEArgs d} {k k' : KDE d}
    (hs : Spec.SameData p a a') (h : KDE.init E a = .ok k) (h' : KDE.init E a' = .ok k') :
    k.weights = some (p.map fun q => (q.2 : ℝ)) ∧ k'.weights = none := by
  obtain ⟨-, hw, -, hw'⟩ := hs
  constructor
  · rcases (C16_weights h).2 with ⟨h1, -⟩ | ⟨l, h1, h2, -⟩
    · rw [hw] at h1; cases h1
    · rw [hw] at h1
      injection h1 with h1
      rw [h2]
      congr 1
      have := congrArg (List.map Flt.val) h1
      simpa [Function.comp_def, Flt.val] using this.symm
  · rcases (C16_weights h').2 with ⟨-, h2⟩ | ⟨l, h1, -⟩
    · exact h2
    · rw [hw'] at h1; cases h1

lemma same_weighted {E : Ext} {p : List ((Fin d → ℝ) × ℕ)} {a a' : KDEArgs d} {k k' : KDE d}
    (hs : Spec.SameData p a a') (h : KDE.init E a = .ok k) (h' : KDE.init E a' = .ok k') :
    Spec.weighted a.dataset k.weights = p.map (fun q => (q.1, (q.2 : ℝ))) ∧
    Spec.weighted a'.dataset k'.weights = Spec.weighted (Spec.repeated p) none := by
  obtain ⟨h1, h2⟩ := same_weights hs h h'
  rw [h1, h2, hs.1, hs.2.2.1, counts_weighted]
  exact ⟨rfl, rfl⟩

/-! ## Theorems -/

/-- **C134**, the part that holds: with the same covariance, bandwidth and kernel, integer weights mean the same as
repeated points. Missing: the covariance and the automatic bandwidths are not the same, see `C134_covariance` and
`C134_neff`. -/
theorem C134_partial {E : Ext} {p : List ((Fin d → ℝ) × ℕ)} {a a' : KDEArgs d} {k k' : KDE d} (hd : 0 < d)
    (hs : Spec.SameData p a a') (hr : a.reflect = .none) (hr' : a'.reflect = .none) (srt : List ℝ → List ℕ)
    (h : KDE.init E a = .ok k) (h' : KDE.init E a' = .ok k')
    (hM : (Spec.kernelMatrix k.covariance k.bandwidth).PosDef)
    (hK : Spec.kernelMatrix k'.covariance k'.bandwidth = Spec.kernelMatrix k.covariance k.bandwidth)
    (hD : k'.kernel.dist = k.kernel.dist) :
    ∃ F, Spec.Reports E srt k F ∧ Spec.Reports E srt k' F := by
  refine ⟨_, reports_average h srt hd hr hM, ?_⟩
  have := reports_average h' srt hd hr' (hK ▸ hM)
  rw [hK, hD] at this
  convert this using 3 with x
  · rw [(same_weighted hs h h').1, (same_weighted hs h h').2, repeated_weighted p fun y =>
      Spec.kernelAt k.kernel.dist (Spec.kernelMatrix k.covariance k.bandwidth) (x - y), List.map_map]
    rfl
  · rw [(same_weighted hs h h').1, (same_weighted hs h h').2, repeated_snd, counts_snd]

/-- The matrix of the repeated points, of that of the weighted ones. -/
lemma sampleCov_repeated (p : List ((Fin d → ℝ) × ℕ)) (h1 : (1 : ℝ) < Spec.total p)
    (h2 : (Spec.total p : ℝ) - Spec.totalSq p / Spec.total p ≠ 0) :
    Spec.sampleCov (Spec.weighted (Spec.repeated p) none) =
      (((Spec.total p : ℝ) - Spec.totalSq p / Spec.total p) / (Spec.total p - 1)) •
        Spec.sampleCov (p.map fun q => (q.1, (q.2 : ℝ))) := by
  have hm : Spec.mean (Spec.weighted (Spec.repeated p) none) = Spec.mean (p.map fun q => (q.1, (q.2 : ℝ))) := by
    funext i
    rw [Spec.mean, Spec.mean, repeated_snd, counts_snd, repeated_weighted p fun y => y i, List.map_map]
    rfl
  ext i j
  simp only [Spec.sampleCov, Matrix.smul_apply, Matrix.of_apply, hm, repeated_snd, counts_snd, smul_eq_mul]
  set m := Spec.mean (p.map fun q => (q.1, (q.2 : ℝ)))
  have e1 := repeated_weighted p fun y => (y i - m i) * (y j - m j)
  have e2 : ((Spec.weighted (Spec.repeated p) none).map fun q => q.2 ^ 2).sum = (Spec.total p : ℝ) := by
    rw [← repeated_length]
    simp [Spec.weighted, Function.comp_def]
  have e3 : ((p.map fun q => (q.1, (q.2 : ℝ))).map fun q => q.2 ^ 2).sum = (Spec.totalSq p : ℝ) := by
    rw [totalSq_cast, List.map_map]
    rfl
  simp only [mul_assoc]
  rw [e1, e2, e3, List.map_map, div_self (by positivity), div_mul_div_comm, mul_comm (_ - _) (List.sum _),
    mul_div_mul_right _ _ h2]
  rfl

/-- **C134.** The automatic covariance of repeated points is that of the points with integer weights times
`(M - S / M) / (M - 1)`, with the sum `M` and the sum of squares `S` of the weights. -/
theorem C134_covariance {E : Ext} {p : List ((Fin d → ℝ) × ℕ)} {a a' : KDEArgs d} {k k' : KDE d}
    (hs : Spec.SameData p a a') (h : KDE.init E a = .ok k) (h' : KDE.init E a' = .ok k') (hc : a.covariance = none)
    (hc' : a'.covariance = none) :
    k'.covariance = (((Spec.total p : ℝ) - Spec.totalSq p / Spec.total p) / (Spec.total p - 1)) • k.covariance := by
  obtain ⟨w1, w2⟩ := same_weights hs h h'
  obtain ⟨f1, c1⟩ := covariance_eq h hc
  obtain ⟨f2, c2⟩ := covariance_eq h' hc'
  rw [c1, c2, (same_weighted hs h h').1, (same_weighted hs h h').2]
  refine sampleCov_repeated p ?_ ?_
  · rw [w2, hs.2.2.1, covFact, repeated_length] at f2
    linarith
  · rw [w1, covFact, ← total_cast, List.map_map] at f1
    rw [totalSq_cast]
    exact f1.ne'

/-- **C134.** The effective number of points, which sets the automatic bandwidths, is `M² / S` for integer weights, and
`M` for repeated points. -/
theorem C134_neff {E : Ext} {p : List ((Fin d → ℝ) × ℕ)} {a a' : KDEArgs d} {k k' : KDE d}
    (hs : Spec.SameData p a a') (h : KDE.init E a = .ok k) (h' : KDE.init E a' = .ok k') (hn : a.neff = none)
    (hn' : a'.neff = none) :
    k.neff = (Spec.total p : ℝ) ^ 2 / Spec.totalSq p ∧ k'.neff = Spec.total p := by
  obtain ⟨w1, w2⟩ := same_weights hs h h'
  constructor
  · obtain ⟨_, w, _, _, _, _, _, _, _, _, _, _, _, _, _, _, _, _, rfl⟩ := init_inv h
    simp only at w1 ⊢
    rw [w1, hn, effNum, total_cast, totalSq_cast, List.map_map]
    rfl
  · obtain ⟨_, w, _, _, _, _, _, _, _, _, _, _, _, _, _, _, _, _, rfl⟩ := init_inv h'
    simp only at w2 ⊢
    rw [w2, hn', effNum, hs.2.2.1, repeated_length]

/-- Two points of weight 2. -/
def twoPoints : List ((Fin 1 → ℝ) × ℕ) := [(![0], 2), (![1], 2)]

lemma kernelMatrix_one {C : Matrix (Fin 1) (Fin 1) ℝ} {c : ℝ} (h : C 0 0 = c) (hc : 0 < c) :
    Spec.kernelMatrix C (Matrix.of fun _ _ => (1 : ℝ)) = Matrix.diagonal (fun _ : Fin 1 => c) ∧
    (Spec.kernelMatrix C (Matrix.of fun _ _ => (1 : ℝ))).PosDef := by
  have e : Spec.kernelMatrix C (Matrix.of fun _ _ => (1 : ℝ)) = Matrix.diagonal (fun _ : Fin 1 => c) := by
    ext i j
    have hi : i = 0 := Subsingleton.elim _ _
    have hj : j = 0 := Subsingleton.elim _ _
    subst hi hj
    simp [Spec.kernelMatrix, h]
  exact ⟨e, by rw [e]; exact PosDef.diagonal fun _ => hc⟩

lemma dist2_one {c : ℝ} (u : Fin 1 → ℝ) :
    Spec.dist2 (Matrix.diagonal fun _ : Fin 1 => c) u = u 0 ^ 2 / c := by
  simp [Spec.dist2, dotProduct, Matrix.mulVec_diagonal, Ring.inverse_eq_inv']
  ring

lemma init_box_one {E : Ext} {a : KDEArgs d} {k : KDE d} (h : KDE.init E a = .ok k) (hk : a.kernel = .cls .box)
    (hb : a.bandwidth = .val (.num 1)) (hr : a.rescale = .none) (hg : a.diagonal = false) :
    k.kernel.dist = .box ∧ k.bandwidth = Matrix.of fun _ _ => (1 : ℝ) := by
  obtain ⟨_, _, _, _, D, _, _, _, _, _, _, _, hbw, hD, _, _, _, _, rfl⟩ := init_inv h
  rw [hk] at hD
  rw [hb, hg] at hbw
  simp only [getDistribution] at hD
  cases hD
  simp only [bwMatrix, computeBw, Except.map] at hbw
  simp only [hr, rescaleBw]
  refine ⟨rfl, ?_⟩
  rw [← Except.ok.inj hbw]
  ext i j
  simp

lemma twoPoints_init (E : Ext) :
    ∃ (a a' : KDEArgs 1) (k k' : KDE 1), Spec.SameData twoPoints a a' ∧
      a' = { a with dataset := a'.dataset, weights := .none } ∧ a.reflect = .none ∧ a.covariance = none ∧ a.neff = none ∧
      KDE.init E a = .ok k ∧ KDE.init E a' = .ok k' ∧ k.kernel.dist = .box ∧ k'.kernel.dist = .box ∧
      k.bandwidth = (Matrix.of fun _ _ => (1 : ℝ)) ∧ k'.bandwidth = (Matrix.of fun _ _ => (1 : ℝ)) := by
  obtain ⟨k, hk, -⟩ := auto_init E (twoPoints.map Prod.fst) (by simp [twoPoints])
    (some (twoPoints.map fun q => (q.2 : ℝ)))
    (by rintro l h; cases h; exact ⟨by simp, by simp [twoPoints], 2, by simp [twoPoints], by norm_num⟩)
    (by norm_num [covFact, twoPoints]) .box rfl 1
  obtain ⟨k', hk', -⟩ := auto_init E (Spec.repeated twoPoints) (by simp [Spec.repeated, twoPoints, List.replicate]) none
    (by simp) (by norm_num [covFact, Spec.repeated, twoPoints, List.replicate]) .box rfl 1
  obtain ⟨d1, b1⟩ := init_box_one hk rfl rfl rfl rfl
  obtain ⟨d2, b2⟩ := init_box_one hk' rfl rfl rfl rfl
  exact ⟨_, _, k, k', ⟨rfl, by simp [Function.comp_def], rfl, rfl⟩, rfl, rfl, rfl, rfl, hk, hk', d1, d2, b1, b2⟩

/-- The covariances of the concrete case: 1/2 and 1/3. -/
lemma twoPoints_cov {E : Ext} {a a' : KDEArgs 1} {k k' : KDE 1} (hs : Spec.SameData twoPoints a a')
    (h : KDE.init E a = .ok k) (h' : KDE.init E a' = .ok k') (hc : a.covariance = none) (hc' : a'.covariance = none) :
    k.covariance 0 0 = 1 / 2 ∧ k'.covariance 0 0 = 1 / 3 := by
  have e : k.covariance 0 0 = 1 / 2 := by
    rw [(covariance_eq h hc).2, (same_weighted hs h h').1]
    norm_num [Spec.sampleCov, Spec.mean, twoPoints]
  refine ⟨e, ?_⟩
  rw [C134_covariance hs h h' hc hc', Matrix.smul_apply, e]
  norm_num [Spec.total, Spec.totalSq, twoPoints]

/-- **C134** fails: two points of weight 2 each give a wider pdf than the same points, twice each. -/
theorem C134_refuted : ¬ C134_Claim := by
  intro hC
  obtain ⟨a, a', k, k', hs, ha, hr, hc, -, h, h', d1, d2, b1, b2⟩ := twoPoints_init ⟨fun A => A, id⟩
  have hc' : a'.covariance = none := by rw [ha]; exact hc
  have hr' : a'.reflect = .none := by rw [ha]; exact hr
  obtain ⟨c1, c2⟩ := twoPoints_cov hs h h' hc hc'
  obtain ⟨m1, p1⟩ := kernelMatrix_one c1 (by norm_num)
  obtain ⟨m2, p2⟩ := kernelMatrix_one c2 (by norm_num)
  rw [← b1] at m1 p1
  rw [← b2] at m2 p2
  obtain ⟨F, hF, hF'⟩ := hC 1 _ (fun _ => []) twoPoints a a' k k' one_pos hs ha hr hc h h' p1 p2
  have e1 := reports_unique hF (reports_average h _ one_pos hr p1)
  have e2 := reports_unique hF' (reports_average h' _ one_pos hr' p2)
  rw [(same_weighted hs h h').1, counts_snd] at e1
  rw [(same_weighted hs h h').2, repeated_snd] at e2
  have n1 := congrFun e1 ![-3 / 5]
  have n2 := congrFun e2 ![-3 / 5]
  rw [repeated_weighted twoPoints fun y => Spec.kernelAt k'.kernel.dist
    (Spec.kernelMatrix k'.covariance k'.bandwidth) (![-3 / 5] - y)] at n2
  have z0 : Spec.kernelAt Dist.box (Spec.kernelMatrix k'.covariance k'.bandwidth) (![-3 / 5] - ![0]) = 0 := by
    rw [Spec.kernelAt, m2, dist2_one]
    norm_num [Spec.shape]
  have z1 : Spec.kernelAt Dist.box (Spec.kernelMatrix k'.covariance k'.bandwidth) (![-3 / 5] - ![1]) = 0 := by
    rw [Spec.kernelAt, m2, dist2_one]
    norm_num [Spec.shape]
  have y0 : 0 < Spec.kernelAt Dist.box (Spec.kernelMatrix k.covariance k.bandwidth) (![-3 / 5] - ![0]) := by
    have : Spec.kernelAt Dist.box (Spec.kernelMatrix k.covariance k.bandwidth) (![-3 / 5] - ![0]) =
        Spec.kernelAt Dist.box (Spec.kernelMatrix k.covariance k.bandwidth) 0 := by
      rw [Spec.kernelAt, Spec.kernelAt, m1, dist2_one, dist2_one]
      norm_num [Spec.shape]
    rw [this, kernelAt_zero one_pos _ p1]
    have := mul_pos (Real.sqrt_pos.mpr p1.det_pos) (Dist.box.norm_pos 1 one_pos)
    positivity
  have y1 := (kernelAt_bounds one_pos Dist.box p1 (![-3 / 5] - ![1])).1
  rw [d1] at n1
  rw [d2] at n2
  simp only [twoPoints, List.map_cons, List.map_nil, List.sum_cons, List.sum_nil, z0, z1, Spec.total] at n1 n2
  rw [n2] at n1
  norm_num at n1
  norm_num at y0 y1
  linarith

/-- Concrete case of the hypotheses of `C134_partial`: with a given covariance and bandwidth, two points in the plane of the
weights 2 and 1 give the same pdf as the first point twice and the second once. -/
example (E : Ext) (srt : List ℝ → List ℕ) : ∃ (k k' : KDE 2) (F : (Fin 2 → ℝ) → ℝ),
    KDE.init E
      { dataset := [![0, 1], ![2, 5]]
        weights := .arr [.fin 2, .fin 1]
        kernel := .cls .box
        bandwidth := .val (.num 1)
        covariance := some 1 } = .ok k ∧
    KDE.init E
      { dataset := [![0, 1], ![0, 1], ![2, 5]]
        kernel := .cls .box
        bandwidth := .val (.num 1)
        covariance := some 1 } = .ok k' ∧ Spec.Reports E srt k F ∧ Spec.Reports E srt k' F := by
  obtain ⟨k, hk, -, hD, hM⟩ := unit_init E [![(0 : ℝ), 1], ![2, 5]] (by simp) [2, 1]
    ⟨rfl, by simp, 2, by simp, by norm_num⟩ .box rfl
  obtain ⟨k', hk', -, hD', hc', hb'⟩ := iid_init E .box (n := 3) (by norm_num)
    (fun i => ([![(0 : ℝ), 1], ![0, 1], ![2, 5]] : List (Fin 2 → ℝ)).getD i 0) (some 1)
    (by rintro c ⟨⟩; exact PosDef.one) (.val (.num 1)) 1 (by simp [bwMatrix, computeBw, Except.map])
  have hM' : Spec.kernelMatrix k'.covariance k'.bandwidth = 1 := by
    rw [hb', kernelMatrix_const, hc']
    simp
  obtain ⟨F, hF, hF'⟩ := C134_partial (p := [(![0, 1], 2), (![2, 5], 1)]) two_pos
    ⟨rfl, by simp, by simp [Spec.repeated, List.replicate], rfl⟩ rfl rfl srt hk hk' (by rw [hM]; exact PosDef.one)
    (by rw [hM, hM']) (by rw [hD, hD'])
  refine ⟨k, k', F, hk, ?_, hF, hF'⟩
  simpa using hk'

/-- Concrete case of the hypotheses of `C134_covariance` and `C134_neff`: the two points of weight 2. -/
example : ∃ (a a' : KDEArgs 1) (k k' : KDE 1), Spec.SameData twoPoints a a' ∧ KDE.init ⟨fun A => A, id⟩ a = .ok k ∧
    KDE.init ⟨fun A => A, id⟩ a' = .ok k' ∧ k.covariance 0 0 = 1 / 2 ∧ k'.covariance 0 0 = 1 / 3 ∧
    k.neff = 2 ∧ k'.neff = 4 := by
  obtain ⟨a, a', k, k', hs, ha, hr, hc, hn, h, h', -⟩ := twoPoints_init ⟨fun A => A, id⟩
  have hc' : a'.covariance = none := by rw [ha]; exact hc
  have hn' : a'.neff = none := by rw [ha]; exact hn
  obtain ⟨c1, c2⟩ := twoPoints_cov hs h h' hc hc'
  obtain ⟨n1, n2⟩ := C134_neff hs h h' hn hn'
  refine ⟨a, a', k, k', hs, h, h', c1, c2, ?_, ?_⟩
  · rw [n1]; norm_num [Spec.total, Spec.totalSq, twoPoints]
  · rw [n2]; norm_num [Spec.total, twoPoints]

end Kalepy
