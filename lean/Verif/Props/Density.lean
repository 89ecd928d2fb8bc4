import Verif.Props.Examples

/-!
# Properties C01-C05, C11, C13: `Kernel.density`
-/

namespace Kalepy

open Matrix

variable {d : ℕ}

/-! ## C01 -/

/-- **C01.** For every kernel object (whatever its caches hold), data, weights and reflection, there
is one outcome — an exception, or a function of a single point — such that every call of
`density` raises that exception or returns that function's value at each point, in order. -/
theorem C01_density_pointwise (E : Ext) (k : Kernel d) (data : List (Fin d → ℝ))
    (w : Option (List ℝ)) (refl : Option (List ReflRow)) :
    ∃ outcome : Res ((Fin d → ℝ) → ℝ), ∀ pts : List (Fin d → ℝ),
      (k.density E ⟨d, pts⟩ data w refl).1 = outcome.map fun f => pts.map f :=
  ⟨_, fun pts => densityCore_eq_plan _ _ _ pts _ _ _⟩

/-- **C01**, with `params`. -/
theorem C01_density_params_pointwise (E : Ext) (k : Kernel d) (ps : List (Fin d))
    (data : List (Fin ps.length → ℝ)) (w : Option (List ℝ)) (refl : Option (List ReflRow)) :
    ∃ outcome : Res ((Fin ps.length → ℝ) → ℝ), ∀ pts : List (Fin ps.length → ℝ),
      (k.densityParams E ps ⟨_, pts⟩ data w refl).1 = outcome.map fun f => pts.map f :=
  ⟨_, fun pts => densityCore_eq_plan _ _ _ pts _ _ _⟩

/-- **C01.** Evaluating a concatenation gives the concatenation of the results. -/
theorem C01_density_append (E : Ext) (k : Kernel d) (p q data : List (Fin d → ℝ))
    (w : Option (List ℝ)) (refl : Option (List ReflRow)) :
    (k.density E ⟨d, p ++ q⟩ data w refl).1 = (do
      let a ← (k.density E ⟨d, p⟩ data w refl).1
      let b ← (k.density E ⟨d, q⟩ data w refl).1
      return a ++ b) := by
  obtain ⟨o, ho⟩ := C01_density_pointwise E k data w refl
  rw [ho, ho, ho]
  cases o with
  | error e => rfl
  | ok f => simp [Except.map, bind, Except.bind, pure, Except.pure]

/-- **C01.** One value per point. -/
theorem C01_density_length (E : Ext) (k : Kernel d) (pts data : List (Fin d → ℝ))
    (w : Option (List ℝ)) (refl : Option (List ReflRow)) (vs : List ℝ)
    (h : (k.density E ⟨d, pts⟩ data w refl).1 = .ok vs) : vs.length = pts.length := by
  obtain ⟨o, ho⟩ := C01_density_pointwise E k data w refl
  rw [ho] at h
  cases o with
  | error e => cases h
  | ok f => cases h; simp

/-! ## C02 -/

/-- **C02.** On a freshly constructed kernel with positive definite matrix
`M = covariance * bandwidth²`, the unreflected density at each point `x` is
`Σ_j w_j K((x-d_j)ᵀ M⁻¹ (x-d_j)) / (√(det M) · norm_K(D))`. -/
theorem C02_density_eq_kernelSum (E : Ext) (D : Dist) (bw cov : Matrix (Fin d) (Fin d) ℝ)
    (helper : Bool) (chunk : ℕ) (hM : (Spec.kernelMatrix cov bw).PosDef)
    (pts data : List (Fin d → ℝ)) (w : Option (List ℝ))
    (hw : ∀ l, w = some l → l.length = data.length) :
    ((Kernel.init D bw cov helper chunk).density E ⟨d, pts⟩ data w none).1
      = .ok (pts.map fun x =>
          Spec.kernelSum D (Spec.kernelMatrix cov bw) (Spec.weighted data w) x
            / (Real.sqrt (Spec.kernelMatrix cov bw).det * D.norm d)) := by
  have hb : badWeights data w = false := by
    cases w with
    | none => rfl
    | some l => simp [badWeights, hw l rfl]
  rw [density_fresh]
  obtain ⟨W, hW, hp⟩ := corePlan_posDef E D hM (Real.sqrt |(Spec.kernelMatrix cov bw).det|) (sqrt_abs_det_ne hM) data w
    hb none (by simp)
  rw [hp, abs_of_pos hM.det_pos]
  simp only [Except.map, coreAt, Option.map_none, kval_eq_kernelSum hM hW, weighted_eq]

/-- The hypotheses of C02 are met by a correlated 2-D kernel with weighted data, and the value is
not trivially zero: the density at the first datum is positive. -/
example (E : Ext) : ∃ v : ℝ, 0 < v ∧
    ((Kernel.init .box exBw exCov).density E ⟨2, [![0, 0]]⟩ [![0, 0], ![1, 1]] (some [1, 2]) none).1
      = .ok [v] := by
  rw [C02_density_eq_kernelSum E .box exBw exCov _ _ exKernelMatrix_posDef _ _ _ (by simp)]
  refine ⟨_, ?_, rfl⟩
  apply div_pos
  · have h0 : (![0, 0] : Fin 2 → ℝ) - ![0, 0] = 0 := by simp
    simp only [Spec.kernelSum, Spec.weighted, List.zip_cons_cons, List.map_cons, List.sum_cons, h0]
    have : Spec.shape .box (Spec.dist2 (Spec.kernelMatrix exCov exBw) 0) = 1 := by
      simp [Spec.shape, Spec.dist2]
    rw [this]
    have : 0 ≤ Spec.shape .box (Spec.dist2 (Spec.kernelMatrix exCov exBw) (![0, 0] - ![1, 1])) := by
      simp only [Spec.shape]; split_ifs <;> norm_num
    simp only [mul_one, List.zip_nil_right, List.map_nil, List.sum_nil, add_zero]
    linarith
  · exact mul_pos (Real.sqrt_pos.mpr exKernelMatrix_posDef.det_pos) (Dist.norm_pos _ _ (by norm_num))

/-! ## C03 -/

lemma badWeights_some_false {α : Type*} {data : List α} {w : List ℝ}
    (h : w.length = data.length) : badWeights data (some w) = false := by simp [badWeights, h]

/-- **C03.** Reordering data together with their weights changes nothing, for any reflection and
any state of the kernel caches. -/
theorem C03_density_perm (E : Ext) (k : Kernel d) (pts data data' : List (Fin d → ℝ))
    (w w' : List ℝ) (hw : w.length = data.length) (hw' : w'.length = data'.length)
    (hperm : (data.zip w).Perm (data'.zip w')) (refl : Option (List ReflRow)) :
    (k.density E ⟨d, pts⟩ data (some w) refl).1 = (k.density E ⟨d, pts⟩ data' (some w') refl).1 := by
  rw [density_eq_env E k data _ (badWeights_some_false hw),
    density_eq_env E k data' _ (badWeights_some_false hw')]
  congr 1
  funext e
  refine List.map_congr_left fun x _ => ?_
  congr 1
  refine (reflAt_rel (n := 1) (fun a x => a 0 = x) rfl (by
    intro a b x y h1 h2; simp [h1, h2]) e.1 k.dist.eval (fun _ => data) (fun _ => w) data' w' ?_ e.2 x)
  intro f x
  apply kval_perm
  have h1 := hperm.map (Prod.map f id)
  rwa [List.zip_map_left, List.zip_map_left]

/-- **C03** for unweighted data. -/
theorem C03_density_perm_unweighted (E : Ext) (k : Kernel d) (pts data data' : List (Fin d → ℝ))
    (hperm : data.Perm data') (refl : Option (List ReflRow)) :
    (k.density E ⟨d, pts⟩ data none refl).1 = (k.density E ⟨d, pts⟩ data' none refl).1 := by
  have key : ∀ l : List (Fin d → ℝ), (k.density E ⟨d, pts⟩ l none refl).1
      = (k.density E ⟨d, pts⟩ l (some (List.replicate l.length 1)) refl).1 := by
    intro l
    rw [density_eq_env E k l none rfl, density_eq_env E k l _ (badWeights_some_false (by simp))]
    rfl
  rw [key, key]
  apply C03_density_perm _ _ _ _ _ _ _ (by simp) (by simp)
  rw [show data.zip (List.replicate data.length 1) = Spec.weighted data none from
      (weighted_eq data none).symm,
    show data'.zip (List.replicate data'.length 1) = Spec.weighted data' none from
      (weighted_eq data' none).symm]
  exact hperm.map _

/-- Hypotheses of C03 are met by a genuine reordering of weighted data. -/
example : (([![0, 0], ![1, 1], ![2, 3]] : List (Fin 2 → ℝ)).zip ([1, 2, 5] : List ℝ)).Perm
    (([![2, 3], ![0, 0], ![1, 1]] : List (Fin 2 → ℝ)).zip ([5, 1, 2] : List ℝ)) := by
  exact List.perm_append_comm (l₁ := [((![0, 0] : Fin 2 → ℝ), (1:ℝ)), (![1, 1], 2)])
      (l₂ := [(![2, 3], 5)])

/-! ## C04 -/

/-- **C04.** The density of concatenated (weighted) data is the sum of the densities. -/
theorem C04_density_data_append (E : Ext) (k : Kernel d) (pts d₁ d₂ : List (Fin d → ℝ))
    (w₁ w₂ : List ℝ) (h₁ : w₁.length = d₁.length) (h₂ : w₂.length = d₂.length)
    (refl : Option (List ReflRow)) :
    (k.density E ⟨d, pts⟩ (d₁ ++ d₂) (some (w₁ ++ w₂)) refl).1 = (do
      let a ← (k.density E ⟨d, pts⟩ d₁ (some w₁) refl).1
      let b ← (k.density E ⟨d, pts⟩ d₂ (some w₂) refl).1
      return List.zipWith (· + ·) a b) := by
  rw [density_eq_env E k _ _ (badWeights_some_false (by simp [h₁, h₂])),
    density_eq_env E k _ _ (badWeights_some_false h₁),
    density_eq_env E k _ _ (badWeights_some_false h₂)]
  cases planEnv (k.matrixInv E).2.normVal.1 (k.matrixInv E).1 refl with
  | error e => rfl
  | ok e =>
    simp only [Except.map, bind, Except.bind, pure, Except.pure, zipWith_map_map]
    congr 1
    refine List.map_congr_left fun x _ => ?_
    rw [← add_div]
    congr 1
    refine (reflAt_rel (n := 2) (fun a x => x = a 0 + a 1) (by simp) (by
      intro a b x y h1 h2; simp [h1, h2]; ring) e.1 k.dist.eval ![d₁, d₂] ![w₁, w₂]
      (d₁ ++ d₂) (w₁ ++ w₂) ?_ e.2 x)
    intro f x
    simp only [List.map_append, Matrix.cons_val_zero, Matrix.cons_val_one]
    exact kval_append _ _ _ _ _ _ _ (by simp [h₁])

/-- **C04.** Multiplying all weights by `c` multiplies the density by `c`. -/
theorem C04_density_weights_smul (E : Ext) (k : Kernel d) (pts data : List (Fin d → ℝ))
    (w : List ℝ) (hw : w.length = data.length) (c : ℝ) (refl : Option (List ReflRow)) :
    (k.density E ⟨d, pts⟩ data (some (w.map (c * ·))) refl).1
      = (k.density E ⟨d, pts⟩ data (some w) refl).1.map fun vs => vs.map (c * ·) := by
  rw [density_eq_env E k _ _ (badWeights_some_false (by simp [hw])),
    density_eq_env E k _ _ (badWeights_some_false hw)]
  cases planEnv (k.matrixInv E).2.normVal.1 (k.matrixInv E).1 refl with
  | error e => rfl
  | ok e =>
    simp only [Except.map, List.map_map]
    congr 1
    refine List.map_congr_left fun x _ => ?_
    simp only [Function.comp]
    rw [← mul_div_assoc]
    congr 1
    refine (reflAt_rel (n := 1) (fun a x => x = c * a 0) (by simp) (by
      intro a b x y h1 h2; simp [h1, h2]; ring) e.1 k.dist.eval (fun _ => data) (fun _ => w)
      data (w.map (c * ·)) ?_ e.2 x)
    intro f x
    exact kval_smul _ _ _ _ _ _

/-- **C04.** A data point of weight zero, anywhere in the list, contributes nothing. -/
theorem C04_density_zero_weight (E : Ext) (k : Kernel d) (pts d₁ d₂ : List (Fin d → ℝ))
    (a : Fin d → ℝ) (w₁ w₂ : List ℝ) (h₁ : w₁.length = d₁.length) (h₂ : w₂.length = d₂.length)
    (refl : Option (List ReflRow)) :
    (k.density E ⟨d, pts⟩ (d₁ ++ a :: d₂) (some (w₁ ++ 0 :: w₂)) refl).1
      = (k.density E ⟨d, pts⟩ (d₁ ++ d₂) (some (w₁ ++ w₂)) refl).1 := by
  rw [density_eq_env E k _ _ (badWeights_some_false (by simp [h₁, h₂])),
    density_eq_env E k _ _ (badWeights_some_false (by simp [h₁, h₂]))]
  congr 1
  funext e
  refine List.map_congr_left fun x _ => ?_
  congr 1
  refine (reflAt_rel (n := 1) (fun a x => x = a 0) (by simp) (by
    intro a b x y h1 h2; simp [h1, h2]) e.1 k.dist.eval (fun _ => d₁ ++ d₂) (fun _ => w₁ ++ w₂)
    _ _ ?_ e.2 x)
  intro f x
  simp only [List.map_append, List.map_cons, usedWeights]
  rw [kval_append _ _ _ _ _ _ _ (by simp [h₁]), kval_append _ _ _ _ _ _ _ (by simp [h₁])]
  congr 1
  simp [kval]

/-- **C04.** A data point of integer weight `n` contributes the same as `n` copies of weight 1. -/
theorem C04_density_integer_weight (E : Ext) (k : Kernel d) (pts d₁ d₂ : List (Fin d → ℝ))
    (a : Fin d → ℝ) (n : ℕ) (w₁ w₂ : List ℝ) (h₁ : w₁.length = d₁.length)
    (h₂ : w₂.length = d₂.length) (refl : Option (List ReflRow)) :
    (k.density E ⟨d, pts⟩ (d₁ ++ a :: d₂) (some (w₁ ++ (n : ℝ) :: w₂)) refl).1
      = (k.density E ⟨d, pts⟩ (d₁ ++ (List.replicate n a ++ d₂))
          (some (w₁ ++ (List.replicate n 1 ++ w₂))) refl).1 := by
  rw [density_eq_env E k _ _ (badWeights_some_false (by simp [h₁, h₂])),
    density_eq_env E k _ _ (badWeights_some_false (by simp [h₁, h₂]))]
  congr 1
  funext e
  refine List.map_congr_left fun x _ => ?_
  congr 1
  refine (reflAt_rel (n := 1) (fun a x => x = a 0) (by simp) (by
    intro a b x y h1 h2; simp [h1, h2]) e.1 k.dist.eval (fun _ => d₁ ++ (List.replicate n a ++ d₂))
      (fun _ => w₁ ++ (List.replicate n 1 ++ w₂)) _ _ ?_ e.2 x)
  intro f x
  simp only [List.map_append, List.map_cons, usedWeights, List.map_replicate]
  rw [kval_append _ _ _ _ _ _ _ (by simp [h₁]), kval_append _ _ _ _ _ _ _ (by simp [h₁]),
    kval_append _ _ _ _ _ _ _ (by simp)]
  congr 1
  have : ∀ n : ℕ, kval e.1 k.dist.eval (List.replicate n (f a)) (List.replicate n 1) x
      = k.dist.eval (whitenedDist2 e.1 x (f a)) * n := by
    intro n
    simp [kval, mul_comm]
  rw [this]
  simp [kval]

/-- **C04.** Omitted weights mean weight one for every data point. -/
theorem C04_density_weights_none (E : Ext) (k : Kernel d) (pts data : List (Fin d → ℝ))
    (refl : Option (List ReflRow)) :
    (k.density E ⟨d, pts⟩ data none refl).1
      = (k.density E ⟨d, pts⟩ data (some (data.map fun _ => 1)) refl).1 := by
  rw [density_eq_env E k _ _ rfl, density_eq_env E k _ _ (badWeights_some_false (by simp))]
  simp [usedWeights, List.map_const']

/-! ## C05 -/

/-- **C05.** With nonnegative weights the density of any constructed kernel is nonnegative, with or
without reflection. -/
theorem C05_density_nonneg (E : Ext) (D : Dist) (bw cov : Matrix (Fin d) (Fin d) ℝ)
    (helper : Bool) (chunk : ℕ) (hd : 0 < d) (pts data : List (Fin d → ℝ)) (w : Option (List ℝ))
    (hw : ∀ l, w = some l → ∀ a ∈ l, 0 ≤ a) (refl : Option (List ReflRow)) (vs : List ℝ)
    (h : ((Kernel.init D bw cov helper chunk).density E ⟨d, pts⟩ data w refl).1 = .ok vs) :
    ∀ v ∈ vs, 0 ≤ v := by
  by_cases hb : badWeights data w = true
  · rw [density_fresh, corePlan, if_pos hb] at h
    cases h
  · rw [density_fresh, corePlan_eq_env _ _ _ _ _ (by simpa using hb)] at h
    cases hpe : planEnv (Real.sqrt |(Spec.kernelMatrix cov bw).det|) (matrixInvert E (Spec.kernelMatrix cov bw)) refl with
    | error e => rw [hpe] at h; cases h
    | ok e =>
      rw [hpe] at h
      simp only [Except.map] at h
      cases h
      intro v hv
      rw [List.mem_map] at hv
      obtain ⟨x, _, rfl⟩ := hv
      apply div_nonneg
      · apply coreAt_nonneg _ _ D.eval_nonneg
        cases w with
        | none => intro a ha; rw [List.eq_of_mem_replicate ha]; norm_num
        | some l => exact hw l rfl
      · exact mul_nonneg (Real.sqrt_nonneg _) (D.norm_pos d hd).le

/-! ## C11 -/

/-- The full claim of **C11**: a point strictly beyond a boundary in some dimension gets density 0.
(It is false, see `C11_refuted`.) -/
def C11_Claim : Prop :=
  ∀ (E : Ext) (d : ℕ) (k : Kernel d) (x : Fin d → ℝ) (data : List (Fin d → ℝ))
    (w : Option (List ℝ)) (refl : List ReflRow) (i : Fin d) (v : ℝ),
    (k.density E ⟨d, [x]⟩ data w (some refl)).1 = .ok [v] →
    Spec.Violates (refl.getD i none) (x i) → v = 0

lemma foldl_stepAt_zero {m : ℕ} (W : Matrix (Fin m) (Fin m) ℝ) (kf data w x)
    (refl : Fin m → ReflRow) (l : List (Fin m)) (h : ∀ j ∈ l, refl j = none) (v : ℝ) :
    l.foldl (fun v i => stepAt W kf data w x v i (refl i)) v = v := by
  induction l generalizing v with
  | nil => rfl
  | cons a l ih =>
    simp only [List.foldl_cons, h a (by simp), stepAt]
    exact ih (fun j hj => h j (by simp [hj])) v

lemma foldl_stepAt_violates {m : ℕ} (W : Matrix (Fin m) (Fin m) ℝ) (kf data w) (x : Fin m → ℝ)
    (refl : Fin m → ReflRow) (i : Fin m) (hv : Spec.Violates (refl i) (x i)) (l : List (Fin m))
    (hl : l.Pairwise (· < ·)) (hi : i ∈ l) (h : ∀ j, i < j → refl j = none) (v : ℝ) :
    l.foldl (fun v i => stepAt W kf data w x v i (refl i)) v = 0 := by
  induction l generalizing v with
  | nil => simp at hi
  | cons a l ih =>
    rw [List.pairwise_cons] at hl
    rcases List.mem_cons.mp hi with rfl | hi'
    · obtain ⟨lo, hi', hr, _⟩ := id hv
      simp only [List.foldl_cons]
      rw [hr] at hv ⊢
      simp only [stepAt, (outsideRow_iff _ _).mpr hv, if_true]
      exact foldl_stepAt_zero W kf data w x refl l (fun j hj => h j (hl.1 j hj)) 0
    · simp only [List.foldl_cons]
      exact ih hl.2 hi' _

/-- **C11, partial.** If the point violates the boundaries of dimension `i` and no later dimension
has reflecting boundaries, the density is 0.  In particular the claim holds whenever only one
dimension has boundaries.  Missing: boundaries in a later dimension, where the claim is false. -/
theorem C11_reflect_zero_outside_partial (E : Ext) (k : Kernel d) (x : Fin d → ℝ)
    (data : List (Fin d → ℝ)) (w : Option (List ℝ)) (refl : List ReflRow) (i : Fin d) (v : ℝ)
    (h : (k.density E ⟨d, [x]⟩ data w (some refl)).1 = .ok [v])
    (hx : Spec.Violates (refl.getD i none) (x i))
    (hlast : ∀ j : Fin d, i < j → refl.getD j none = none) : v = 0 := by
  by_cases hb : badWeights data w = true
  · rw [Kernel.density_fst, densityCore_eq_plan, corePlan, if_pos hb] at h
    cases h
  · rw [density_eq_env E k _ _ (by simpa using hb)] at h
    unfold planEnv at h
    cases hc : cholesky (k.matrixInv E).1 with
    | none => rw [hc] at h; cases h
    | some W =>
      rw [hc] at h
      by_cases h0 : (k.matrixInv E).2.normVal.1 = 0
      · simp only [h0, if_true] at h
        cases h
      simp only [h0, if_false] at h
      by_cases hr : refl.length = d
      · simp only [hr, dif_pos, Except.map, List.map_cons, List.map_nil, Except.ok.injEq,
          List.cons.injEq, and_true] at h
        rw [← h, coreAt, reflAt]
        have hg : ∀ j : Fin d, refl.get (Fin.cast hr.symm j) = refl.getD j none := by
          intro j
          have : (j : ℕ) < refl.length := hr.symm ▸ j.2
          simp [this]
        rw [foldl_stepAt_violates W k.dist.eval data _ x _ i (by rw [hg]; exact hx) _
          (List.pairwise_lt_finRange d) (by simp) (fun j hj => by rw [hg]; exact hlast j hj), zero_div]
      · simp only [hr, dif_neg, not_false_eq_true, Except.map] at h
        cases h

lemma box_dist2_one (u : Fin 2 → ℝ) : Spec.dist2 (1 : Matrix (Fin 2) (Fin 2) ℝ) u = u 0 ^ 2 + u 1 ^ 2 := by
  simp [Spec.dist2, dotProduct, Fin.sum_univ_two, sq]

/-- **C11 is false of the code.** In two dimensions with boundaries `[-1/2, 1/2]` and `[-1/4, 1]`,
the point `(3/4, 0)` lies outside of the first boundary but gets a positive density, because the
zeroing of the first dimension happens before the mirror images of the second one are added. -/
theorem C11_refuted : ¬ C11_Claim := by
  intro hC
  have E : Ext := ⟨fun A => A, id⟩
  have hM : (Spec.kernelMatrix (1 : Matrix (Fin 2) (Fin 2) ℝ) (Matrix.of fun _ _ => 1)) = 1 := by
    ext i j; simp [Spec.kernelMatrix]
  have hP : (1 : Matrix (Fin 2) (Fin 2) ℝ).PosDef := PosDef.one
  obtain ⟨W, hW, hplan⟩ := corePlan_posDef E .box hP (Real.sqrt |(1 : Matrix (Fin 2) (Fin 2) ℝ).det|)
    (sqrt_abs_det_ne hP) [![0, 0]] none rfl (some [some (some (-1/2), some (1/2)), some (some (-1/4), some 1)])
    (by intro r hr; cases hr; rfl)
  have hd := density_fresh E .box (Matrix.of fun _ _ => 1) (1 : Matrix (Fin 2) (Fin 2) ℝ) false 0
    [![3/4, 0]] [![0, 0]] none (some [some (some (-1/2), some (1/2)), some (some (-1/4), some 1)])
  rw [hM, hplan] at hd
  simp only [Except.map, List.map_cons, List.map_nil] at hd
  have h0 := hC E 2 _ _ _ _ _ 0 _ hd ⟨_, _, rfl, Or.inr ⟨_, rfl, by norm_num⟩⟩
  have hn : 0 < Dist.norm .box 2 := Dist.norm_pos _ _ (by norm_num)
  simp only [Matrix.det_one, abs_one, Real.sqrt_one, one_mul] at h0
  rw [div_eq_zero_iff] at h0
  rcases h0 with h0 | h0
  · have kv : ∀ (y : Fin 2 → ℝ), kval W Dist.box.eval [y] [1] ![3/4, 0]
        = if (3/4 - y 0) ^ 2 + (0 - y 1) ^ 2 ≤ 1 then (1:ℝ) else 0 := by
      intro y
      simp only [kval, List.zipWith_cons_cons, List.zipWith_nil_right, List.sum_cons, List.sum_nil,
        whitenedDist2_eq hP hW, box_dist2_one, Dist.eval, mul_one, add_zero]
      simp
    simp [coreAt, reflAt, List.finRange_succ, stepAt, addAt, outsideRow, usedWeights, kv,
      reflectCol] at h0
    norm_num [Function.update_apply] at h0
  · exact hn.ne' h0

/-! ## C13 -/

/-- **C13.** `None` rows and `[None, None]` rows leave the density unchanged. -/
theorem C13_null_reflect (E : Ext) (k : Kernel d) (pts data : List (Fin d → ℝ))
    (w : Option (List ℝ)) (refl : List ReflRow) (hlen : refl.length = d)
    (hnull : ∀ r ∈ refl, r = none ∨ r = some (none, none)) :
    (k.density E ⟨d, pts⟩ data w (some refl)).1 = (k.density E ⟨d, pts⟩ data w none).1 := by
  by_cases hb : badWeights data w = true
  · rw [Kernel.density_fst, Kernel.density_fst, densityCore_eq_plan, densityCore_eq_plan, corePlan,
      corePlan, if_pos hb, if_pos hb]
  · rw [density_eq_env E k _ _ (by simpa using hb), density_eq_env E k _ _ (by simpa using hb)]
    unfold planEnv
    cases hc : cholesky (k.matrixInv E).1 with
    | none => rfl
    | some W =>
      by_cases h0 : (k.matrixInv E).2.normVal.1 = 0
      · simp only [h0, if_true]
      simp only [h0, if_false, hlen, dif_pos, Except.map]
      congr 1
      refine List.map_congr_left fun x _ => ?_
      congr 1
      simp only [coreAt, reflAt]
      have : ∀ (l : List (Fin d)) (v : ℝ), l.foldl (fun v i => stepAt W k.dist.eval data
          (usedWeights data w) x v i (refl.get (Fin.cast hlen.symm i))) v = v := by
        intro l
        induction l with
        | nil => intro v; rfl
        | cons a l ih =>
          intro v
          rw [List.foldl_cons, ih]
          rcases hnull _ (List.get_mem refl (Fin.cast hlen.symm a)) with h | h
          · rw [h]; rfl
          · rw [h]; simp [stepAt, outsideRow, addAt]
      exact this _ _

/-- Reflection rows with boundaries only in dimension `i`. -/
def Spec.onlyDim {d : ℕ} (i : Fin d) (r : Option ℝ × Option ℝ) : List ReflRow :=
  (List.finRange d).map fun j => if j = i then some r else none

lemma reflAt_onlyDim {m : ℕ} (W : Matrix (Fin m) (Fin m) ℝ) (kf data w) (x : Fin m → ℝ)
    (i : Fin m) (r : Option ℝ × Option ℝ) :
    reflAt W kf data w (fun j => if j = i then some r else none) x
      = if outsideRow r (x i) then 0
        else kval W kf data w x + addAt W kf data w x i r.1 + addAt W kf data w x i r.2 := by
  have gen : ∀ (l : List (Fin m)), l.Nodup → ∀ v : ℝ,
      l.foldl (fun v j => stepAt W kf data w x v j (if j = i then some r else none)) v
      = if i ∈ l then stepAt W kf data w x v i (some r) else v := by
    intro l
    induction l with
    | nil => intro _ v; simp
    | cons a l ih =>
      intro hnd v
      rw [List.nodup_cons] at hnd
      rw [List.foldl_cons, ih hnd.2]
      by_cases ha : a = i
      · subst ha
        simp [hnd.1]
      · have : i ≠ a := fun h => ha h.symm
        simp [ha, this, stepAt]
  rw [reflAt, gen _ (List.nodup_finRange m)]
  simp [stepAt]

/-- **C13.** With boundaries in one dimension `i` only, the density is 0 outside of them, and inside
it is the kernel sum over the data plus, for each given boundary `b`, the kernel sum over the data
mirrored at `b`. -/
theorem C13_single_dim (E : Ext) (D : Dist) (bw cov : Matrix (Fin d) (Fin d) ℝ) (helper : Bool)
    (chunk : ℕ) (hM : (Spec.kernelMatrix cov bw).PosDef) (pts data : List (Fin d → ℝ))
    (w : Option (List ℝ)) (hw : ∀ l, w = some l → l.length = data.length) (i : Fin d)
    (lo hi : Option ℝ) [∀ x : Fin d → ℝ, Decidable (Spec.Violates (some (lo, hi)) (x i))] :
    ((Kernel.init D bw cov helper chunk).density E ⟨d, pts⟩ data w
        (some (Spec.onlyDim i (lo, hi)))).1
      = .ok (pts.map fun x =>
          if Spec.Violates (some (lo, hi)) (x i) then 0 else
          (Spec.kernelSum D (Spec.kernelMatrix cov bw) (Spec.weighted data w) x
            + ((lo.toList ++ hi.toList).map fun b =>
                Spec.kernelSum D (Spec.kernelMatrix cov bw)
                  (Spec.weighted (data.map (Spec.mirror i b)) w) x).sum)
          / (Real.sqrt (Spec.kernelMatrix cov bw).det * D.norm d)) := by
  have hb : badWeights data w = false := by
    cases w with
    | none => rfl
    | some l => simp [badWeights, hw l rfl]
  rw [density_fresh]
  obtain ⟨W, hW, hp⟩ := corePlan_posDef E D hM (Real.sqrt |(Spec.kernelMatrix cov bw).det|) (sqrt_abs_det_ne hM) data w
    hb (some (Spec.onlyDim i (lo, hi))) (by intro r hr; cases hr; simp [Spec.onlyDim])
  rw [hp, abs_of_pos hM.det_pos]
  simp only [Except.map, coreAt, Option.map_some]
  congr 1
  refine List.map_congr_left fun x _ => ?_
  have hg : (fun j : Fin d => (Spec.onlyDim i (lo, hi)).getD j none)
      = fun j => if j = i then some (lo, hi) else none := by
    funext j; simp [Spec.onlyDim]
  rw [hg, reflAt_onlyDim]
  by_cases hv : Spec.Violates (some (lo, hi)) (x i)
  · rw [if_pos ((outsideRow_iff _ _).mpr hv), if_pos hv, zero_div]
  · rw [if_neg (fun h => hv ((outsideRow_iff _ _).mp h)), if_neg hv]
    congr 1
    have hadd : ∀ o : Option ℝ, addAt W D.eval data (usedWeights data w) x i o
        = (o.toList.map fun b => Spec.kernelSum D (Spec.kernelMatrix cov bw)
            (Spec.weighted (data.map (Spec.mirror i b)) w) x).sum := by
      intro o
      cases o with
      | none => rfl
      | some b =>
        have hu : usedWeights (data.map (reflectCol i b)) w = usedWeights data w := by
          cases w <;> simp [usedWeights]
        simp [addAt, kval_eq_kernelSum hM hW, weighted_eq, mirror_eq, hu]
    rw [hadd, hadd, kval_eq_kernelSum hM hW, weighted_eq, List.map_append, List.sum_append, add_assoc]

/-- Reflecting a vector in coordinate `i` does not change the `M⁻¹` length if `M` does not couple
`i` to other coordinates. -/
lemma dist2_flip {M : Matrix (Fin d) (Fin d) ℝ} (i : Fin d)
    (hi : ∀ j, j ≠ i → M i j = 0) (hi' : ∀ j, j ≠ i → M j i = 0) (u : Fin d → ℝ) :
    Spec.dist2 M (Function.update u i (- u i)) = Spec.dist2 M u := by
  set s : Fin d → ℝ := fun j => if j = i then -1 else 1 with hs
  have hss : ∀ j, s j * s j = 1 := by intro j; simp only [hs]; split_ifs <;> norm_num
  have hR : Matrix.diagonal s * Matrix.diagonal s = 1 := by
    rw [Matrix.diagonal_mul_diagonal]; simp [hss]
  have hRi : (Matrix.diagonal s)⁻¹ = Matrix.diagonal s := Matrix.inv_eq_right_inv hR
  have hRM : Matrix.diagonal s * M * Matrix.diagonal s = M := by
    ext a b
    rw [Matrix.mul_diagonal, Matrix.diagonal_mul]
    by_cases ha : a = i <;> by_cases hb : b = i
    · simp [hs, ha, hb]
    · subst ha; simp [hs, hb, hi b hb]
    · subst hb; simp [hs, ha, hi' a ha]
    · simp [hs, ha, hb]
  have hinv : Matrix.diagonal s * M⁻¹ * Matrix.diagonal s = M⁻¹ := by
    conv_rhs => rw [← hRM, Matrix.mul_inv_rev, Matrix.mul_inv_rev, hRi, ← Matrix.mul_assoc]
  have hu : Function.update u i (- u i) = Matrix.diagonal s *ᵥ u := by
    funext j
    rw [Matrix.mulVec_diagonal, Function.update_apply]
    simp only [hs]
    split_ifs with h
    · rw [h]; ring
    · ring
  rw [Spec.dist2, hu, Matrix.mulVec_mulVec, Matrix.dotProduct_mulVec, Matrix.vecMul_mulVec,
    ← Matrix.dotProduct_mulVec, Matrix.diagonal_transpose, ← Matrix.mul_assoc, hinv]
  rfl

/-- **C13.** If the kernel matrix does not couple dimension `i` to the others (in particular in one
dimension), the kernel sum over mirrored data is the kernel sum at the mirrored point: inside a
single boundary the reflected density is `f(x) + f(mirror image of x)`. -/
theorem C13_mirrored_data_eq_mirrored_point (D : Dist) (M : Matrix (Fin d) (Fin d) ℝ) (i : Fin d)
    (hi : ∀ j, j ≠ i → M i j = 0 ∧ M j i = 0) (data : List (Fin d → ℝ)) (w : Option (List ℝ))
    (b : ℝ) (x : Fin d → ℝ) :
    Spec.kernelSum D M (Spec.weighted (data.map (Spec.mirror i b)) w) x
      = Spec.kernelSum D M (Spec.weighted data w) (Spec.mirror i b x) := by
  have hz : Spec.weighted (data.map (Spec.mirror i b)) w
      = (Spec.weighted data w).map (Prod.map (Spec.mirror i b) id) := by
    cases w with
    | none => simp [Spec.weighted]
    | some l => simp [Spec.weighted, List.zip_map_left]
  rw [hz, Spec.kernelSum, Spec.kernelSum, List.map_map]
  congr 1
  refine List.map_congr_left fun p _ => ?_
  simp only [Function.comp, Prod.map, id]
  congr 2
  rw [← dist2_flip i (fun j hj => (hi j hj).1) (fun j hj => (hi j hj).2) (x - Spec.mirror i b p.1)]
  congr 1
  funext j
  simp only [Function.update_apply, Spec.mirror, Pi.sub_apply]
  split_ifs <;> simp_all <;> ring

/-- Hypotheses of C13 are met: a 2-D kernel with correlated matrix for the first part, and a diagonal
matrix for the second. -/
example : (Spec.kernelMatrix exCov exBw).PosDef ∧
    (∀ j : Fin 2, j ≠ 0 → (Matrix.diagonal ![(2:ℝ), 3]) 0 j = 0 ∧ (Matrix.diagonal ![(2:ℝ), 3]) j 0 = 0) :=
  ⟨exKernelMatrix_posDef, fun j hj => ⟨Matrix.diagonal_apply_ne _ hj.symm, Matrix.diagonal_apply_ne _ hj⟩⟩

/-- The hypotheses of `C11_reflect_zero_outside_partial` are met by 2-D data with a boundary in the
first dimension only, a point beyond it, and a successful call. -/
example (E : Ext) : ∃ v : ℝ,
    ((Kernel.init .gaussian exBw exCov).density E ⟨2, [![-1, 0]]⟩ [![0, 0], ![1, 1]] none
      (some [some (some 0, none), none])).1 = .ok [v] ∧
    Spec.Violates (([some (some 0, none), none] : List ReflRow).getD ((0 : Fin 2) : ℕ) none)
      ((![-1, 0] : Fin 2 → ℝ) 0) ∧
    ∀ j : Fin 2, 0 < j → ([some (some 0, none), none] : List ReflRow).getD j none = none := by
  obtain ⟨W, hW, hp⟩ := corePlan_posDef E .gaussian exKernelMatrix_posDef
    (Real.sqrt |(Spec.kernelMatrix exCov exBw).det|) (sqrt_abs_det_ne exKernelMatrix_posDef) [![0, 0], ![1, 1]] none rfl
    (some [some (some 0, none), none]) (by intro r hr; cases hr; rfl)
  have hv : ∃ v : ℝ, ((Kernel.init .gaussian exBw exCov).density E ⟨2, [![-1, 0]]⟩
      [![0, 0], ![1, 1]] none (some [some (some 0, none), none])).1 = .ok [v] := by
    rw [density_fresh, hp]; exact ⟨_, rfl⟩
  obtain ⟨v, hv⟩ := hv
  refine ⟨v, hv, ⟨_, _, rfl, Or.inl ⟨0, rfl, by norm_num⟩⟩, ?_⟩
  intro j hj
  fin_cases j
  · simp at hj
  · rfl

end Kalepy
