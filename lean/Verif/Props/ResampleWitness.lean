import Verif.Props.ResampleReflect

/-!
# Resampling: finiteness at the level of the API (C31), refutations (C33), and concrete cases
-/

namespace Kalepy

open Matrix

variable {d : ℕ}

/-! ## C31: only finitely many random numbers are ever used -/

lemma listSeq_congr {α β : Type} {f g : α → Res β} {l : List α} (h : ∀ a ∈ l, f a = g a) : listSeq f l = listSeq g l := by
  induction l with
  | nil => rfl
  | cons a l ih => rw [listSeq, listSeq, h a (by simp), ih fun b hb => h b (by simp [hb])]

lemma resampleClear_congr {D : Dist} {data : List (Fin d → ℝ)} {size : ℕ} {w : Option (List ℝ)}
    {M : Matrix (Fin d) (Fin d) ℝ} {keep : KeepArg} {rnd rnd' : ℕ → Draw d} (h : ∀ n < size, rnd n = rnd' n) :
    resampleClear D data size w M keep rnd = resampleClear D data size w M keep rnd' := by
  unfold resampleClear
  rw [listSeq_congr (g := fun n => D.sample (rnd' n)) fun n hn => by rw [h n (List.mem_range.mp hn)],
    listSeq_congr (f := fun n => choiceDatum data w (rnd n).pick) (g := fun n => choiceDatum data w (rnd' n).pick)
      fun n hn => by rw [h n (List.mem_range.mp hn)]]

lemma rejectLoop_congr {D : Dist} {data : List (Fin d → ℝ)} {w : Option (List ℝ)}
    {M : Matrix (Fin d) (Fin d) ℝ} {refl : List ReflRow} {size cs chunk B : ℕ} {rnd rnd' : ℕ → ℕ → Draw d}
    (hr : ∀ m < B, ∀ n < chunk, rnd m n = rnd' m n) :
    ∀ (fuel draw : ℕ) (s : LoopState d), s.draws.length + fuel ≤ B → (s.good.length < size → draw ≤ chunk) →
      rejectLoop D data w M refl size cs chunk rnd fuel draw s
        = rejectLoop D data w M refl size cs chunk rnd' fuel draw s := by
  intro fuel
  induction fuel with
  | zero => intros; rfl
  | succ f ih =>
    intro draw s hB hd
    rw [rejectLoop, rejectLoop]
    split
    · rfl
    · rename_i hlt
      have hd := hd (by omega)
      rw [resampleClear_congr (rnd' := rnd' s.draws.length) fun n hn => hr _ (by omega) n (by omega)]
      split
      · rfl
      · exact ih _ _ (by simp; omega) fun _ => Nat.min_le_right _ _

/-- **C31**: a reflected `resample` looks at no more than `10·ceil(size/chunk)` batches of `chunk` random numbers:
two random streams that agree on these give the same outcome (samples or exception).  The call is a total function
of the stream, so it returns or raises. -/
theorem C31_finite {E : Ext} {a : KDEArgs d} {k : KDE d} (h : KDE.init E a = .ok k) (size : Option ℕ)
    (keep : KeepArg) (reflect : Reflect) (squeeze : Bool) (rows : List ReflRow)
    (hb : Spec.boundaries k reflect = .ok (some rows)) (rnd rnd' : ℕ → ℕ → Draw d)
    (hr : ∀ m < 10 * max 1 ⌈(size.getD a.dataset.length : ℝ) / k.kernel.chunk⌉₊, ∀ n < k.kernel.chunk,
      rnd m n = rnd' m n) :
    k.resample size keep reflect squeeze rnd = k.resample size keep reflect squeeze rnd' := by
  have hd : k.dataset = a.dataset := by
    obtain ⟨_, _, _, _, _, _, _, _, _, _, _, _, _, _, _, _, _, _, he⟩ := init_inv h; rw [he]
  rw [resample_eq h, resample_eq h, hb]
  simp only [Except.bind]
  congr 2
  unfold resampleReflect
  split
  · rfl
  split
  · rfl
  split
  · rfl
  rename_i hc
  rcases Nat.eq_zero_or_pos (size.getD k.dataset.length) with h0 | hpos
  · have : ∀ r : ℕ → ℕ → Draw d, ∀ M, rejectLoop k.kernel.dist (drawData k.dataset rows)
        (drawWeights k.dataset k.weights rows) M rows
        (size.getD k.dataset.length) (chunking (size.getD k.dataset.length) k.kernel.chunk).2 k.kernel.chunk r
        (10 * (chunking (size.getD k.dataset.length) k.kernel.chunk).1)
        (chunking (size.getD k.dataset.length) k.kernel.chunk).2 ⟨[], []⟩ = .ok ⟨[], []⟩ := by
      intro r M
      generalize 10 * (chunking (size.getD k.dataset.length) k.kernel.chunk).1 = f
      cases f with
      | zero => rfl
      | succ f => rw [rejectLoop, if_pos (by simp [h0])]
    rw [this, this]
  · obtain ⟨c1, c2⟩ := chunking_spec (size.getD k.dataset.length) k.kernel.chunk (by omega)
    rw [← hd] at hr
    rw [rejectLoop_congr (rnd' := rnd') (B := 10 * max 1 ⌈(size.getD k.dataset.length : ℝ) / k.kernel.chunk⌉₊) hr]
    · rw [c1, List.length_nil, zero_add]; exact le_refl _
    · intro _; exact (c2 hpos).2

/-! ## C33 -/

/-- **C33 is false of the parabola kernel** in more than one dimension: with all six uniform numbers equal to 1 the
sample lies at squared distance 2 from the only data point. -/
theorem C33_refuted : ¬ C33_Claim := by
  intro hC
  obtain ⟨k, hk, hw, hD, hM⟩ := unit_init (d := 2) ⟨fun A => A, id⟩ [0] (by simp) [1] (by simp [Spec.ValidW])
    .parabola rfl
  have hr : k.reflect = none := by
    obtain ⟨_, _, _, _, _, _, _, _, hr, _, _, _, _, _, _, _, _, _, he⟩ := init_inv hk
    rw [he]
    simpa [checkReflect, eq_comm] using hr
  have hpd : (Spec.kernelMatrix k.covariance k.bandwidth).PosDef := by rw [hM]; exact PosDef.one
  have hv : ∀ m n : ℕ, ((fun _ _ => Spec.fixedDraw (fun _ => 0) 1 : ℕ → ℕ → Draw 2) m n).Valid ∧
      rad ((fun _ _ => Spec.fixedDraw (fun _ => 0) 1 : ℕ → ℕ → Draw 2) m n).gauss ≠ 0 := fun _ _ =>
    ⟨fixedDraw_valid (fun _ => by norm_num) (by norm_num), fixedDraw_rad (by norm_num) _ _⟩
  have hb : Spec.boundaries k .none = .ok none := by simp [Spec.boundaries, hr]
  obtain ⟨s, hs, hl⟩ := C26_succeeds hk hpd (some 1) .none (by simp) .none true _ hv hb
  obtain ⟨L, hL, hall⟩ := C30_positive_weight hk (some 1) .none .none true _ (fun m n => (hv m n).1) s hs hb
  have h0 : 0 < s.points.length := by rw [hl]; simp
  obtain ⟨j, hj, _, u, hu, _, hx⟩ := hall 0 h0
  obtain ⟨p, hp, hle⟩ := hC 2 _ _ k hk (by rw [hD]; rfl) hpd hr (some 1) true _ (fun m n => (hv m n).1) s hs _
    (List.getElem_mem h0)
  simp only [List.length_singleton, Nat.lt_one_iff] at hj
  subst hj
  simp only [List.mem_singleton] at hp
  subst hp
  have e : s.points[0] - 0 = L *ᵥ u := by
    funext i
    rw [sub_zero, hx i (by simp [Spec.Kept])]
    simp
  rw [e, dist2_coloured (by rw [hM]; simp) (hL (by rw [hM]; exact Matrix.isSymm_one))] at hle
  rw [hD] at hu
  simp only [Dist.sample, Except.ok.injEq] at hu
  subst hu
  simp [Spec.fixedDraw, median3] at hle

/-! ## C13 for the class, and C32 -/

/-- **C13** for the class: with boundaries in one dimension `i` only, `density` is 0 outside of them, and inside it
is the kernel sum over the data plus, for each given boundary, the kernel sum over the data mirrored at it. -/
theorem C13_kde {E : Ext} {a : KDEArgs d} {k : KDE d} (h : KDE.init E a = .ok k) (srt : List ℝ → List ℕ)
    (hd : 0 < d) (hM : (Spec.kernelMatrix k.covariance k.bandwidth).PosDef) (i : Fin d) (lo hi : Option ℝ)
    (hr : k.reflect = some (Spec.onlyDim i (lo, hi)))
    [∀ x : Fin d → ℝ, Decidable (Spec.Violates (some (lo, hi)) (x i))] (pts : List (Fin d → ℝ)) :
    (k.density E srt (some (.rows (Spec.rowsOf pts))) .none .none false false).1 = .ok (.rows (Spec.rowsOf pts),
      ⟨[pts.length], pts.map fun x =>
        if Spec.Violates (some (lo, hi)) (x i) then 0 else
          (Spec.kernelSum k.kernel.dist (Spec.kernelMatrix k.covariance k.bandwidth)
              (Spec.weighted a.dataset k.weights) x
            + ((lo.toList ++ hi.toList).map fun b =>
                Spec.kernelSum k.kernel.dist (Spec.kernelMatrix k.covariance k.bandwidth)
                  (Spec.weighted (a.dataset.map (Spec.mirror i b)) k.weights) x).sum)
          / (Real.sqrt (Spec.kernelMatrix k.covariance k.bandwidth).det * k.kernel.dist.norm d)⟩) := by
  rw [kde_density_eq h srt hd, hr]
  have hw : ∀ l, k.weights = some l → l.length = a.dataset.length := fun l hl => (stored_valid h hl).1
  obtain ⟨rows, w, cov, bw0, D, out, eff, ext, hr', hne, _, _, _, _, _, _, _, _, rfl⟩ := init_inv h
  simp only at hM hw ⊢
  rw [C13_single_dim E D _ _ _ _ hM pts _ _ hw i lo hi]
  rfl

/-- A consequence of property C32: wherever `density()` reports a positive density on an open set inside the
boundaries, some sequence of random numbers gives a sample in that set. -/
def C32_Claim : Prop :=
  ∀ (d : ℕ) (E : Ext) (srt : List ℝ → List ℕ) (a : KDEArgs d) (k : KDE d), KDE.init E a = .ok k →
    (Spec.kernelMatrix k.covariance k.bandwidth).PosDef → k.kernel.dist = .box →
    ∀ rows, k.reflect = some rows →
      (∀ x ∈ a.dataset, ∀ i : Fin d, Spec.StrictlyInside (rows.getD i none) (x i)) →
      ∀ U : Set (Fin d → ℝ), IsOpen U → U.Nonempty →
        (∀ x ∈ U, (∀ i : Fin d, Spec.StrictlyInside (rows.getD i none) (x i)) ∧ ∃ p v,
          (k.density E srt (some (.rows (Spec.rowsOf [x]))) .none .none false false).1 = .ok (p, ⟨[1], [v]⟩) ∧ 0 < v) →
        ∃ (size : ℕ) (rnd : ℕ → ℕ → Draw d) (s : Samples d), (∀ m n, (rnd m n).Valid) ∧
          k.resample (some size) .none .none true rnd = .ok s ∧ ∃ x ∈ s.points, x ∈ U

lemma dist2_rho (u : Fin 2 → ℝ) : Spec.dist2 !![1, 4 / 5; 4 / 5, 1] u
    = 25 / 9 * (u 0 ^ 2 - 8 / 5 * (u 0 * u 1) + u 1 ^ 2) := by
  have hinv : (!![1, 4 / 5; 4 / 5, 1] : Matrix (Fin 2) (Fin 2) ℝ)⁻¹ = !![25 / 9, -20 / 9; -20 / 9, 25 / 9] := by
    apply Matrix.inv_eq_right_inv
    ext i j
    fin_cases i <;> fin_cases j <;> norm_num [Matrix.mul_apply, Fin.sum_univ_two]
  rw [Spec.dist2, hinv]
  simp [dotProduct, Matrix.mulVec, Fin.sum_univ_two]
  ring

lemma rho_posDef : (!![1, 4 / 5; 4 / 5, 1] : Matrix (Fin 2) (Fin 2) ℝ).PosDef := by
  refine Matrix.PosDef.of_dotProduct_mulVec_pos ?_ ?_
  · ext i j; fin_cases i <;> fin_cases j <;> simp
  · intro x hx
    simp only [dotProduct, Matrix.mulVec, Fin.sum_univ_two, star_trivial]
    simp
    have : x 0 ≠ 0 ∨ x 1 ≠ 0 := by
      by_contra hc
      push Not at hc
      apply hx
      funext i; fin_cases i
      · exact hc.1
      · exact hc.2
    rcases this with h | h <;> nlinarith [sq_pos_of_ne_zero h, sq_nonneg (x 0 + x 1), sq_nonneg (x 0 - x 1),
      sq_nonneg (x 0 + 4/5 * x 1), sq_nonneg (x 1 + 4/5 * x 0)]

/-- **C32 is false of the code**: with the box kernel and matrix `((1, 4/5), (4/5, 1))`, one data point at
`(1/5, 0)` and a lower boundary at 0 in dimension 0, `density()` is positive around `(1/10, 2/3)` (the mirror image
contributes there), but no sample is ever returned there. -/
theorem C32_refuted : ¬ C32_Claim := by
  classical
  intro hC
  set C : Matrix (Fin 2) (Fin 2) ℝ := !![1, 4 / 5; 4 / 5, 1] with hCdef
  have hrows : Spec.onlyDim (0 : Fin 2) (some (0 : ℝ), none) = [some (some 0, none), none] := by
    simp [Spec.onlyDim, List.finRange_succ]
  obtain ⟨k, hk, hw, hD, hM, hr, hc, hdat⟩ := cov_init_reflect (d := 2) ⟨fun A => A, id⟩ [![1 / 5, 0]] (by simp) .box rfl
    C (by intro i; fin_cases i <;> simp [hCdef]) (Spec.onlyDim (0 : Fin 2) (some (0 : ℝ), none)) (by simp [Spec.onlyDim]) (by
      intro lo hi h
      rw [hrows] at h
      simp at h) ⟨(some 0, none), by simp [hrows]⟩
  have hpd : (Spec.kernelMatrix k.covariance k.bandwidth).PosDef := by rw [hM]; exact rho_posDef
  have hin : ∀ x : Fin 2 → ℝ, 0 < x 0 → ∀ i : Fin 2,
      Spec.StrictlyInside ((Spec.onlyDim (0 : Fin 2) (some (0 : ℝ), none)).getD i none) (x i) := by
    rw [hrows]
    intro x hx i
    fin_cases i
    · intro lo hi h
      simp only [List.getD_cons_zero, Option.some.injEq, Prod.mk.injEq] at h
      obtain ⟨rfl, rfl⟩ := h
      exact ⟨by rintro b ⟨⟩; exact hx, by rintro b ⟨⟩⟩
    · intro lo hi h; simp at h
  let U : Set (Fin 2 → ℝ) := {x | 9 / 100 < x 0} ∩ {x | x 0 < 11 / 100} ∩ {x | 66 / 100 < x 1} ∩ {x | x 1 < 67 / 100}
  have hU : IsOpen U := by
    refine ((IsOpen.inter ?_ ?_).inter ?_).inter ?_
    · exact isOpen_lt continuous_const (continuous_apply 0)
    · exact isOpen_lt (continuous_apply 0) continuous_const
    · exact isOpen_lt continuous_const (continuous_apply 1)
    · exact isOpen_lt (continuous_apply 1) continuous_const
  obtain ⟨size, rnd, s, hrnd, hs, x, hx, ⟨⟨⟨x1, x2⟩, x3⟩, x4⟩⟩ := hC 2 _ (fun _ => []) _ k hk hpd hD _ hr
    (by intro x hx; simp only [List.mem_singleton] at hx; subst hx; exact hin _ (by norm_num)) U hU
    ⟨![1 / 10, 2 / 3], by simp only [U, Set.mem_inter_iff, Set.mem_ofPred_eq]; norm_num⟩ (by
      rintro x ⟨⟨⟨x1, x2⟩, x3⟩, x4⟩
      simp only [Set.mem_ofPred_eq] at x1 x2 x3 x4
      refine ⟨hin x (by linarith), _, _, C13_kde hk _ (by norm_num) hpd 0 (some 0) none hr [x], ?_⟩
      have hviol : ¬ Spec.Violates (some (some 0, none)) (x 0) := by
        rintro ⟨lo, hi, e, h⟩
        cases e
        rcases h with ⟨l, hl, h⟩ | ⟨l, hl, h⟩
        · cases hl; linarith
        · cases hl
      beta_reduce
      rw [if_neg hviol, hM, hw, hD]
      refine div_pos ?_ (mul_pos (Real.sqrt_pos.mpr rho_posDef.det_pos) (Dist.norm_pos _ _ (by norm_num)))
      have h1 : 0 ≤ Spec.kernelSum .box C (Spec.weighted [![1 / 5, 0]] none) x := by
        simp only [Spec.kernelSum, Spec.weighted, Spec.shape, List.map_cons, List.map_nil, List.sum_cons, List.sum_nil]
        split_ifs <;> norm_num
      have h2 : Spec.kernelSum .box C (Spec.weighted ([![1 / 5, 0]].map (Spec.mirror 0 0)) none) x = 1 := by
        simp only [Spec.kernelSum, Spec.weighted, Spec.shape, List.map_cons, List.map_nil, List.sum_cons, List.sum_nil,
          hCdef, dist2_rho]
        rw [if_pos]
        · norm_num
        · simp [Spec.mirror]
          nlinarith
      simp only [Option.toList_some, Option.toList_none, List.append_nil, List.map_cons, List.map_nil, List.sum_cons,
        List.sum_nil]
      simp only [List.map_cons, List.map_nil] at h2
      rw [h2]
      linarith)
  simp only [Set.mem_ofPred_eq] at x1 x2 x3 x4
  obtain ⟨m, c, s', hs', hx'⟩ := C32_candidates_partial hk (some size) .none true rnd hrnd s _
    (by simp only [Spec.boundaries, hr]; rfl)
    (by rw [hdat]; intro x hx; simp only [List.mem_singleton] at hx; subst hx; exact hin _ (by norm_num)) hs x hx
  obtain ⟨j, hj, _, hle⟩ := C33_support_partial hk (Or.inl hD) hpd (some c) .none (by simp [Spec.Kept]) .false true
    _ (fun _ => hrnd m) s' hs' rfl x hx'
  simp only [List.length_singleton, Nat.lt_one_iff] at hj
  subst hj
  rw [hM, hCdef, dist2_rho] at hle
  simp at hle
  nlinarith

/-! ## Concrete cases -/

/-- A KDE, random numbers and a successful call as in C26, C28, C30, C63, C66: two dimensions, two data points,
unequal weights, dimension 1 kept. -/
example : ∃ (E : Ext) (a : KDEArgs 2) (k : KDE 2) (rnd : ℕ → ℕ → Draw 2) (s : Samples 2), KDE.init E a = .ok k ∧
    (Spec.kernelMatrix k.covariance k.bandwidth).PosDef ∧ k.weights = some [1, 3] ∧ (∀ m n, (rnd m n).Valid) ∧
    Spec.boundaries k .none = .ok none ∧ k.resample (some 5) (.dims [1]) .none true rnd = .ok s ∧
    s.points.length = 5 := by
  obtain ⟨k, hk, hw, hD, hM⟩ := unit_init ⟨fun A => A, id⟩ [![0, 1], ![2, 5]] (by simp) [1, 3]
    (by simp [Spec.ValidW]) .box rfl
  have hr : k.reflect = none := by
    obtain ⟨_, _, _, _, _, _, _, _, hr, _, _, _, _, _, _, _, _, _, he⟩ := init_inv hk
    rw [he]
    simpa [checkReflect, eq_comm] using hr
  have hpd : (Spec.kernelMatrix k.covariance k.bandwidth).PosDef := by rw [hM]; exact PosDef.one
  have hv : ∀ m n : ℕ, ((fun _ _ => Spec.fixedDraw (fun _ => 0) 1 : ℕ → ℕ → Draw 2) m n).Valid ∧
      rad ((fun _ _ => Spec.fixedDraw (fun _ => 0) 1 : ℕ → ℕ → Draw 2) m n).gauss ≠ 0 := fun _ _ =>
    ⟨fixedDraw_valid (fun _ => by norm_num) (by norm_num), fixedDraw_rad (by norm_num) _ _⟩
  have hb : Spec.boundaries k .none = .ok none := by simp [Spec.boundaries, hr]
  obtain ⟨s, hs, hl⟩ := C26_succeeds hk hpd (some 5) (.dims [1]) (by simp) .none true _ hv hb
  exact ⟨_, _, k, _, s, hk, hpd, hw, fun m n => (hv m n).1, hb, hs, hl⟩

/-- A batch of candidates of which enough are inside is accepted at once. -/
lemma rejectLoop_first {D : Dist} {data : List (Fin d → ℝ)} {w : Option (List ℝ)}
    {M : Matrix (Fin d) (Fin d) ℝ} {refl : List ReflRow} {size cs chunk : ℕ} {rnd : ℕ → ℕ → Draw d} {fuel draw : ℕ}
    (hs : 0 < size) {trial : List (Fin d → ℝ)} (ht : resampleClear D data draw w M .none (rnd 0) = .ok trial)
    (hlen : trial.length = size) (hin : ∀ x ∈ trial, insideBounds refl x = true) :
    rejectLoop D data w M refl size cs chunk rnd (fuel + 1) draw ⟨[], []⟩ = .ok ⟨trial, [draw]⟩ := by
  have hf : trial.filter (fun x => insideBounds refl x) = trial := List.filter_eq_self.mpr hin
  rw [rejectLoop, if_neg (by simp; omega)]
  simp only [List.length_nil, ht, List.nil_append, Nat.sub_zero, hf]
  rw [List.take_of_length_le (by omega)]
  cases fuel with
  | zero => rfl
  | succ f => rw [rejectLoop, if_pos (by simp; omega)]

/-- A reflected call that returns (C27, C31, C32), and one that gives up (C31): one dimension, box kernel, one data
point at 1/2, boundaries 0 and 1; all symmetric numbers 0, respectively 1. -/
lemma reflected_cases : ∃ (E : Ext) (a : KDEArgs 1) (k : KDE 1) (rows : List ReflRow), KDE.init E a = .ok k ∧
    Spec.boundaries k .none = .ok (some rows) ∧ rows = [some (some 0, some 1)] ∧
    (∀ x ∈ k.dataset, ∀ i : Fin 1, Spec.StrictlyInside (rows.getD i none) (x i)) ∧
    (∃ rnd s, (∀ m n, (rnd m n).Valid) ∧ k.resample (some 3) .none .none true rnd = .ok s) ∧
    (∃ rnd, (∀ m n, (rnd m n).Valid) ∧
      k.resample (some 3) .none .none true rnd = .error .runtimeError ∧
      resampleReflect k.kernel k.dataset 3 rows k.weights .none rnd = .error .runtimeError) := by
  obtain ⟨k, hk, hw, hD, hM, hr, hc, hdat⟩ := unit_init_reflect (d := 1) ⟨fun A => A, id⟩ [fun _ => 1 / 2] (by simp) .box rfl
    [some (some 0, some 1)] rfl (by
      intro lo hi h
      simp only [List.mem_singleton, Option.some.injEq, Prod.mk.injEq] at h
      rw [h.1, h.2]; norm_num) ⟨(some 0, some 1), by simp⟩
  have hin : ∀ x : Fin 1 → ℝ, 0 < x 0 ∧ x 0 < 1 ↔ insideBounds [some (some 0, some 1)] x = true := by
    intro x
    rw [insideBounds_iff]
    constructor
    · intro h i lo hi e
      rw [Subsingleton.elim i 0] at e ⊢
      simp only [Fin.coe_ofNat_eq_mod, Nat.zero_mod, List.getD_cons_zero, Option.some.injEq, Prod.mk.injEq] at e
      obtain ⟨rfl, rfl⟩ := e
      exact ⟨by rintro b ⟨⟩; exact h.1, by rintro b ⟨⟩; exact h.2⟩
    · intro h
      have := h 0 (some 0) (some 1) rfl
      exact ⟨this.1 0 rfl, this.2 1 rfl⟩
  have hkm : k.kernel.matrix = 1 := by rw [(C18_matrix hk).1, hM]
  have hU : cholesky (1 : Matrix (Fin 1) (Fin 1) ℝ) = some 1 := by
    obtain ⟨U, hU⟩ := cholesky_of_posDef (PosDef.one : (1 : Matrix (Fin 1) (Fin 1) ℝ).PosDef)
    rw [hU]
    have h1 := cholesky_mul Matrix.isSymm_one hU
    have h2 := cholesky_diag_pos hU 0
    congr 1
    ext i j
    rw [Subsingleton.elim i 0, Subsingleton.elim j 0]
    have := congrFun (congrFun h1 0) 0
    simp [Matrix.mul_apply] at this
    simp
    nlinarith
  have hclear : ∀ (t : ℝ) (n : ℕ), resampleClear .box [fun _ : Fin 1 => (1 / 2 : ℝ)] n none 1 .none
      (fun _ => Spec.fixedDraw (fun _ => t) 0) = .ok (List.replicate n fun _ => 1 / 2 + t) := by
    intro t n
    have e1 : ∀ (l : List ℕ) (y : Fin 1 → ℝ), listSeq (fun _ : ℕ => (.ok y : Res (Fin 1 → ℝ))) l
        = .ok (List.replicate l.length y) := by
      intro l y
      induction l with
      | nil => rfl
      | cons a l ih => simp [listSeq, ih, List.replicate_succ]
    have e2 : choiceDatum [fun _ : Fin 1 => (1 / 2 : ℝ)] none (Spec.fixedDraw (fun _ : Fin 1 => t) 0).pick
        = .ok fun _ => 1 / 2 := by
      simp [choiceDatum, choiceIndex, Spec.fixedDraw]
    unfold resampleClear
    simp only [Dist.sample, if_true, e1, addCov, hU, e2, keepDims, choiceOk, List.length_range]
    simp [List.zipWith_replicate, Spec.fixedDraw]
    right
    funext i
    simp [zeroDims]
  have hdraw : drawData [fun _ : Fin 1 => (1 / 2 : ℝ)] [some (some 0, some 1)] = [fun _ => 1 / 2] :=
    drawData_inside (by
      intro x hx
      rw [← insideBounds_iff, ← hin]
      simp only [List.mem_singleton] at hx
      subst hx
      norm_num)
  have hch : chunking 3 100000 = (1, 3) := by decide
  have hval : ∀ t : ℝ, -1 ≤ t → t ≤ 1 → ∀ m n : ℕ,
      ((fun _ _ => Spec.fixedDraw (fun _ => t) 0 : ℕ → ℕ → Draw 1) m n).Valid :=
    fun t h1 h2 _ _ => fixedDraw_valid (fun _ => ⟨h1, h2⟩) (by norm_num)
  have hrr : ∀ (t : ℝ) (s : LoopState 1),
      rejectLoop .box [fun _ : Fin 1 => (1 / 2 : ℝ)] none 1 [some (some 0, some 1)] 3 3 100000
          (fun _ _ => Spec.fixedDraw (fun _ => t) 0) 10 3 ⟨[], []⟩ = .ok s →
      resampleReflect k.kernel k.dataset 3 [some (some 0, some 1)] k.weights .none
        (fun _ _ => Spec.fixedDraw (fun _ => t) 0) =
      if s.good.length < 3 then .error .runtimeError else .ok (s.good, s.draws) := by
    intro t s hs
    unfold resampleReflect
    simp only [covKeepVars, hdat, hdraw, hw, hD, hkm, hc, hch, drawWeights, Option.map_none, mul_one]
    rw [if_neg (by simp), if_neg (by norm_num), hs]
  have hb : Spec.boundaries k .none = .ok (some [some (some 0, some 1)]) := by simp only [Spec.boundaries, hr]
  refine ⟨_, _, k, _, hk, hb, rfl, ?_, ⟨fun _ _ => Spec.fixedDraw (fun _ => 0) 0, ?_⟩,
    ⟨fun _ _ => Spec.fixedDraw (fun _ => 1) 0, hval 1 (by norm_num) (by norm_num), ?_, ?_⟩⟩
  · rw [hdat]
    intro x hx
    rw [← insideBounds_iff, ← hin]
    simp only [List.mem_singleton] at hx
    subst hx
    norm_num
  · refine ⟨squeezeSamples true (List.replicate 3 fun _ => 1 / 2 + 0), hval 0 (by norm_num) (by norm_num), ?_⟩
    rw [resample_eq hk, hb]
    simp only [Except.bind, Option.getD_some]
    rw [hrr 0 _ (rejectLoop_first (by norm_num) (hclear 0 3) (by simp) (by
      intro x hx
      rw [← hin, (List.mem_replicate.mp hx).2]
      norm_num))]
    simp [Except.map]
  all_goals
    have hloop : ∀ fuel draw (s : LoopState 1), s.good = [] →
        ∃ s', rejectLoop .box [fun _ : Fin 1 => (1 / 2 : ℝ)] none 1 [some (some 0, some 1)] 3 3 100000
          (fun _ _ => Spec.fixedDraw (fun _ => 1) 0) fuel draw s = .ok s' ∧ s'.good = [] := by
      intro fuel
      induction fuel with
      | zero => intro draw s hs; exact ⟨s, rfl, hs⟩
      | succ f ih =>
        intro draw s hs
        rw [rejectLoop, if_neg (by simp [hs])]
        simp only [hclear]
        apply ih
        have : (List.replicate draw fun _ : Fin 1 => (1 / 2 + 1 : ℝ)).filter
            (fun x => insideBounds [some (some 0, some 1)] x) = [] := by
          rw [List.filter_eq_nil_iff]
          intro x hx
          rw [← hin, (List.mem_replicate.mp hx).2]
          norm_num
        simp only [hs, this]
        simp
    obtain ⟨s', h1, h2⟩ := hloop 10 3 ⟨[], []⟩ rfl
    have herr := hrr 1 _ h1
    simp only [h2] at herr
    rw [if_pos (by simp)] at herr
  · rw [resample_eq hk, hb]
    simp only [Except.bind, Option.getD_some, herr]
    rfl
  · exact herr

end Kalepy
