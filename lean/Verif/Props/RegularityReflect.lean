import Verif.Props.Regularity
import Verif.Props.ReflectDims

/-!
# C132 with boundaries: bounds, decay and continuity of the pdf
-/

namespace Kalepy

open Filter Topology Matrix

variable {d : ℕ}

lemma weighted_map_left {α : Type*} (data : List α) (m : α → α) (w : Option (List ℝ)) :
    Spec.weighted (data.map m) w = (Spec.weighted data w).map fun p => (m p.1, p.2) := by
  cases w with
  | none => simp [Spec.weighted, Function.comp_def]
  | some w => simp only [Spec.weighted, List.zip_map_left]; rfl

/-- The average of the kernels around the images of the data. -/
noncomputable def imageAverage (D : Dist) (M : Matrix (Fin d) (Fin d) ℝ) (l : List ((Fin d → ℝ) × ℝ))
    (m : (Fin d → ℝ) → Fin d → ℝ) (x : Fin d → ℝ) : ℝ :=
  (l.map fun p => p.2 * Spec.kernelAt D M (x - m p.1)).sum / (l.map Prod.snd).sum

lemma imageAverage_eq (hd : 0 < d) (D : Dist) {M : Matrix (Fin d) (Fin d) ℝ} (hM : M.PosDef) (data : List (Fin d → ℝ))
    (w : Option (List ℝ)) (m : (Fin d → ℝ) → Fin d → ℝ) (x : Fin d → ℝ) :
    Spec.kernelSum D M (Spec.weighted (data.map m) w) x / (Real.sqrt M.det * D.norm d)
      / ((Spec.weighted data w).map Prod.snd).sum = imageAverage D M (Spec.weighted data w) m x := by
  rw [imageAverage, weighted_map_left, Spec.kernelSum, List.map_map, kernelAt_eq hd D hM]
  congr 1
  simp only [unitKernel, ← mul_div_assoc]
  generalize Spec.weighted data w = l
  induction l with
  | nil => simp
  | cons p l ih => rw [List.map_cons, List.map_cons, List.sum_cons, List.sum_cons, ← ih, add_div]; rfl

lemma imageAverage_bounds (hd : 0 < d) (D : Dist) {M : Matrix (Fin d) (Fin d) ℝ} (hM : M.PosDef)
    {l : List ((Fin d → ℝ) × ℝ)} (hw : ∀ p ∈ l, 0 ≤ p.2) (hs : 0 < (l.map Prod.snd).sum)
    (m : (Fin d → ℝ) → Fin d → ℝ) (x : Fin d → ℝ) :
    0 ≤ imageAverage D M l m x ∧ imageAverage D M l m x ≤ Spec.kernelAt D M 0 := by
  obtain ⟨h1, h2⟩ := wavg_bounds l (fun y => Spec.kernelAt D M (x - m y)) hw fun y => kernelAt_bounds hd D hM (x - m y)
  exact ⟨div_nonneg h1 hs.le, by rw [imageAverage, div_le_iff₀' hs]; exact h2⟩

lemma imageAverage_decay (hd : 0 < d) (D : Dist) {M : Matrix (Fin d) (Fin d) ℝ} (hM : M.PosDef)
    (l : List ((Fin d → ℝ) × ℝ)) (m : (Fin d → ℝ) → Fin d → ℝ) :
    Tendsto (imageAverage D M l m) (cocompact (Fin d → ℝ)) (𝓝 0) := by
  unfold imageAverage
  rw [← zero_div (l.map Prod.snd).sum]
  refine Tendsto.div_const ?_ _
  induction l with
  | nil => simpa using tendsto_const_nhds
  | cons p l ih =>
    simp only [List.map_cons, List.sum_cons]
    have := ((kernelAt_decay hd D hM (m p.1)).const_mul p.2).add ih
    simpa using this

lemma continuous_imageAverage {D : Dist} (hD : D ≠ .box) (M : Matrix (Fin d) (Fin d) ℝ)
    (l : List ((Fin d → ℝ) × ℝ)) (m : (Fin d → ℝ) → Fin d → ℝ) : Continuous (imageAverage D M l m) := by
  unfold imageAverage
  refine Continuous.div_const ?_ _
  induction l with
  | nil => simpa using continuous_const
  | cons p l ih =>
    simp only [List.map_cons, List.sum_cons]
    refine Continuous.add (continuous_const.mul ?_) ih
    unfold Spec.kernelAt
    exact ((continuous_shape hD).comp ((continuous_dist2 _).comp (by fun_prop))).div_const _

/-- The sum of the averages over all boundaries. -/
noncomputable def planeSum (D : Dist) (M : Matrix (Fin d) (Fin d) ℝ) (l : List ((Fin d → ℝ) × ℝ)) (rows : List ReflRow)
    (j : Fin d) (x : Fin d → ℝ) : ℝ :=
  ((Spec.bounds (rows.getD j none)).map fun b => imageAverage D M l (Spec.mirror j b) x).sum

/-- The number of boundaries. -/
def Spec.boundaryCount (d : ℕ) (rows : List ReflRow) : ℕ :=
  ((List.finRange d).map fun j : Fin d => (Spec.bounds (rows.getD j none)).length).sum

open Classical in
/-- The pdf with boundaries as a sum of averages. -/
lemma reports_planes {E : Ext} {a : KDEArgs d} {k : KDE d} (h : KDE.init E a = .ok k) (srt : List ℝ → List ℕ)
    (hd : 0 < d) (hM : (Spec.kernelMatrix k.covariance k.bandwidth).PosDef) {rows : List ReflRow}
    (hr : k.reflect = some rows) :
    Spec.Reports E srt k fun x =>
      (if x ∈ Spec.Allowed rows then imageAverage k.kernel.dist (Spec.kernelMatrix k.covariance k.bandwidth)
        (Spec.weighted a.dataset k.weights) id x else 0)
      + ((List.finRange d).map fun j => if Spec.AllowedFrom rows j x then planeSum k.kernel.dist
          (Spec.kernelMatrix k.covariance k.bandwidth) (Spec.weighted a.dataset k.weights) rows j x else 0).sum := by
  intro pts
  have := C13_kde_dims h srt hd hM rows hr [] pts
  refine Eq.trans this ?_
  congr 3
  refine List.map_congr_left fun x _ => ?_
  have hav := fun m => imageAverage_eq hd k.kernel.dist hM a.dataset k.weights m x
  rw [add_div, add_div]
  congr 1
  · by_cases hx : x ∈ Spec.Allowed rows
    · rw [if_pos hx, if_pos hx, ← hav id, List.map_id]
    · rw [if_neg hx, if_neg hx, zero_div, zero_div]
  · rw [div_div, div_eq_mul_inv, ← List.sum_map_mul_right]
    refine congrArg List.sum (List.map_congr_left fun j _ => ?_)
    by_cases hx : Spec.AllowedFrom rows j x
    · rw [if_pos hx, if_pos hx, planeSum, ← List.sum_map_mul_right]
      refine congrArg List.sum (List.map_congr_left fun b _ => ?_)
      rw [← hav, ← div_eq_mul_inv, div_div]
    · rw [if_neg hx, if_neg hx, zero_mul]

lemma planeSum_bounds (hd : 0 < d) (D : Dist) {M : Matrix (Fin d) (Fin d) ℝ} (hM : M.PosDef)
    {l : List ((Fin d → ℝ) × ℝ)} (hw : ∀ p ∈ l, 0 ≤ p.2) (hs : 0 < (l.map Prod.snd).sum) (rows : List ReflRow)
    (j : Fin d) (x : Fin d → ℝ) :
    0 ≤ planeSum D M l rows j x ∧ planeSum D M l rows j x ≤ (Spec.bounds (rows.getD j none)).length * Spec.kernelAt D M 0 := by
  unfold planeSum
  constructor
  · refine List.sum_nonneg fun t ht => ?_
    obtain ⟨b, _, rfl⟩ := List.mem_map.mp ht
    exact (imageAverage_bounds hd D hM hw hs _ x).1
  · refine (List.sum_le_card_nsmul _ (Spec.kernelAt D M 0) fun t ht => ?_).trans (le_of_eq ?_)
    · obtain ⟨b, _, rfl⟩ := List.mem_map.mp ht
      exact (imageAverage_bounds hd D hM hw hs _ x).2
    · rw [List.length_map, nsmul_eq_mul]

/-- **C132 with boundaries.** The pdf of every `KDE` with boundaries is everywhere between 0 and the peak of a single
kernel times one plus the number of boundaries, tends to 0 far from the origin, and, unless the kernel is the box, is
continuous on the set of points inside all boundaries. -/
theorem C132_reflect {E : Ext} {a : KDEArgs d} {k : KDE d} (h : KDE.init E a = .ok k) (srt : List ℝ → List ℕ)
    (hd : 0 < d) (hM : (Spec.kernelMatrix k.covariance k.bandwidth).PosDef) {rows : List ReflRow}
    (hr : k.reflect = some rows) :
    ∃ F, Spec.Reports E srt k F ∧
      (∀ x, 0 ≤ F x ∧ F x ≤ (1 + Spec.boundaryCount d rows : ℕ)
        * Spec.kernelAt k.kernel.dist (Spec.kernelMatrix k.covariance k.bandwidth) 0) ∧
      Tendsto F (cocompact (Fin d → ℝ)) (𝓝 0) ∧
      (k.kernel.dist ≠ .box → ContinuousOn F (Spec.Allowed rows)) := by
  classical
  obtain ⟨hw, hs⟩ := weighted_pos h
  set M := Spec.kernelMatrix k.covariance k.bandwidth
  set l := Spec.weighted a.dataset k.weights
  have hp0 : 0 ≤ Spec.kernelAt k.kernel.dist M 0 := (kernelAt_bounds hd k.kernel.dist hM 0).1
  have hb0 : ∀ x, 0 ≤ (if x ∈ Spec.Allowed rows then imageAverage k.kernel.dist M l id x else 0) ∧
      (if x ∈ Spec.Allowed rows then imageAverage k.kernel.dist M l id x else 0) ≤ Spec.kernelAt k.kernel.dist M 0 := by
    intro x
    split_ifs
    · exact imageAverage_bounds hd _ hM hw hs id x
    · exact ⟨le_rfl, hp0⟩
  have hbj : ∀ x j, 0 ≤ (if Spec.AllowedFrom rows j x then planeSum k.kernel.dist M l rows j x else 0) ∧
      (if Spec.AllowedFrom rows j x then planeSum k.kernel.dist M l rows j x else 0)
        ≤ (Spec.bounds (rows.getD j none)).length * Spec.kernelAt k.kernel.dist M 0 := by
    intro x j
    have := planeSum_bounds hd k.kernel.dist hM hw hs rows j x
    split_ifs
    · exact this
    · exact ⟨le_rfl, this.1.trans this.2⟩
  refine ⟨_, reports_planes h srt hd hM hr, fun x => ⟨?_, ?_⟩, ?_, fun hD => ?_⟩
  · refine add_nonneg (hb0 x).1 (List.sum_nonneg fun t ht => ?_)
    obtain ⟨j, _, rfl⟩ := List.mem_map.mp ht
    exact (hbj x j).1
  · rw [Nat.cast_add, Nat.cast_one, add_mul, one_mul]
    refine add_le_add (hb0 x).2 ?_
    rw [Spec.boundaryCount, Nat.cast_list_sum, List.map_map, ← List.sum_map_mul_right]
    exact List.sum_le_sum fun j _ => (hbj x j).2
  · have h1 := imageAverage_decay hd k.kernel.dist hM l id
    have h2 : ∀ j, Tendsto (planeSum k.kernel.dist M l rows j) (cocompact (Fin d → ℝ)) (𝓝 0) := by
      intro j
      unfold planeSum
      induction Spec.bounds (rows.getD j none) with
      | nil => simpa using tendsto_const_nhds
      | cons b bs ih =>
        simp only [List.map_cons, List.sum_cons]
        have := (imageAverage_decay hd k.kernel.dist hM l (Spec.mirror j b)).add ih
        simpa using this
    have h3 : ∀ j, Tendsto (fun x => if Spec.AllowedFrom rows j x then planeSum k.kernel.dist M l rows j x else 0)
        (cocompact (Fin d → ℝ)) (𝓝 0) := by
      intro j
      refine squeeze_zero (fun x => (hbj x j).1) (fun x => ?_) (h2 j)
      split_ifs
      · exact le_rfl
      · exact (planeSum_bounds hd k.kernel.dist hM hw hs rows j x).1
    have h4 : Tendsto (fun x => if x ∈ Spec.Allowed rows then imageAverage k.kernel.dist M l id x else 0)
        (cocompact (Fin d → ℝ)) (𝓝 0) := by
      refine squeeze_zero (fun x => (hb0 x).1) (fun x => ?_) h1
      split_ifs
      · exact le_rfl
      · exact (imageAverage_bounds hd k.kernel.dist hM hw hs id x).1
    have h5 : ∀ L : List (Fin d), Tendsto (fun x => (L.map fun j => if Spec.AllowedFrom rows j x then
        planeSum k.kernel.dist M l rows j x else 0).sum) (cocompact (Fin d → ℝ)) (𝓝 0) := by
      intro L
      induction L with
      | nil => simpa using tendsto_const_nhds
      | cons j L ih =>
        simp only [List.map_cons, List.sum_cons]
        simpa using (h3 j).add ih
    simpa using h4.add (h5 (List.finRange d))
  · have h1 : Continuous fun x => imageAverage k.kernel.dist M l id x
        + ((List.finRange d).map fun j => planeSum k.kernel.dist M l rows j x).sum := by
      have h2 : ∀ j, Continuous (planeSum k.kernel.dist M l rows j) := by
        intro j
        unfold planeSum
        induction Spec.bounds (rows.getD j none) with
        | nil => simpa using continuous_const
        | cons b bs ih =>
          simp only [List.map_cons, List.sum_cons]
          exact (continuous_imageAverage hD M l (Spec.mirror j b)).add ih
      refine (continuous_imageAverage hD M l id).add ?_
      generalize List.finRange d = L
      induction L with
      | nil => simpa using continuous_const
      | cons j L ih =>
        simp only [List.map_cons, List.sum_cons]
        exact (h2 j).add ih
    refine h1.continuousOn.congr fun x hx => ?_
    have hfrom : ∀ j, Spec.AllowedFrom rows j x := fun j i _ => hx i
    simp only [if_pos hx, if_pos (hfrom _)]
    rfl

open Classical in
lemma imageAverage_sensitivity (hd : 0 < d) (D : Dist) {M : Matrix (Fin d) (Fin d) ℝ} (hM : M.PosDef) {n : ℕ}
    (x x' : Fin n → Fin d → ℝ) {w : Fin n → ℝ} (hw : ∀ i, 0 ≤ w i) (hs : 0 < ∑ i, w i)
    (m : (Fin d → ℝ) → Fin d → ℝ) (y : Fin d → ℝ) :
    |imageAverage D M (List.ofFn fun i => (x i, w i)) m y - imageAverage D M (List.ofFn fun i => (x' i, w i)) m y| ≤
      (∑ i with x i ≠ x' i, w i) / (∑ i, w i) * Spec.kernelAt D M 0 := by
  have e := fun u => kernelAt_bounds hd D hM u
  simp only [imageAverage, List.map_ofFn, Function.comp_def, List.sum_ofFn]
  rw [← sub_div, abs_div, abs_of_pos hs, div_mul_eq_mul_div]
  refine div_le_div_of_nonneg_right ?_ hs.le
  rw [← Finset.sum_sub_distrib, Finset.sum_mul, Finset.sum_filter]
  refine (Finset.abs_sum_le_sum_abs _ _).trans (Finset.sum_le_sum fun i _ => ?_)
  rw [← mul_sub, abs_mul, abs_of_nonneg (hw i)]
  split_ifs with hi
  · refine mul_le_mul_of_nonneg_left ?_ (hw i)
    have e1 := e (y - m (x i))
    have e2 := e (y - m (x' i))
    rw [abs_le]
    constructor <;> linarith
  · rw [not_not.mp hi]; simp

lemma abs_sum_map_le {α : Type*} (L : List α) (f g c : α → ℝ) (h : ∀ a, |f a - g a| ≤ c a) :
    |(L.map f).sum - (L.map g).sum| ≤ (L.map c).sum := by
  induction L with
  | nil => simp
  | cons a L ih =>
    simp only [List.map_cons, List.sum_cons]
    have := h a
    rw [abs_le] at *
    constructor <;> linarith

open Classical in
/-- **C132 with boundaries.** If some of the data points are replaced by others, while the weights, the kernel matrix
(covariance times squared bandwidth), the kernel and the boundaries stay the same, the pdf changes nowhere by more than the fraction of the weight
that was replaced times the peak of a single kernel times one plus the number of boundaries. -/
theorem C132_sensitivity_reflect {E : Ext} {a a' : KDEArgs d} {k k' : KDE d} (h : KDE.init E a = .ok k)
    (h' : KDE.init E a' = .ok k') (srt : List ℝ → List ℕ) (hd : 0 < d) {rows : List ReflRow} (hr : k.reflect = some rows)
    (hr' : k'.reflect = some rows) (hM : (Spec.kernelMatrix k.covariance k.bandwidth).PosDef) {n : ℕ}
    {x x' : Fin n → Fin d → ℝ} (hx : a.dataset = List.ofFn x) (hx' : a'.dataset = List.ofFn x')
    (hw : k'.weights = k.weights)
    (hK : Spec.kernelMatrix k'.covariance k'.bandwidth = Spec.kernelMatrix k.covariance k.bandwidth)
    (hD : k'.kernel.dist = k.kernel.dist) :
    ∃ F F', Spec.Reports E srt k F ∧ Spec.Reports E srt k' F' ∧ ∀ y, |F y - F' y| ≤ (1 + Spec.boundaryCount d rows : ℕ) *
      ((∑ i : Fin n with x i ≠ x' i, Spec.weightOf k.weights i) / (∑ i : Fin n, Spec.weightOf k.weights i) *
        Spec.kernelAt k.kernel.dist (Spec.kernelMatrix k.covariance k.bandwidth) 0) := by
  obtain ⟨hw0, hs⟩ := weighted_pos h
  have hl : ∀ l, k.weights = some l → l.length = n := fun l hl => by rw [(stored_valid h hl).1, hx]; simp
  have hM' : (Spec.kernelMatrix k'.covariance k'.bandwidth).PosDef := by rw [hK]; exact hM
  have hF := reports_planes h srt hd hM hr
  have hF' := reports_planes h' srt hd hM' hr'
  refine ⟨_, _, hF, hF', fun y => ?_⟩
  rw [hx']
  rw [hx] at hs hw0 ⊢
  rw [hw, hK, hD]
  rw [weighted_ofFn _ _ hl] at hs hw0
  rw [weighted_ofFn _ _ hl, weighted_ofFn _ _ hl]
  simp only [List.map_ofFn, Function.comp_def, List.sum_ofFn] at hs
  have hw1 : ∀ i : Fin n, 0 ≤ Spec.weightOf k.weights i := fun i =>
    hw0 (x i, Spec.weightOf k.weights i) (List.mem_ofFn.mpr ⟨i, rfl⟩)
  have key := fun m => imageAverage_sensitivity hd k.kernel.dist hM x x' hw1 hs m y
  set M := Spec.kernelMatrix k.covariance k.bandwidth
  set δ := (∑ i : Fin n with x i ≠ x' i, Spec.weightOf k.weights i) / (∑ i : Fin n, Spec.weightOf k.weights i) *
    Spec.kernelAt k.kernel.dist M 0 with hδ
  have hδ0 : 0 ≤ δ := (abs_nonneg _).trans (key id)
  rw [add_sub_add_comm, Nat.cast_add, Nat.cast_one, add_mul, one_mul]
  refine (abs_add_le _ _).trans (add_le_add ?_ ?_)
  · split_ifs
    · exact key id
    · simpa using hδ0
  · rw [Spec.boundaryCount, Nat.cast_list_sum, List.map_map, ← List.sum_map_mul_right]
    refine abs_sum_map_le _ _ _ _ fun j => ?_
    have hj : |planeSum k.kernel.dist M (List.ofFn fun i => (x i, Spec.weightOf k.weights i)) rows j y -
        planeSum k.kernel.dist M (List.ofFn fun i => (x' i, Spec.weightOf k.weights i)) rows j y| ≤
        ((Spec.bounds (rows.getD j none)).length : ℝ) * δ := by
      refine (abs_sum_map_le _ _ _ (fun _ => δ) fun b => key _).trans (le_of_eq ?_)
      simp
    split_ifs
    · exact hj
    · simpa using mul_nonneg (Nat.cast_nonneg _) hδ0

/-- Concrete case of `C132_reflect`: two points in the plane, a lower boundary at 0 in the first dimension and boundaries
at 0 and 4 in the second, and the parabola kernel; the pdf is then continuous in the strip and at most four times the peak. -/
example : ∃ (a : KDEArgs 2) (k : KDE 2) (F : (Fin 2 → ℝ) → ℝ), KDE.init ⟨fun A => A, id⟩ a = .ok k ∧
    Spec.Reports ⟨fun A => A, id⟩ (fun _ => []) k F ∧
    ContinuousOn F (Spec.Allowed [some (some 0, none), some (some 0, some 4)]) ∧
    ∀ x, F x ≤ 4 * Spec.kernelAt .parabola (Spec.kernelMatrix k.covariance k.bandwidth) 0 := by
  obtain ⟨k, hk, hw, hD, hM, hr, _, _⟩ := unit_init_reflect ⟨fun A => A, id⟩ ([![1 / 2, 3], ![5, 1 / 3]] : List (Fin 2 → ℝ))
    (by simp) .parabola rfl [some (some 0, none), some (some 0, some 4)] (by simp)
    (by simp) (by simp)
  obtain ⟨F, hF, h1, -, h3⟩ := C132_reflect hk (fun _ => []) two_pos (by rw [hM]; exact PosDef.one) hr
  refine ⟨_, k, F, hk, hF, h3 (by rw [hD]; decide), fun x => ?_⟩
  have := (h1 x).2
  rw [hD] at this
  simpa [Spec.boundaryCount, Spec.bounds, List.finRange_succ] using this

/-- Concrete case of `C132_sensitivity_reflect`: one of two points of equal weight moves, so that the pdf, with three
boundaries, changes by at most four halves of the peak of a kernel. -/
example : ∃ (a a' : KDEArgs 2) (k k' : KDE 2) (F F' : (Fin 2 → ℝ) → ℝ), a.dataset = [![1 / 2, 3], ![5, 1 / 3]] ∧
    a'.dataset = [![1 / 2, 3], ![6, 1]] ∧ KDE.init ⟨fun A => A, id⟩ a = .ok k ∧ KDE.init ⟨fun A => A, id⟩ a' = .ok k' ∧
    Spec.Reports ⟨fun A => A, id⟩ (fun _ => []) k F ∧ Spec.Reports ⟨fun A => A, id⟩ (fun _ => []) k' F' ∧
    ∀ y, |F y - F' y| ≤ 4 * (1 / 2 * Spec.kernelAt (d := 2) .parabola 1 0) := by
  have key := fun data (hne : data ≠ []) => unit_init_reflect (d := 2) ⟨fun A => A, id⟩ data hne .parabola rfl
    [some (some 0, none), some (some 0, some 4)] (by simp) (by simp) (by simp)
  obtain ⟨k, hk, hw, hD, hM, hr, hc, _⟩ := key [![1 / 2, 3], ![5, 1 / 3]] (by simp)
  obtain ⟨k', hk', hw', hD', hM', hr', hc', _⟩ := key [![1 / 2, 3], ![6, 1]] (by simp)
  obtain ⟨F, F', hF, hF', hle⟩ := C132_sensitivity_reflect hk hk' (fun _ => []) two_pos hr hr' (by rw [hM]; exact PosDef.one)
    (x := ![![1 / 2, 3], ![5, 1 / 3]]) (x' := ![![1 / 2, 3], ![6, 1]]) (by simp) (by simp) (by rw [hw, hw']) (by rw [hM, hM'])
    (by rw [hD, hD'])
  refine ⟨_, _, k, k', F, F', rfl, rfl, hk, hk', hF, hF', fun y => ?_⟩
  have := hle y
  rw [hw, hD, hM] at this
  have hset : (Finset.univ.filter fun i : Fin 2 => (![![1 / 2, 3], ![5, 1 / 3]] : Fin 2 → Fin 2 → ℝ) i ≠
      (![![1 / 2, 3], ![6, 1]] : Fin 2 → Fin 2 → ℝ) i) = {1} := by
    ext i
    fin_cases i <;> simp
    all_goals norm_num
  rw [hset] at this
  simpa [Spec.boundaryCount, Spec.bounds, List.finRange_succ, Spec.weightOf] using this

end Kalepy
