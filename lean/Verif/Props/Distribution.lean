import Verif.Model.Distribution
import Verif.Props.Evaluate
import Verif.Proofs.Integrals

/-!
# C79, C80, C81: the methods `evaluate`, `grid` and `inside` of the distributions
-/

namespace Kalepy

open MeasureTheory Matrix

lemma rad_sq {d : ℕ} (x : Fin d → ℝ) : rad x ^ 2 = ∑ i, x i ^ 2 :=
  Real.sq_sqrt (Finset.sum_nonneg fun i _ => sq_nonneg _)

lemma rad_lt_one {d : ℕ} (x : Fin d → ℝ) : rad x < 1 ↔ ∑ i, x i ^ 2 < 1 := by
  rw [rad, Real.sqrt_lt' one_pos, one_pow]

lemma shape_nonneg' (D : Dist) (s : ℝ) : 0 ≤ Spec.shape D s := by
  cases D with
  | gaussian => exact (Real.exp_pos _).le
  | box => simp only [Spec.shape]; split <;> norm_num
  | parabola => simp only [Spec.shape]; split <;> linarith
  | triweight => simp only [Spec.shape]; split; exacts [pow_nonneg (by linarith) 3, le_rfl]

lemma shape_antitone (D : Dist) {s t : ℝ} (h : s ≤ t) : Spec.shape D t ≤ Spec.shape D s := by
  cases D with
  | gaussian => exact Real.exp_le_exp.mpr (by linarith)
  | box =>
    simp only [Spec.shape]
    split_ifs with h1 h2
    · exact le_rfl
    · exact absurd (h.trans h1) h2
    · norm_num
    · exact le_rfl
  | parabola =>
    simp only [Spec.shape]
    split_ifs <;> linarith
  | triweight =>
    simp only [Spec.shape]
    split_ifs with h1 h2
    · exact pow_le_pow_left₀ (by linarith) (by linarith) 3
    · exfalso; linarith
    · exact pow_nonneg (by linarith) 3
    · exact le_rfl

lemma evaluate_mat (D : Dist) (d : ℕ) (pts : List (Fin d → ℝ)) :
    D.evaluate (.mat ⟨d, pts⟩) = pts.map fun x => D.eval (rad x ^ 2) / D.norm d := rfl

lemma evaluate_vec (D : Dist) (l : List ℝ) :
    D.evaluate (.vec l) = (l.map fun (x : ℝ) (_ : Fin 1) => x).map fun x => D.eval (rad x ^ 2) / D.norm 1 := rfl

/-! ## C79 -/

/-- **C79.** In every dimension, `evaluate` of a distribution is one function of the point, applied to each column: a
constant times the documented shape of the squared distance from the origin.  It is nonnegative, integrates to one, does
not increase with the distance, vanishes outside the unit ball for the finite kernels, and is positive everywhere for
the Gaussian.  A 1D array is read as points in one dimension. -/
theorem C79_evaluate (D : Dist) (d : ℕ) (hd : 0 < d) :
    ∃ (F : (Fin d → ℝ) → ℝ) (c : ℝ),
      (∀ pts : List (Fin d → ℝ), D.evaluate (.mat ⟨d, pts⟩) = pts.map F) ∧
      (d = 1 → ∀ l : List ℝ, D.evaluate (.vec l) = l.map fun x => F fun _ => x) ∧
      (∀ x, F x = c * Spec.shape D (∑ i, x i ^ 2)) ∧ 0 < c ∧
      (∀ x, 0 ≤ F x) ∧ Integrable F ∧ ∫ x, F x = 1 ∧
      (∀ x y, ∑ i, x i ^ 2 ≤ ∑ i, y i ^ 2 → F y ≤ F x) ∧
      (D.finite = true → ∀ x, 1 < ∑ i, x i ^ 2 → F x = 0) ∧ (D.finite = false → ∀ x, 0 < F x) := by
  have hn := D.norm_pos d hd
  have hI : ∫ x : Fin d → ℝ, Spec.shape D (∑ i, x i ^ 2) = D.norm d := by
    rw [← integral_shape hd D]
    congr 1
    funext x
    simp only [dotProduct, pow_two]
  have hint : Integrable fun x : Fin d → ℝ => Spec.shape D (∑ i, x i ^ 2) := by
    by_contra h
    rw [integral_undef h] at hI
    exact hn.ne hI
  refine ⟨fun x => (D.norm d)⁻¹ * Spec.shape D (∑ i, x i ^ 2), (D.norm d)⁻¹, fun pts => ?_, fun h1 l => ?_, fun x => rfl,
    inv_pos.mpr hn, fun x => mul_nonneg (inv_pos.mpr hn).le (shape_nonneg' D _), hint.const_mul _, ?_, fun x y h => ?_,
    fun hf x hx => ?_, fun hf x => ?_⟩
  · rw [evaluate_mat]
    refine List.map_congr_left fun x _ => ?_
    rw [rad_sq, shape_eq, div_eq_inv_mul]
  · subst h1
    rw [evaluate_vec, List.map_map]
    refine List.map_congr_left fun x _ => ?_
    simp only [Function.comp_apply]
    rw [rad_sq, shape_eq, div_eq_inv_mul]
  · rw [integral_const_mul, hI, inv_mul_cancel₀ hn.ne']
  · exact mul_le_mul_of_nonneg_left (shape_antitone D h) (inv_pos.mpr hn).le
  · have : Spec.shape D (∑ i, x i ^ 2) = 0 := by
      cases D with
      | gaussian => cases hf
      | box => simp [Spec.shape, not_le.mpr hx]
      | parabola => simp [Spec.shape, not_le.mpr hx]
      | triweight => simp [Spec.shape, not_le.mpr hx]
    show _ * Spec.shape D (∑ i, x i ^ 2) = 0
    rw [this, mul_zero]
  · cases D with
    | gaussian => exact mul_pos (inv_pos.mpr hn) (Real.exp_pos _)
    | box => cases hf
    | parabola => cases hf
    | triweight => cases hf

/-! ## C80 -/

/-- **C80.** `grid(edges)` is an array with one axis per edge array, and its entry with a given index is what `evaluate`
returns for this point of the product grid. -/
theorem C80_grid (D : Dist) (edges : List (List ℝ)) (h : edges ≠ []) :
    ∃ A, D.grid edges = .ok A ∧ (∀ i, A.shape i = (edges.get i).length) ∧
      ∀ idx : Fin edges.length → ℕ, (∀ i, idx i < (edges.get i).length) →
        D.evaluate (.mat ⟨edges.length, [fun i => (edges.get i).getD (idx i) 0]⟩) = [A.get idx] := by
  have hne : meshRows edges ≠ [] := by
    intro h0
    apply h
    have : (meshRows edges).length = edges.length := by simp [meshRows]
    rw [h0] at this
    exact List.eq_nil_of_length_eq_zero this.symm
  have hmesh : ∀ r ∈ meshRows edges, r.length = ∏ i, (edges.get i).length := by
    intro r hr
    obtain ⟨i, rfl⟩ := (List.mem_ofFn' _ _).mp hr
    rw [NDArr.flat_length]
    rfl
  obtain ⟨c, h1, h2, h3⟩ := toCols_eq hne hmesh
  rw [meshRows_cols] at h3
  have hdim : c.dim = edges.length := by rw [h2]; simp [meshRows]
  let f : List ℝ → ℝ := fun l => D.eval (Real.sqrt ((l.map (· ^ 2)).sum) ^ 2) / D.norm edges.length
  have hf : ∀ {n : ℕ} (x : Fin n → ℝ), rad x = Real.sqrt (((List.ofFn x).map (· ^ 2)).sum) := by
    intro n x
    rw [rad, List.map_ofFn, List.sum_ofFn]
    rfl
  have hv : D.evaluate (.mat c) = (List.range (∏ i, (edges.get i).length)).map fun j =>
      f (List.ofFn fun i : Fin edges.length =>
        (edges.get i).getD (unravelIdx (fun i => (edges.get i).length) j i) 0) := by
    have e1 : D.evaluate (.mat c) = c.cols.map fun x => f (List.ofFn x) := by
      rw [show D.evaluate (.mat c) = c.cols.map fun x => D.eval (rad x ^ 2) / D.norm c.dim from rfl]
      refine List.map_congr_left fun x _ => ?_
      simp only [f]
      rw [hf, congrArg D.norm hdim]
    rw [e1]
    have := congrArg (List.map f) h3
    simpa only [List.map_map, Function.comp_def] using this
  refine ⟨_, by unfold Dist.grid; rw [if_neg h, h1], fun i => rfl, fun idx hidx => ?_⟩
  have hlt := ravelIdx_lt (shape := fun i : Fin edges.length => (edges.get i).length) hidx
  simp only
  rw [hv, List.getD_eq_getElem _ _ (by simpa using hlt)]
  simp only [List.getElem_map, List.getElem_range]
  rw [unravel_ravelIdx hidx]
  rw [evaluate_mat]
  simp only [List.map_cons, List.map_nil, f]
  rw [hf]

/-! ## C81 -/

/-- **C81 (full statement, not true of the code).** `inside(points)` tells for each point whether the distribution is
positive there. -/
def C81_Claim : Prop :=
  ∀ (D : Dist) (p : PointsArr), 0 < p.cols.dim →
    ∃ mask, D.inside p = .ok mask ∧ mask = (D.evaluate p).map fun v => decide (0 < v)

/-- **C81 (partial).** What holds: for the finite kernels and a 2D array of points, `inside` returns a mask of the points in
the open unit ball; the distribution is positive there; and for the kernels that vanish on the sphere (all but Box) the
mask is true exactly where the distribution is positive.  Missing: see `C81_gaussian`, `C81_vectors`, `C81_sphere`. -/
theorem C81_inside_partial (D : Dist) (hD : D.finite = true) (d : ℕ) (hd : 0 < d) (pts : List (Fin d → ℝ)) :
    (∃ mask, D.inside (.mat ⟨d, pts⟩) = .ok mask ∧ mask.length = pts.length ∧
      ∀ (k : ℕ) (x : Fin d → ℝ) (v : ℝ), pts[k]? = some x → (D.evaluate (.mat ⟨d, pts⟩))[k]? = some v →
        ∃ b, mask[k]? = some b ∧ (b = true ↔ ∑ i, x i ^ 2 < 1) ∧ (b = true → 0 < v) ∧ (0 < v → ∑ i, x i ^ 2 ≤ 1)) ∧
    (D ≠ .box → D.inside (.mat ⟨d, pts⟩) = .ok ((D.evaluate (.mat ⟨d, pts⟩)).map fun v => decide (0 < v))) := by
  have hin : D.inside (.mat ⟨d, pts⟩) = .ok (pts.map fun x => decide (rad x < 1)) := by
    cases D with
    | gaussian => cases hD
    | box => rfl
    | parabola => rfl
    | triweight => rfl
  have hn := D.norm_pos d hd
  have hpos : ∀ x : Fin d → ℝ, 0 < D.eval (rad x ^ 2) / D.norm d ↔ 0 < Spec.shape D (∑ i, x i ^ 2) := by
    intro x
    rw [rad_sq, shape_eq]
    constructor
    · intro h
      by_contra hc
      exact absurd h (not_lt.mpr (div_nonpos_of_nonpos_of_nonneg (not_lt.mp hc) hn.le))
    · intro h; exact div_pos h hn
  have hsupp : ∀ s, 0 < Spec.shape D s → s ≤ 1 := by
    intro s hs
    by_contra hc
    cases D with
    | gaussian => cases hD
    | box => simp [Spec.shape, hc] at hs
    | parabola => simp [Spec.shape, hc] at hs
    | triweight => simp [Spec.shape, hc] at hs
  have hball : ∀ s, s < 1 → 0 < Spec.shape D s := by
    intro s hs
    cases D with
    | gaussian => cases hD
    | box => simp [Spec.shape, hs.le]
    | parabola => simp only [Spec.shape, if_pos hs.le]; linarith
    | triweight => simp only [Spec.shape, if_pos hs.le]; exact pow_pos (by linarith) 3
  refine ⟨⟨_, hin, by simp, fun k x v hx hv => ?_⟩, fun hb => ?_⟩
  · rw [evaluate_mat] at hv
    simp only [List.getElem?_map, hx, Option.map_some, Option.some.injEq] at hv
    refine ⟨decide (rad x < 1), by rw [List.getElem?_map, hx]; rfl, ?_, ?_, ?_⟩
    · rw [decide_eq_true_iff, rad_lt_one]
    · rw [decide_eq_true_iff, rad_lt_one, ← hv, hpos]; exact hball _
    · rw [← hv, hpos]; exact hsupp _
  · rw [hin]
    congr 1
    rw [evaluate_mat, List.map_map]
    refine List.map_congr_left fun x _ => ?_
    simp only [Function.comp_apply, decide_eq_decide]
    rw [rad_lt_one, hpos]
    refine ⟨hball _, fun h => ?_⟩
    have h1 := hsupp _ h
    rcases h1.lt_or_eq with h2 | h2
    · exact h2
    · exfalso
      rw [h2] at h
      cases D with
      | gaussian => cases hD
      | box => exact hb rfl
      | parabola => simp [Spec.shape] at h
      | triweight => simp [Spec.shape] at h

/-- **C81.** For the Gaussian `inside` never returns. -/
theorem C81_gaussian (p : PointsArr) : Dist.inside .gaussian p = .error .typeError := rfl

/-- **C81.** For a 1D array of two or more points `inside` never returns, although `evaluate` does. -/
theorem C81_vectors (D : Dist) (x y : ℝ) (l : List ℝ) :
    (∃ e, D.inside (.vec (x :: y :: l)) = .error e) ∧ (D.evaluate (.vec (x :: y :: l))).length = l.length + 2 := by
  refine ⟨?_, by simp [Dist.evaluate, PointsArr.cols]⟩
  cases D <;> exact ⟨_, rfl⟩

/-- **C81.** The Box kernel is positive on the unit sphere, which is not `inside`. -/
theorem C81_sphere (d : ℕ) (hd : 0 < d) (x : Fin d → ℝ) (hx : ∑ i, x i ^ 2 = 1) :
    Dist.inside .box (.mat ⟨d, [x]⟩) = .ok [false] ∧ ∃ v, Dist.evaluate .box (.mat ⟨d, [x]⟩) = [v] ∧ 0 < v := by
  refine ⟨?_, _, evaluate_mat _ _ _, ?_⟩
  · simp only [Dist.inside, Dist.insideUnitBall, List.map_cons, List.map_nil, Except.ok.injEq]
    rw [List.cons.injEq]
    refine ⟨?_, rfl⟩
    rw [decide_eq_false_iff_not, rad_lt_one, hx]
    exact lt_irrefl _
  · have := Dist.norm_pos .box d hd
    simp only [rad_sq, hx, Dist.eval, le_refl, if_true]
    positivity

/-- **C81 is false of the code.** -/
theorem C81_refuted : ¬ C81_Claim := by
  intro h
  obtain ⟨_, h1, -⟩ := h .gaussian (.vec [0]) one_pos
  cases h1

/-- A point on the unit circle. -/
example : ∑ i, (![3 / 5, 4 / 5] : Fin 2 → ℝ) i ^ 2 = 1 := by
  rw [Fin.sum_univ_two]; norm_num

end Kalepy
