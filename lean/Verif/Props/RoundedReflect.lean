import Verif.Props.Rounding
import Verif.Props.ReflectDims

/-!
# C135, with boundaries: the density in rounded arithmetic, with mirror images
-/

namespace Kalepy

open Matrix Spec

variable {m : ℕ} {fl : ℝ → ℝ} {u : ℝ}

/-! ### Specification -/

/-- All boundaries with the index of their coordinate, of the coordinates in `l`. -/
def Spec.planes (rows : Fin m → ReflRow) (l : List (Fin m)) : List (Fin m × ℝ) :=
  l.flatMap fun j => (Spec.bounds (rows j)).map fun b => (j, b)

/-- The weighted data, each mirrored in the boundary `p`. -/
def Spec.mirrored (wdata : List ((Fin m → ℝ) × ℝ)) (p : Fin m × ℝ) : List ((Fin m → ℝ) × ℝ) :=
  wdata.map fun q => (Spec.mirror p.1 p.2 q.1, q.2)

/-- The sizes of the numbers from which a mirrored datum is computed. -/
noncomputable def Spec.mirrorSize (p : Fin m × ℝ) (d : Fin m → ℝ) : Fin m → ℝ :=
  fun l => if l = p.1 then 2 * |p.2| + |d l| else |d l|

/-- The weighted sum of the sizes of the kernels at `x`. -/
noncomputable def Spec.sizeSum (D : Dist) (white : Matrix (Fin m) (Fin m) ℝ) (wdata : List ((Fin m → ℝ) × ℝ))
    (x : Fin m → ℝ) : ℝ :=
  (wdata.map fun q => q.2 * (1 + Spec.distSize white x q.1) ^ Spec.degree D).sum

/-- The same for the data mirrored in the boundary `p`. -/
noncomputable def Spec.mirrorSum (D : Dist) (white : Matrix (Fin m) (Fin m) ℝ) (wdata : List ((Fin m → ℝ) × ℝ))
    (x : Fin m → ℝ) (p : Fin m × ℝ) : ℝ :=
  (wdata.map fun q => q.2 * (1 + Spec.distSize white x (Spec.mirrorSize p q.1)) ^ Spec.degree D).sum

/-! ### Approximate data -/

lemma whiten_approx_of (hu : Accurate u fl) (hu0 : 0 ≤ u) (white : Matrix (Fin m) (Fin m) ℝ) (k : Fin m)
    {z z' Z : Fin m → ℝ} {G : ℝ} (hG : 0 ≤ G) (h : ∀ l, Approx G (Z l) (z l) (z' l)) :
    Approx (G * (1 + u) ^ (m + 1)) (∑ l, |white k l| * |Z l|) (whitenFl fl white k z) (∑ l, white k l * z' l) := by
  have h : ∀ l ∈ List.finRange m, Approx (G * (1 + u)) (|white k l| * |Z l|) (fl (white k l * z l)) (white k l * z' l) := by
    intro l _
    have := ((Approx.exact (white k l)).mul (h l)).round hu hu0
    rw [one_mul] at this
    rwa [abs_of_nonneg (h l).nonneg]
  have := Approx.foldl_zero hu hu0 (by positivity) (List.finRange m) h
  rw [List.length_finRange, mul_assoc, ← pow_succ'] at this
  rw [Fin.sum_univ_def, Fin.sum_univ_def]
  exact this

lemma dist2_approx_of (hu : Accurate u fl) (hu0 : 0 ≤ u) (white : Matrix (Fin m) (Fin m) ℝ) (x : Fin m → ℝ)
    {z z' Z : Fin m → ℝ} (h : ∀ l, Approx ((1 + u) ^ 2) (Z l) (z l) (z' l)) :
    Approx ((1 + u) ^ (3 * m + 9)) (Spec.distSize white x Z) (dist2Fl fl white x z) (whitenedDist2 white x z') := by
  have hb : 1 ≤ 1 + u := by linarith
  have h : ∀ k ∈ List.finRange m, Approx ((1 + u) ^ (2 * m + 9))
      (((∑ l, |white k l| * |x l|) + ∑ l, |white k l| * |Z l|) ^ 2)
      (fl (fl (whitenFl fl white k x - whitenFl fl white k z) * fl (whitenFl fl white k x - whitenFl fl white k z)))
      (((∑ l, white k l * x l) - (∑ l, white k l * z' l)) ^ 2) := by
    intro k _
    have h0 := whiten_approx_of hu hu0 white k (by positivity) h
    have h00 := (whiten_approx hu hu0 white k x).le (H := (1 + u) ^ 2 * (1 + u) ^ (m + 1))
      (by rw [← pow_add]; exact pow_le_pow_right₀ hb (by omega))
    have h1 := (h00.sub h0).round hu hu0
    have h2 := (h1.mul h1).round hu hu0
    have e : (1 + u) ^ 2 * (1 + u) ^ (m + 1) * (1 + u) * ((1 + u) ^ 2 * (1 + u) ^ (m + 1) * (1 + u)) * (1 + u)
        = (1 + u) ^ (2 * m + 9) := by ring
    rw [e] at h2
    rw [pow_two, pow_two]
    exact h2
  have := Approx.foldl_zero hu hu0 (by positivity) (List.finRange m) h
  rw [List.length_finRange, ← pow_add, show 2 * m + 9 + m = 3 * m + 9 by ring] at this
  rw [Spec.distSize, whitenedDist2, Fin.sum_univ_def, Fin.sum_univ_def]
  exact this

/-- The kernel of an approximate distance. -/
lemma kernel_approx_of (hu : Accurate u fl) (hu0 : 0 ≤ u) (hu1 : u ≤ 1) {D : Dist} (hD : D ≠ .box) {r : ℕ} {S y y' : ℝ}
    (h : Approx ((1 + u) ^ r) S y y') (hy : 0 ≤ y) (hy' : 0 ≤ y') :
    Approx ((1 + u) ^ (3 * r + 5)) ((1 + S) ^ Spec.degree D) (D.evalFl fl y) (Spec.shape D y') := by
  have hS := h.nonneg
  have hb : 1 ≤ 1 + u := by linarith
  have h1 : Approx ((1 + u) ^ (r + 1)) (1 + S) (fl (1 - y)) (1 - y') := by
    have e : Approx ((1 + u) ^ r) 1 1 1 := by
      have := (Approx.exact 1).le (one_le_pow₀ hb : 1 ≤ (1 + u) ^ r)
      rwa [abs_one] at this
    have := (e.sub h).round hu hu0
    rwa [← pow_succ] at this
  cases D with
  | box => exact absurd rfl hD
  | gaussian =>
    have h2 : Approx ((1 + u) ^ r) (S * (1 / 2)) (-y / 2) (-y' / 2) := by
      have := h.neg.mul (Approx.exact (1 / 2))
      rw [mul_one, abs_of_pos (by norm_num : (0 : ℝ) < 1 / 2)] at this
      rwa [show -y * (1 / 2) = -y / 2 by ring, show -y' * (1 / 2) = -y' / 2 by ring] at this
    have h3 := h2.round hu hu0
    rw [← pow_succ] at h3
    have hle : fl (-y / 2) ≤ 0 := hu.nonpos hu1 (by linarith)
    have h4 : Approx ((1 + u) ^ (r + 1)) (1 + S) (Real.exp (fl (-y / 2))) (Real.exp (-y' / 2)) := by
      refine ⟨(abs_exp_sub_exp_le hle (by linarith)).trans (h3.err.trans ?_), ?_⟩
      · have : 0 ≤ (1 + u) ^ (r + 1) - 1 := sub_nonneg.mpr (one_le_pow₀ hb)
        exact mul_le_mul_of_nonneg_left (by linarith) this
      · rw [abs_of_pos (Real.exp_pos _)]
        have : Real.exp (-y' / 2) ≤ 1 := Real.exp_le_one_iff.mpr (by linarith)
        linarith
    have h5 := h4.round hu hu0
    rw [← pow_succ] at h5
    simp only [Dist.evalFl, Spec.shape, Spec.degree, pow_one]
    exact h5.le (pow_le_pow_right₀ hb (by omega))
  | parabola =>
    simp only [Dist.evalFl, Spec.degree, pow_one, shape_parabola]
    exact h1.max_zero.le (pow_le_pow_right₀ hb (by omega))
  | triweight =>
    have h2 := (h1.mul h1).round hu hu0
    have h3 := (h1.mul h2).round hu hu0
    simp only [Dist.evalFl, Spec.degree, shape_triweight]
    have e : (1 + S) ^ 3 = (1 + S) * ((1 + S) * (1 + S)) := by ring
    rw [e]
    refine h3.max_zero.le ?_
    rw [← pow_add, ← pow_succ, ← pow_add, ← pow_succ]
    exact pow_le_pow_right₀ hb (by omega)

/-- The mirrored datum. -/
lemma mirror_approx (hu : Accurate u fl) (hu0 : 0 ≤ u) (p : Fin m × ℝ) (d : Fin m → ℝ) (l : Fin m) :
    Approx ((1 + u) ^ 2) (Spec.mirrorSize p d l) (Function.update d p.1 (fl (fl (2 * p.2) - d p.1)) l)
      (Spec.mirror p.1 p.2 d l) := by
  have hb : 1 ≤ 1 + u := by linarith
  by_cases hl : l = p.1
  · subst hl
    have h1 := (Approx.exact (2 * p.2)).round hu hu0
    have h2 := ((h1.sub ((Approx.exact (d p.1)).le (by linarith : 1 ≤ 1 * (1 + u))))).round hu hu0
    simp only [Spec.mirrorSize, Spec.mirror, Function.update_self, if_true]
    rw [abs_mul, abs_two, one_mul] at h2
    rw [show p.2 - (d p.1 - p.2) = 2 * p.2 - d p.1 by ring, pow_two]
    exact h2
  · simp only [Spec.mirrorSize, Spec.mirror, Function.update_of_ne hl, if_neg hl]
    exact (Approx.exact _).le (one_le_pow₀ hb)

/-- The sum of the kernels of the data `d q` near `d' q`. -/
lemma evaluate_approx (hu : Accurate u fl) (hu0 : 0 ≤ u) {D : Dist} {white M : Matrix (Fin m) (Fin m) ℝ}
    (hW : whiteᵀ * white = M⁻¹) (data : List (Fin m → ℝ)) (weights : List ℝ) (hw : ∀ w ∈ weights, 0 ≤ w) (x : Fin m → ℝ)
    {g g' Z : (Fin m → ℝ) → Fin m → ℝ} {r : ℕ}
    (h : ∀ d, Approx ((1 + u) ^ r) ((1 + Spec.distSize white x (Z d)) ^ Spec.degree D)
      (D.evalFl fl (dist2Fl fl white x (g d))) (Spec.shape D (whitenedDist2 white x (g' d)))) :
    Approx ((1 + u) ^ (r + 1 + (data.zip weights).length))
      (((data.zip weights).map fun q => q.2 * (1 + Spec.distSize white x (Z q.1)) ^ Spec.degree D).sum)
      (evaluateOneFl fl D white (data.map g) weights x)
      (Spec.kernelSum D M ((data.zip weights).map fun q => (g' q.1, q.2)) x) := by
  have h1 : ∀ q ∈ data.zip weights, Approx ((1 + u) ^ (r + 1)) (q.2 * (1 + Spec.distSize white x (Z q.1)) ^ Spec.degree D)
      (fl (D.evalFl fl (dist2Fl fl white x (g q.1)) * q.2)) (q.2 * Spec.shape D (Spec.dist2 M (x - g' q.1))) := by
    intro q hq
    have := ((h q.1).mul (Approx.exact q.2)).round hu hu0
    rw [mul_one, ← pow_succ, abs_of_nonneg (hw q.2 (List.of_mem_zip hq).2), whitened_eq hW, mul_comm _ q.2,
      mul_comm (Spec.shape D _)] at this
    exact this
  have h2 := Approx.foldl_zero hu hu0 (by positivity) (data.zip weights) h1
  rw [← pow_add] at h2
  have e1 : (data.map g).zip weights = (data.zip weights).map fun q => (g q.1, q.2) := by
    rw [List.zip_map_left]; rfl
  rw [evaluateOneFl, e1, List.foldl_map, Spec.kernelSum, List.map_map]
  exact h2

/-! ### One point -/

open Classical in
/-- The loop over boundaries, for one point. -/
noncomputable def reflectOneFl (fl : ℝ → ℝ) (D : Dist) (white : Matrix (Fin m) (Fin m) ℝ)
    (data : List (Fin m → ℝ)) (weights : List ℝ) (x : Fin m → ℝ) (i : Fin m) (r : ReflRow) (acc : ℝ) : ℝ :=
  if Spec.Violates r (x i) then 0
  else ((Spec.bounds r).map fun b => (i, b)).foldl (fun acc p => fl (acc + evaluateOneFl fl D white
    (data.map fun d => Function.update d p.1 (fl (fl (2 * p.2) - d p.1))) weights x)) acc

open Classical in
lemma reflectStepFl_map (D : Dist) (white : Matrix (Fin m) (Fin m) ℝ) (data points : List (Fin m → ℝ))
    (weights : List ℝ) (F : (Fin m → ℝ) → ℝ) (i : Fin m) (r : ReflRow) :
    reflectStepFl fl D white data points weights (points.map F) i r
      = points.map fun x => reflectOneFl fl D white data weights x i r (F x) := by
  have hadd : ∀ (F : (Fin m → ℝ) → ℝ) (o : Option ℝ), reflectAddFl fl D white data points weights i (points.map F) o
      = points.map fun x => (o.toList.map fun b => (i, b)).foldl (fun acc p => fl (acc + evaluateOneFl fl D white
        (data.map fun d => Function.update d p.1 (fl (fl (2 * p.2) - d p.1))) weights x)) (F x) := by
    intro F o
    cases o with
    | none => simp [reflectAddFl]
    | some b => simp [reflectAddFl, evaluateFl, List.zipWith_map, List.zipWith_self]
  cases r with
  | none => simp [reflectStepFl, reflectOneFl, Spec.Violates, Spec.bounds]
  | some r =>
    obtain ⟨lo, hi⟩ := r
    simp only [reflectStepFl, hadd, List.zipWith_map_right, List.zipWith_self]
    refine List.map_congr_left fun x _ => ?_
    simp only [reflectOneFl, Spec.bounds, List.map_append, List.foldl_append, outsideRow_iff]

lemma densityFl_map (D : Dist) (white : Matrix (Fin m) (Fin m) ℝ) (norm : ℝ) (data points : List (Fin m → ℝ))
    (weights : List ℝ) (rows : Fin m → ReflRow) :
    densityFl fl D white norm data points weights (some rows)
      = points.map fun x => fl (((List.finRange m).foldl (fun acc i => reflectOneFl fl D white data weights x i (rows i) acc)
          (evaluateOneFl fl D white data weights x)) / norm) := by
  have h : ∀ (l : List (Fin m)) (F : (Fin m → ℝ) → ℝ),
      l.foldl (fun res i => reflectStepFl fl D white data points weights res i (rows i)) (points.map F)
        = points.map fun x => l.foldl (fun acc i => reflectOneFl fl D white data weights x i (rows i) acc) (F x) := by
    intro l
    induction l with
    | nil => intro F; rfl
    | cons i l ih => intro F; rw [List.foldl_cons, reflectStepFl_map, ih]; rfl
  simp only [densityFl, evaluateFl, h, List.map_map]
  rfl

lemma planes_cons (rows : Fin m → ReflRow) (i : Fin m) (l : List (Fin m)) :
    Spec.planes rows (i :: l) = ((Spec.bounds (rows i)).map fun b => (i, b)) ++ Spec.planes rows l := rfl

lemma foldl_planes (D : Dist) (white : Matrix (Fin m) (Fin m) ℝ) (data : List (Fin m → ℝ)) (weights : List ℝ)
    (rows : Fin m → ReflRow) (x : Fin m → ℝ) (l : List (Fin m)) (hl : ∀ i ∈ l, ¬ Spec.Violates (rows i) (x i)) :
    ∀ acc, l.foldl (fun acc i => reflectOneFl fl D white data weights x i (rows i) acc) acc
      = (Spec.planes rows l).foldl (fun acc p => fl (acc + evaluateOneFl fl D white
        (data.map fun d => Function.update d p.1 (fl (fl (2 * p.2) - d p.1))) weights x)) acc := by
  induction l with
  | nil => intro acc; rfl
  | cons i l ih =>
    intro acc
    rw [List.foldl_cons, ih fun j hj => hl j (List.mem_cons_of_mem _ hj), planes_cons, List.foldl_append,
      reflectOneFl, if_neg (hl i List.mem_cons_self)]

lemma planes_length (rows : Fin m → ReflRow) (l : List (Fin m)) : (Spec.planes rows l).length ≤ 2 * l.length := by
  induction l with
  | nil => simp [Spec.planes]
  | cons i l ih =>
    have h : (Spec.bounds (rows i)).length ≤ 2 := by
      rcases rows i with _ | ⟨lo, hi⟩
      · simp [Spec.bounds]
      · cases lo <;> cases hi <;> simp [Spec.bounds]
    simp only [Spec.planes, List.flatMap_cons, List.length_append, List.length_map, List.length_cons] at ih ⊢
    omega

variable {D : Dist} {white M : Matrix (Fin m) (Fin m) ℝ}

lemma plane_approx (hu : Accurate u fl) (hu0 : 0 ≤ u) (hu1 : u ≤ 1) (hD : D ≠ .box) (hW : whiteᵀ * white = M⁻¹)
    (data : List (Fin m → ℝ)) (weights : List ℝ) (hw : ∀ w ∈ weights, 0 ≤ w) (x : Fin m → ℝ) (p : Fin m × ℝ) :
    Approx ((1 + u) ^ (9 * m + 33 + (data.zip weights).length)) (Spec.mirrorSum D white (data.zip weights) x p)
      (evaluateOneFl fl D white (data.map fun d => Function.update d p.1 (fl (fl (2 * p.2) - d p.1))) weights x)
      (Spec.kernelSum D M (Spec.mirrored (data.zip weights) p) x) := by
  have := evaluate_approx (D := D) hu hu0 hW data weights hw x (Z := Spec.mirrorSize p)
    (g := fun d => Function.update d p.1 (fl (fl (2 * p.2) - d p.1))) (g' := Spec.mirror p.1 p.2)
    fun d => kernel_approx_of hu hu0 hu1 hD (dist2_approx_of hu hu0 white x (mirror_approx hu hu0 p d))
      (dist2Fl_nonneg hu hu1 white x _) (Finset.sum_nonneg fun _ _ => sq_nonneg _)
  rwa [show 3 * (3 * m + 9) + 5 + 1 = 9 * m + 33 by ring] at this

/-- **C135 (accuracy with boundaries).** At a point inside all boundaries, the computed density is within the stated bound
of the sum of the kernels of the data and of their mirror images. -/
theorem C135_reflect (hu : Accurate u fl) (hu0 : 0 ≤ u) (hu1 : u ≤ 1) (hD : D ≠ .box) (hW : whiteᵀ * white = M⁻¹)
    {norm : ℝ} (hn : 0 < norm) (data points : List (Fin m → ℝ)) (weights : List ℝ) (hw : ∀ w ∈ weights, 0 ≤ w)
    (rows : Fin m → ReflRow) (i : ℕ) (h : i < points.length)
    (h' : i < (densityFl fl D white norm data points weights (some rows)).length)
    (hx : ∀ j, ¬ Spec.Violates (rows j) (points[i] j)) :
    |(densityFl fl D white norm data points weights (some rows))[i]
        - (Spec.kernelSum D M (data.zip weights) points[i] + ((Spec.planes rows (List.finRange m)).map fun p =>
            Spec.kernelSum D M (Spec.mirrored (data.zip weights) p) points[i]).sum) / norm|
      ≤ ((1 + u) ^ (11 * m + (data.zip weights).length + 34) - 1)
          * ((Spec.sizeSum D white (data.zip weights) points[i] + ((Spec.planes rows (List.finRange m)).map fun p =>
              Spec.mirrorSum D white (data.zip weights) points[i] p).sum) / norm) := by
  have hb : 1 ≤ 1 + u := by linarith
  set n := (data.zip weights).length
  set x := points[i] with hxdef
  have h0 : Approx ((1 + u) ^ (9 * m + 33 + n)) (Spec.sizeSum D white (data.zip weights) x)
      (evaluateOneFl fl D white data weights x) (Spec.kernelSum D M (data.zip weights) x) := by
    have := evaluate_approx (D := D) hu hu0 hW data weights hw x (Z := id) (g := id) (g' := id)
      fun d => kernel_approx hu hu0 hu1 hD white x d
    simp only [List.map_id, id, Prod.mk.eta, List.map_id'] at this
    refine this.le (pow_le_pow_right₀ hb ?_)
    omega
  have h1 := Approx.foldl hu hu0 (Spec.planes rows (List.finRange m)) h0 le_rfl (by positivity)
    fun p _ => plane_approx hu hu0 hu1 hD hW data weights hw x p
  have h2 := (h1.mul (Approx.exact norm⁻¹)).round hu hu0
  rw [mul_one, abs_of_pos (inv_pos.mpr hn), ← div_eq_mul_inv, ← div_eq_mul_inv, ← div_eq_mul_inv, ← pow_add,
    ← pow_succ] at h2
  have e : (densityFl fl D white norm data points weights (some rows))[i]
      = fl ((Spec.planes rows (List.finRange m)).foldl (fun acc p => fl (acc + evaluateOneFl fl D white
        (data.map fun d => Function.update d p.1 (fl (fl (2 * p.2) - d p.1))) weights x))
          (evaluateOneFl fl D white data weights x) / norm) := by
    simp only [densityFl_map, List.getElem_map]
    rw [foldl_planes D white data weights rows x _ fun j _ => hx j]
  rw [e]
  refine (h2.le (pow_le_pow_right₀ hb ?_)).err
  have := planes_length rows (List.finRange m)
  rw [List.length_finRange] at this
  omega

/-- **C135 (accuracy outside).** At a point that violates the boundaries of the coordinate `j` and of none after `j`, only
the images in the boundaries after `j` are added; in particular the computed density is exactly zero if there are none. -/
theorem C135_outside (hu : Accurate u fl) (hu0 : 0 ≤ u) (hu1 : u ≤ 1) (hD : D ≠ .box) (hW : whiteᵀ * white = M⁻¹)
    {norm : ℝ} (hn : 0 < norm) (data points : List (Fin m → ℝ)) (weights : List ℝ) (hw : ∀ w ∈ weights, 0 ≤ w)
    (rows : Fin m → ReflRow) (i : ℕ) (h : i < points.length)
    (h' : i < (densityFl fl D white norm data points weights (some rows)).length) (j : Fin m)
    (hj : Spec.Violates (rows j) (points[i] j)) (hx : ∀ k, j < k → ¬ Spec.Violates (rows k) (points[i] k)) :
    |(densityFl fl D white norm data points weights (some rows))[i]
        - ((Spec.planes rows ((List.finRange m).drop (j + 1))).map fun p =>
            Spec.kernelSum D M (Spec.mirrored (data.zip weights) p) points[i]).sum / norm|
      ≤ ((1 + u) ^ (11 * m + (data.zip weights).length + 34) - 1)
          * (((Spec.planes rows ((List.finRange m).drop (j + 1))).map fun p =>
              Spec.mirrorSum D white (data.zip weights) points[i] p).sum / norm) := by
  have hb : 1 ≤ 1 + u := by linarith
  set n := (data.zip weights).length
  set x := points[i] with hxdef
  have hsplit : List.finRange m = (List.finRange m).take j ++ j :: (List.finRange m).drop (j + 1) := by
    have : (List.finRange m).drop j = j :: (List.finRange m).drop (j + 1) := by
      rw [List.drop_eq_getElem_cons (by simp)]; simp
    rw [← this, List.take_append_drop]
  have h1 := Approx.foldl_zero hu hu0 (by positivity) (Spec.planes rows ((List.finRange m).drop (j + 1)))
    fun p _ => plane_approx hu hu0 hu1 hD hW data weights hw x p
  have h2 := (h1.mul (Approx.exact norm⁻¹)).round hu hu0
  rw [mul_one, abs_of_pos (inv_pos.mpr hn), ← div_eq_mul_inv, ← div_eq_mul_inv, ← div_eq_mul_inv, ← pow_add,
    ← pow_succ] at h2
  have e : (densityFl fl D white norm data points weights (some rows))[i]
      = fl ((Spec.planes rows ((List.finRange m).drop (j + 1))).foldl (fun acc p => fl (acc + evaluateOneFl fl D white
        (data.map fun d => Function.update d p.1 (fl (fl (2 * p.2) - d p.1))) weights x)) 0 / norm) := by
    simp only [densityFl_map, List.getElem_map]
    refine congrArg (fun v => fl (v / norm)) ?_
    refine (congrArg (List.foldl _ _) hsplit).trans ?_
    rw [List.foldl_append, List.foldl_cons, reflectOneFl, if_pos hj, foldl_planes D white data weights rows x]
    intro k hk
    refine hx k ?_
    obtain ⟨a, ha, rfl⟩ := List.getElem_of_mem hk
    simp only [List.getElem_drop, List.getElem_finRange, Fin.lt_def, Fin.val_cast]
    omega
  rw [e]
  refine (h2.le (pow_le_pow_right₀ hb ?_)).err
  have := planes_length rows ((List.finRange m).drop (j + 1))
  rw [List.length_drop, List.length_finRange] at this
  omega

/-! ### Without rounding -/

lemma foldl_add_sum {α : Type*} (t : α → ℝ) (l : List α) : ∀ acc : ℝ,
    l.foldl (fun acc i => id (acc + t i)) acc = acc + (l.map t).sum := by
  induction l with
  | nil => simp
  | cons i l ih => intro acc; rw [List.foldl_cons, ih]; simp [add_assoc]

lemma evalFl_id (D : Dist) (y : ℝ) : D.evalFl id y = D.eval y := by
  cases D <;> simp only [Dist.evalFl, Dist.eval, id]
  congr 1; ring

lemma dist2Fl_id (white : Matrix (Fin m) (Fin m) ℝ) (x d : Fin m → ℝ) : dist2Fl id white x d = whitenedDist2 white x d := by
  have h : ∀ k x, whitenFl id white k x = ∑ l, white k l * x l := by
    intro k x
    rw [whitenFl, Fin.sum_univ_def]
    exact (foldl_add_sum _ _ 0).trans (zero_add _)
  rw [dist2Fl, whitenedDist2, Fin.sum_univ_def]
  refine (foldl_add_sum _ _ 0).trans ((zero_add _).trans ?_)
  simp only [h, id, pow_two]

lemma evaluateFl_id (D : Dist) (white : Matrix (Fin m) (Fin m) ℝ) (data points : List (Fin m → ℝ)) (weights : List ℝ) :
    evaluateFl id D white data points weights = evaluateNumba white data points weights D.eval := by
  refine List.map_congr_left fun x _ => ?_
  refine (foldl_add_sum _ _ 0).trans ((zero_add _).trans ?_)
  rw [List.zip, List.map_zipWith]
  simp only [evalFl_id, dist2Fl_id, id]

/-- **C135 (without rounding).** Without roundings, the rounded computation is the exact one: the same list of densities
that `Kernel.density` returns in the exact model, with and without boundaries. -/
theorem C135_exact {minv : Matrix (Fin m) (Fin m) ℝ} (hc : cholesky minv = some white) (norm : ℝ) (hn : norm ≠ 0)
    (data points : List (Fin m → ℝ)) (weights : List ℝ) (hlen : weights.length = data.length)
    (reflect : Option (List ReflRow)) (hr : ∀ l, reflect = some l → l.length = m) :
    densityCore D norm minv ⟨m, points⟩ data (some weights) reflect
      = .ok (densityFl id D white (norm * D.norm m) data points weights
          (reflect.map fun l (j : Fin m) => l.getD j none)) := by
  have hadd : ∀ (i : Fin m) (res : List ℝ) (o : Option ℝ), reflectAddFl id D white data points weights i res o
      = reflectAdd white data points weights D.eval i res o := by
    intro i res o
    cases o with
    | none => rfl
    | some b => simp only [reflectAddFl, reflectAdd, evaluateFl_id, id]; rfl
  have hstep : ∀ (i : Fin m) (res : List ℝ) (r : ReflRow), reflectStepFl id D white data points weights res i r
      = reflectStep white data points weights D.eval res i r := by
    intro i res r
    cases r with
    | none => rfl
    | some r => simp only [reflectStepFl, reflectStep, hadd]
  have hp : (points.map fun c => fun i => c (Fin.cast (rfl : m = m).symm i)) = points := by simp
  simp only [densityCore, dif_pos, hlen, ne_eq, not_true_eq_false, if_false, hc, if_neg hn]
  cases reflect with
  | none => simp [densityFl, evaluateFl_id]
  | some l =>
    have hl := hr l rfl
    simp only [dif_pos hl, Option.map_some, densityFl, hstep, evaluateFl_id, id]
    congr 3
    · funext res i
      congr 1
      rw [List.getD_eq_getElem _ _ (by rw [hl]; exact i.2)]; rfl
    · rw [hp]

/-! ### Example -/

/-- The hypotheses of `C135_reflect` and `C135_outside`: points inside and outside of two boundaries. -/
example : (∀ j : Fin 2, ¬ Spec.Violates ((![some (some 0, none), some (none, some 1)] : Fin 2 → ReflRow) j) ((![1, 0] : Fin 2 → ℝ) j))
    ∧ Spec.Violates ((![some (some 0, none), some (none, some 1)] : Fin 2 → ReflRow) 0) ((![-1, 0] : Fin 2 → ℝ) 0)
    ∧ ∀ k : Fin 2, 0 < k → ¬ Spec.Violates ((![some (some 0, none), some (none, some 1)] : Fin 2 → ReflRow) k) ((![-1, 0] : Fin 2 → ℝ) k) := by
  simp only [Fin.forall_fin_two]
  refine ⟨⟨?_, ?_⟩, ?_, ?_, ?_⟩ <;> simp [Spec.Violates]

end Kalepy
