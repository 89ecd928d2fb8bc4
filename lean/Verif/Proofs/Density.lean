import Mathlib.Algebra.BigOperators.Group.List.Basic
import Mathlib.Tactic.Ring
import Verif.Proofs.Chol
import Verif.Model.Kernels

/-!
# Pointwise form of `Kernel.density` (helper lemmas)
-/

namespace Kalepy

open Matrix

variable {m : ℕ}

/-- Weighted kernel sum at one point. -/
noncomputable def kval (white : Matrix (Fin m) (Fin m) ℝ) (kf : ℝ → ℝ) (data : List (Fin m → ℝ))
    (w : List ℝ) (x : Fin m → ℝ) : ℝ :=
  (List.zipWith (fun d w => kf (whitenedDist2 white x d) * w) data w).sum

noncomputable def addAt (white : Matrix (Fin m) (Fin m) ℝ) (kf : ℝ → ℝ) (data : List (Fin m → ℝ))
    (w : List ℝ) (x : Fin m → ℝ) (i : Fin m) : Option ℝ → ℝ
  | none => 0
  | some loc => kval white kf (data.map (reflectCol i loc)) w x

noncomputable def stepAt (white : Matrix (Fin m) (Fin m) ℝ) (kf : ℝ → ℝ)
    (data : List (Fin m → ℝ)) (w : List ℝ) (x : Fin m → ℝ) (v : ℝ) (i : Fin m) : ReflRow → ℝ
  | none => v
  | some r =>
    if outsideRow r (x i) then 0
    else v + addAt white kf data w x i r.1 + addAt white kf data w x i r.2

/-- Reflected weighted kernel sum at one point. -/
noncomputable def reflAt (white : Matrix (Fin m) (Fin m) ℝ) (kf : ℝ → ℝ)
    (data : List (Fin m → ℝ)) (w : List ℝ) (refl : Fin m → ReflRow) (x : Fin m → ℝ) : ℝ :=
  (List.finRange m).foldl (fun v i => stepAt white kf data w x v i (refl i))
    (kval white kf data w x)

lemma evaluateNumba_eq (white : Matrix (Fin m) (Fin m) ℝ) (kf) (data pts w) :
    evaluateNumba white data pts w kf = pts.map (kval white kf data w) := rfl

lemma zipWith_map_self {α β γ : Type*} (f : β → γ → γ) (g : α → β) (h : α → γ) (l : List α) :
    List.zipWith f (l.map g) (l.map h) = l.map fun x => f (g x) (h x) := by
  induction l with
  | nil => rfl
  | cons a l ih => simp [ih]

lemma zipWith_map_map {α β γ δ : Type*} (f : β → γ → δ) (g : α → β) (h : α → γ) (l : List α) :
    List.zipWith f (l.map g) (l.map h) = l.map fun x => f (g x) (h x) := by
  induction l with
  | nil => rfl
  | cons a l ih => simp [ih]

lemma reflectAdd_map (white : Matrix (Fin m) (Fin m) ℝ) (kf) (data pts w) (i : Fin m)
    (f : (Fin m → ℝ) → ℝ) (o : Option ℝ) :
    reflectAdd white data pts w kf i (pts.map f) o
      = pts.map fun x => f x + addAt white kf data w x i o := by
  cases o with
  | none => simp [reflectAdd, addAt]
  | some loc =>
    rw [reflectAdd, evaluateNumba_eq, zipWith_map_map]
    rfl

lemma reflectStep_map (white : Matrix (Fin m) (Fin m) ℝ) (kf) (data pts w) (i : Fin m)
    (f : (Fin m → ℝ) → ℝ) (r : ReflRow) :
    reflectStep white data pts w kf (pts.map f) i r
      = pts.map fun x => stepAt white kf data w x (f x) i r := by
  cases r with
  | none => simp [reflectStep, stepAt]
  | some r =>
    simp only [reflectStep, stepAt, reflectAdd_map]
    have := zipWith_map_map (fun (x : Fin m → ℝ) (v : ℝ) => if outsideRow r (x i) then 0 else v) id
      (fun x => f x + addAt white kf data w x i r.1 + addAt white kf data w x i r.2) pts
    rw [List.map_id] at this
    rw [this]; rfl

lemma reflectFold_map (white : Matrix (Fin m) (Fin m) ℝ) (kf) (data pts w)
    (refl : Fin m → ReflRow) (is : List (Fin m)) (f : (Fin m → ℝ) → ℝ) :
    is.foldl (fun res i => reflectStep white data pts w kf res i (refl i)) (pts.map f)
      = pts.map fun x => is.foldl (fun v i => stepAt white kf data w x v i (refl i)) (f x) := by
  induction is generalizing f with
  | nil => rfl
  | cons i is ih => simp only [List.foldl_cons, reflectStep_map, ih]

/-- The weights actually used. -/
def usedWeights {α : Type*} (data : List α) : Option (List ℝ) → List ℝ
  | none => List.replicate data.length 1
  | some w => w

/-- Whether `weights` has the wrong length. -/
def badWeights {α : Type*} (data : List α) : Option (List ℝ) → Bool
  | none => false
  | some w => w.length != data.length

/-- Value of `densityCore` at one point, as an unreflected or reflected kernel sum. -/
noncomputable def coreAt (white : Matrix (Fin m) (Fin m) ℝ) (kf : ℝ → ℝ)
    (data : List (Fin m → ℝ)) (w : List ℝ) : Option (Fin m → ReflRow) → (Fin m → ℝ) → ℝ
  | none, x => kval white kf data w x
  | some refl, x => reflAt white kf data w refl x

/-- Everything in `densityCore` that does not look at the points: either an error or the per-point
function. -/
noncomputable def corePlan (dist : Dist) (norm : ℝ) (minv : Matrix (Fin m) (Fin m) ℝ)
    (data : List (Fin m → ℝ)) (weights : Option (List ℝ)) (reflect : Option (List ReflRow)) :
    Res ((Fin m → ℝ) → ℝ) :=
  if badWeights data weights then
    .error .attributeError
  else match cholesky minv with
    | none => .error .linAlgError
    | some white =>
      if norm = 0 then .error .unmodelled
      else match reflect with
      | none => .ok fun x =>
          coreAt white dist.eval data (usedWeights data weights) none x / (norm * dist.norm m)
      | some refl =>
        if hr : refl.length = m then
          .ok fun x => coreAt white dist.eval data (usedWeights data weights)
            (some fun i => refl.get (Fin.cast hr.symm i)) x / (norm * dist.norm m)
        else .error .valueError

lemma densityCore_eq_plan (dist : Dist) (norm : ℝ) (minv : Matrix (Fin m) (Fin m) ℝ)
    (pts : List (Fin m → ℝ))
    (data : List (Fin m → ℝ)) (weights : Option (List ℝ)) (reflect : Option (List ReflRow)) :
    densityCore dist norm minv ⟨m, pts⟩ data weights reflect
      = (corePlan dist norm minv data weights reflect).map fun f => pts.map f := by
  have key : ∀ w : List ℝ, w = usedWeights data weights →
      (match cholesky minv with
      | none => (.error .linAlgError : Res (List ℝ))
      | some white =>
        if norm = 0 then .error .unmodelled
        else
        let result := evaluateNumba white data pts w dist.eval
        match reflect with
        | none => .ok (result.map (· / (norm * dist.norm m)))
        | some refl =>
          if hr : refl.length = m then
            let result := (List.finRange m).foldl
              (fun res i => reflectStep white data pts w dist.eval res i
                (refl.get (Fin.cast hr.symm i))) result
            .ok (result.map (· / (norm * dist.norm m)))
          else .error .valueError) =
      (match cholesky minv with
      | none => (.error .linAlgError : Res _)
      | some white =>
        if norm = 0 then .error .unmodelled
        else match reflect with
        | none => .ok fun x =>
          coreAt white dist.eval data (usedWeights data weights) none x / (norm * dist.norm m)
        | some refl =>
          if hr : refl.length = m then
          .ok fun x => coreAt white dist.eval data (usedWeights data weights)
            (some fun i => refl.get (Fin.cast hr.symm i)) x / (norm * dist.norm m)
          else .error .valueError).map fun f => pts.map f := by
    intro w hw
    subst hw
    cases cholesky minv with
    | none => rfl
    | some white =>
      by_cases h0 : norm = 0
      · simp only [h0, if_true]; rfl
      simp only [h0, if_false]
      cases reflect with
      | none =>
        simp only [evaluateNumba_eq, List.map_map, Except.map]
        rfl
      | some refl =>
        by_cases hr : refl.length = m
        · simp only [hr, dif_pos, evaluateNumba_eq]
          rw [reflectFold_map]
          simp only [List.map_map, Except.map]
          rfl
        · simp only [hr, dif_neg, not_false_eq_true, Except.map]
  have hp : (pts.map fun c => fun i => c (Fin.cast (rfl : m = m).symm i)) = pts := by
    simp
  unfold densityCore corePlan
  simp only [dif_pos]
  rw [hp]
  cases weights with
  | none => exact key _ rfl
  | some w =>
    by_cases hw : w.length = data.length
    · have hb : badWeights data (some w) = false := by simp [badWeights, hw]
      simp only [hw, hb, ne_eq, not_true_eq_false, if_false, Bool.false_eq_true]
      exact key w rfl
    · have hb : badWeights data (some w) = true := by simp [badWeights, hw]
      simp [hw, hb, Except.map]

lemma densityCore_dim_ne (dist : Dist) (norm : ℝ) (minv : Matrix (Fin m) (Fin m) ℝ)
    (pts : Cols ℝ) (h : pts.dim ≠ m) (data : List (Fin m → ℝ)) (weights : Option (List ℝ))
    (reflect : Option (List ReflRow)) :
    densityCore dist norm minv pts data weights reflect = .error .valueError := by
  unfold densityCore; rw [dif_neg h]

/-! ### algebra of the kernel sum -/

lemma kval_nil (white : Matrix (Fin m) (Fin m) ℝ) (kf w x) : kval white kf [] w x = 0 := by
  simp [kval]

lemma kval_append (white : Matrix (Fin m) (Fin m) ℝ) (kf) (d₁ d₂ w₁ w₂ x)
    (h : d₁.length = w₁.length) :
    kval white kf (d₁ ++ d₂) (w₁ ++ w₂) x = kval white kf d₁ w₁ x + kval white kf d₂ w₂ x := by
  simp [kval, List.zipWith_append h]

lemma kval_smul (white : Matrix (Fin m) (Fin m) ℝ) (kf) (c : ℝ) (d w x) :
    kval white kf d (w.map (c * ·)) x = c * kval white kf d w x := by
  induction d generalizing w with
  | nil => simp [kval]
  | cons a d ih =>
    cases w with
    | nil => simp [kval]
    | cons b w =>
      have := ih w
      simp only [kval, List.map_cons, List.zipWith_cons_cons, List.sum_cons] at this ⊢
      rw [this]; ring

lemma kval_eq_zip (white : Matrix (Fin m) (Fin m) ℝ) (kf) (d w x) :
    kval white kf d w x
      = ((List.zip d w).map fun p => kf (whitenedDist2 white x p.1) * p.2).sum := by
  rw [kval, List.zip, List.map_zipWith]

lemma kval_perm (white : Matrix (Fin m) (Fin m) ℝ) (kf) {d d' w w'} (x)
    (h : (List.zip d w).Perm (List.zip d' w')) :
    kval white kf d w x = kval white kf d' w' x := by
  rw [kval_eq_zip, kval_eq_zip]
  exact (h.map _).sum_eq

lemma kval_nonneg (white : Matrix (Fin m) (Fin m) ℝ) (kf : ℝ → ℝ) (hk : ∀ y, 0 ≤ kf y) (d w x)
    (hw : ∀ a ∈ w, 0 ≤ a) : 0 ≤ kval white kf d w x := by
  rw [kval_eq_zip]
  apply List.sum_nonneg
  intro y hy
  rw [List.mem_map] at hy
  obtain ⟨p, hp, rfl⟩ := hy
  exact mul_nonneg (hk _) (hw _ (List.of_mem_zip hp).2)

lemma Dist.eval_nonneg (D : Dist) (y : ℝ) : 0 ≤ D.eval y := by
  cases D with
  | gaussian => exact (Real.exp_pos _).le
  | box => simp only [Dist.eval]; split_ifs <;> norm_num
  | parabola => exact le_max_right _ _
  | triweight => exact le_max_right _ _

lemma addAt_nonneg (white : Matrix (Fin m) (Fin m) ℝ) (kf : ℝ → ℝ) (hk : ∀ y, 0 ≤ kf y) (d w x i)
    (hw : ∀ a ∈ w, 0 ≤ a) (o) : 0 ≤ addAt white kf d w x i o := by
  cases o with
  | none => exact le_rfl
  | some l => exact kval_nonneg white kf hk _ _ _ hw

lemma stepAt_nonneg (white : Matrix (Fin m) (Fin m) ℝ) (kf : ℝ → ℝ) (hk : ∀ y, 0 ≤ kf y) (d w x i)
    (hw : ∀ a ∈ w, 0 ≤ a) (r) {v : ℝ} (hv : 0 ≤ v) : 0 ≤ stepAt white kf d w x v i r := by
  cases r with
  | none => exact hv
  | some r =>
    simp only [stepAt]
    split_ifs
    · exact le_rfl
    · have h1 := addAt_nonneg white kf hk d w x i hw r.1
      have h2 := addAt_nonneg white kf hk d w x i hw r.2
      linarith

lemma foldl_inv {α β : Type*} (P : α → Prop) (f : α → β → α) (l : List β) (a : α) (ha : P a)
    (h : ∀ a b, P a → P (f a b)) : P (l.foldl f a) := by
  induction l generalizing a with
  | nil => exact ha
  | cons b l ih => exact ih _ (h a b ha)

lemma reflAt_nonneg (white : Matrix (Fin m) (Fin m) ℝ) (kf : ℝ → ℝ) (hk : ∀ y, 0 ≤ kf y)
    (d w refl x) (hw : ∀ a ∈ w, 0 ≤ a) : 0 ≤ reflAt white kf d w refl x :=
  foldl_inv (0 ≤ ·) _ _ _ (kval_nonneg white kf hk d w x hw)
    fun _ i hv => stepAt_nonneg white kf hk d w x i hw (refl i) hv

lemma coreAt_nonneg (white : Matrix (Fin m) (Fin m) ℝ) (kf : ℝ → ℝ) (hk : ∀ y, 0 ≤ kf y)
    (d w refl x) (hw : ∀ a ∈ w, 0 ≤ a) : 0 ≤ coreAt white kf d w refl x := by
  cases refl with
  | none => exact kval_nonneg white kf hk d w x hw
  | some r => exact reflAt_nonneg white kf hk d w r x hw

/-- A relation preserved by addition and containing `(0,0)` is preserved by the whole reflection
loop. -/
lemma reflAt_rel {n : ℕ} (R : (Fin n → ℝ) → ℝ → Prop) (h0 : R 0 0)
    (hadd : ∀ a b x y, R a x → R b y → R (a + b) (x + y))
    (white : Matrix (Fin m) (Fin m) ℝ) (kf : ℝ → ℝ)
    (ds : Fin n → List (Fin m → ℝ)) (ws : Fin n → List ℝ) (d : List (Fin m → ℝ)) (w : List ℝ)
    (hkv : ∀ (f : (Fin m → ℝ) → (Fin m → ℝ)) (x),
      R (fun j => kval white kf ((ds j).map f) (ws j) x) (kval white kf (d.map f) w x))
    (refl : Option (Fin m → ReflRow)) (x : Fin m → ℝ) :
    R (fun j => coreAt white kf (ds j) (ws j) refl x) (coreAt white kf d w refl x) := by
  have hid : R (fun j => kval white kf (ds j) (ws j) x) (kval white kf d w x) := by
    have := hkv id x; simpa using this
  cases refl with
  | none => exact hid
  | some refl =>
    have haddAt : ∀ i o, R (fun j => addAt white kf (ds j) (ws j) x i o) (addAt white kf d w x i o) := by
      intro i o
      cases o with
      | none => exact h0
      | some l => exact hkv _ x
    have gen : ∀ (is : List (Fin m)) (vs : Fin n → ℝ) (v : ℝ), R vs v →
        R (fun j => is.foldl (fun v i => stepAt white kf (ds j) (ws j) x v i (refl i)) (vs j))
          (is.foldl (fun v i => stepAt white kf d w x v i (refl i)) v) := by
      intro is
      induction is with
      | nil => intro vs v h; exact h
      | cons i is ih =>
        intro vs v h
        simp only [List.foldl_cons]
        refine ih (fun j => stepAt white kf (ds j) (ws j) x (vs j) i (refl i)) _ ?_
        cases hri : refl i with
        | none => exact h
        | some r =>
          simp only [stepAt]
          by_cases ho : outsideRow r (x i)
          · simp only [ho, if_true]; exact h0
          · simp only [ho]
            exact hadd _ _ _ _ (hadd _ _ _ _ h (haddAt i r.1)) (haddAt i r.2)
    exact gen _ _ _ hid

end Kalepy
