import Verif.Model.Missing

/-!
# Lemmas about numbers that may be NaN
-/

namespace Kalepy

open Matrix

/-- A column of real numbers as numbers that may be NaN. -/
def liftCol {m : ℕ} (x : Fin m → ℝ) : Fin m → Num := fun i => some (x i)

namespace Num

theorem foldl_none (l : List Num) : l.foldl add none = none := by
  induction l with
  | nil => rfl
  | cons x l ih => simpa [add] using ih

theorem foldl_some (l : List ℝ) (a : ℝ) : (l.map some).foldl add (some a) = some (a + l.sum) := by
  induction l generalizing a with
  | nil => simp
  | cons x l ih =>
    simp only [List.map_cons, List.foldl_cons, List.sum_cons, add, Option.map₂_some_some]
    rw [ih, add_assoc]

theorem sum_some (l : List ℝ) : sum (l.map some) = some l.sum := by
  unfold sum
  rw [foldl_some, zero_add]

theorem foldl_mem_none (l : List Num) (a : Num) (h : none ∈ l) : l.foldl add a = none := by
  induction l generalizing a with
  | nil => simp at h
  | cons x l ih =>
    rcases List.mem_cons.mp h with h | h
    · subst h
      simp only [List.foldl_cons]
      have : add a none = none := by simp [add]
      rw [this, foldl_none]
    · exact ih _ h

theorem sum_none (l : List Num) (h : none ∈ l) : sum l = none := foldl_mem_none l _ h

@[simp] theorem add_some (x y : ℝ) : add (some x) (some y) = some (x + y) := rfl
@[simp] theorem sub_some (x y : ℝ) : sub (some x) (some y) = some (x - y) := rfl
@[simp] theorem mul_some (x y : ℝ) : mul (some x) (some y) = some (x * y) := rfl
@[simp] theorem div_some (x y : ℝ) : div (some x) (some y) = some (x / y) := rfl
@[simp] theorem add_none_left (x : Num) : add none x = none := by simp [add]
@[simp] theorem add_none_right (x : Num) : add x none = none := by simp [add]
@[simp] theorem sub_none_left (x : Num) : sub none x = none := by simp [sub]
@[simp] theorem sub_none_right (x : Num) : sub x none = none := by simp [sub]
@[simp] theorem mul_none_left (x : Num) : mul none x = none := by simp [mul]
@[simp] theorem mul_none_right (x : Num) : mul x none = none := by simp [mul]
@[simp] theorem div_none_left (x : Num) : div none x = none := by simp [div]
@[simp] theorem div_none_right (x : Num) : div x none = none := by simp [div]

theorem sum_fin {m : ℕ} (f : Fin m → ℝ) : sum ((List.finRange m).map fun i => some (f i)) = some (∑ i, f i) := by
  have : ((List.finRange m).map fun i => some (f i)) = ((List.finRange m).map f).map some := by
    rw [List.map_map]; rfl
  rw [this, sum_some, Fin.sum_univ_def]

theorem sum_fin_none {m : ℕ} (f : Fin m → Num) (i : Fin m) (h : f i = none) :
    sum ((List.finRange m).map f) = none :=
  sum_none _ (List.mem_map.mpr ⟨i, List.mem_finRange i, h⟩)

end Num

theorem whitenedDist2N_lift {m : ℕ} (white : Matrix (Fin m) (Fin m) ℝ) (x d : Fin m → ℝ) :
    whitenedDist2N white (liftCol x) (liftCol d) = some (whitenedDist2 white x d) := by
  unfold whitenedDist2N whitenedDist2 liftCol
  simp only [Num.mul_some, Num.sum_fin, Num.sub_some]
  simp only [pow_two]

theorem whitenedDist2N_data {m : ℕ} (white : Matrix (Fin m) (Fin m) ℝ) (x d : Fin m → Num) (i : Fin m)
    (h : d i = none) : whitenedDist2N white x d = none := by
  unfold whitenedDist2N
  apply Num.sum_fin_none _ i
  have : Num.sum ((List.finRange m).map fun l => Num.mul (some (white i l)) (d l)) = none :=
    Num.sum_fin_none _ i (by simp [h])
  simp only [this, Num.sub_none_right, Num.mul_none_left]

theorem whitenedDist2N_point {m : ℕ} (white : Matrix (Fin m) (Fin m) ℝ) (x d : Fin m → Num) (i : Fin m)
    (h : x i = none) : whitenedDist2N white x d = none := by
  unfold whitenedDist2N
  apply Num.sum_fin_none _ i
  have : Num.sum ((List.finRange m).map fun l => Num.mul (some (white i l)) (x l)) = none :=
    Num.sum_fin_none _ i (by simp [h])
  simp only [this, Num.sub_none_left, Num.mul_none_left]

theorem evalN_some (D : Dist) (y : ℝ) : D.evalN (some y) = some (D.eval y) := by
  cases D <;> rfl

theorem evalN_none (D : Dist) (h : D ≠ .box) : D.evalN none = none := by
  cases D <;> first | rfl | exact absurd rfl h

theorem evalN_box_none : Dist.evalN .box none = some 0 := rfl

theorem evaluateN_lift {m : ℕ} (D : Dist) (white : Matrix (Fin m) (Fin m) ℝ) (data points : List (Fin m → ℝ))
    (w : List ℝ) : evaluateN white (data.map liftCol) (points.map liftCol) w D.evalN =
      (evaluateNumba white data points w D.eval).map some := by
  unfold evaluateN evaluateNumba
  rw [List.map_map, List.map_map]
  apply List.map_congr_left
  intro x _
  simp only [Function.comp]
  rw [← Num.sum_some]
  congr 1
  induction data generalizing w with
  | nil => simp
  | cons d data ih =>
    cases w with
    | nil => simp
    | cons a w =>
      simp only [List.map_cons, List.zipWith_cons_cons]
      rw [ih w, whitenedDist2N_lift, evalN_some, Num.mul_some]

theorem reflectColN_lift {m : ℕ} (i : Fin m) (loc : ℝ) (x : Fin m → ℝ) :
    reflectColN i loc (liftCol x) = liftCol (reflectCol i loc x) := by
  funext j
  unfold reflectColN reflectCol liftCol
  by_cases h : j = i
  · subst h; simp
  · simp [Function.update_of_ne h]

theorem zipWith_add_lift (a b : List ℝ) :
    List.zipWith Num.add (a.map some) (b.map some) = (List.zipWith (· + ·) a b).map some := by
  induction a generalizing b with
  | nil => simp
  | cons x a ih =>
    cases b with
    | nil => simp
    | cons y b => simp [ih b]

/-- Data with missing values give the same sums of kernels as the real data `data'`, `w'`, also after a
reflection. -/
structure SameSums {m : ℕ} (D : Dist) (white : Matrix (Fin m) (Fin m) ℝ) (data : List (Fin m → Num)) (w : List ℝ)
    (data' : List (Fin m → ℝ)) (w' : List ℝ) : Prop where
  plain : ∀ points : List (Fin m → ℝ), evaluateN white data (points.map liftCol) w D.evalN =
    (evaluateNumba white data' points w' D.eval).map some
  refl : ∀ (i : Fin m) (loc : ℝ) (points : List (Fin m → ℝ)),
    evaluateN white (data.map (reflectColN i loc)) (points.map liftCol) w D.evalN =
      (evaluateNumba white (data'.map (reflectCol i loc)) points w' D.eval).map some

theorem sameSums_lift {m : ℕ} (D : Dist) (white : Matrix (Fin m) (Fin m) ℝ) (data : List (Fin m → ℝ))
    (w : List ℝ) : SameSums D white (data.map liftCol) w data w where
  plain := fun points => evaluateN_lift D white data points w
  refl := fun i loc points => by
    have : (data.map liftCol).map (reflectColN i loc) = (data.map (reflectCol i loc)).map liftCol := by
      rw [List.map_map, List.map_map]
      apply List.map_congr_left
      intro x _
      exact reflectColN_lift i loc x
    rw [this, evaluateN_lift]

theorem reflectAddN_same {m : ℕ} {D : Dist} {white : Matrix (Fin m) (Fin m) ℝ} {data : List (Fin m → Num)}
    {data' : List (Fin m → ℝ)} {w w' : List ℝ} (S : SameSums D white data w data' w') (points : List (Fin m → ℝ))
    (i : Fin m) (res : List ℝ) (loc : Option ℝ) :
    reflectAddN white data (points.map liftCol) w D.evalN i (res.map some) loc =
      (reflectAdd white data' points w' D.eval i res loc).map some := by
  cases loc with
  | none => rfl
  | some loc =>
    unfold reflectAddN reflectAdd
    simp only [S.refl, zipWith_add_lift]

theorem reflectStepN_same {m : ℕ} {D : Dist} {white : Matrix (Fin m) (Fin m) ℝ} {data : List (Fin m → Num)}
    {data' : List (Fin m → ℝ)} {w w' : List ℝ} (S : SameSums D white data w data' w') (points : List (Fin m → ℝ))
    (res : List ℝ) (i : Fin m) (r : ReflRow) :
    reflectStepN white data (points.map liftCol) w D.evalN (res.map some) i r =
      (reflectStep white data' points w' D.eval res i r).map some := by
  cases r with
  | none => rfl
  | some r =>
    unfold reflectStepN reflectStep
    simp only [reflectAddN_same S]
    generalize reflectAdd white data' points w' D.eval i (reflectAdd white data' points w' D.eval i res r.1) r.2 = v
    clear res S
    induction points generalizing v with
    | nil => simp
    | cons x points ih =>
      cases v with
      | nil => simp
      | cons y v =>
        simp only [List.map_cons, List.zipWith_cons_cons, ih v]
        congr 1
        have hh : outsideRowN r (liftCol x i) = outsideRow r (x i) := rfl
        rw [hh]
        by_cases h : outsideRow r (x i) = true
        · rw [if_pos h, if_pos h]
        · rw [if_neg h, if_neg h]

theorem reflectFoldN_same {m : ℕ} {D : Dist} {white : Matrix (Fin m) (Fin m) ℝ} {data : List (Fin m → Num)}
    {data' : List (Fin m → ℝ)} {w w' : List ℝ} (S : SameSums D white data w data' w') (points : List (Fin m → ℝ))
    (rows : Fin m → ReflRow) (l : List (Fin m)) (res : List ℝ) :
    l.foldl (fun res i => reflectStepN white data (points.map liftCol) w D.evalN res i (rows i)) (res.map some) =
      (l.foldl (fun res i => reflectStep white data' points w' D.eval res i (rows i)) res).map some := by
  induction l generalizing res with
  | nil => rfl
  | cons i l ih => simp only [List.foldl_cons, reflectStepN_same S, ih]

theorem completeMatrix_some {m : ℕ} (M : Matrix (Fin m) (Fin m) ℝ) :
    completeMatrix (Matrix.of fun i j => some (M i j)) = some M := by
  unfold completeMatrix
  rw [if_pos (by simp)]
  rfl

theorem completeMatrix_none {m : ℕ} (A : Matrix (Fin m) (Fin m) Num) (i j : Fin m) (h : A i j = none) :
    completeMatrix A = none := by
  unfold completeMatrix
  rw [if_neg (fun hh => hh i j h)]

/-- Points of real numbers as points of numbers that may be NaN. -/
def liftCols (p : Cols ℝ) : Cols Num := ⟨p.dim, p.cols.map liftCol⟩

theorem densityCoreN_same {m : ℕ} {D : Dist} (norm : ℝ) (minv : Matrix (Fin m) (Fin m) ℝ) (points : Cols ℝ)
    (data : List (Fin m → Num)) (data' : List (Fin m → ℝ)) (weights weights' : Option (List ℝ))
    (reflect : Option (List ReflRow)) (hw : ∀ w, weights = some w → w.length = data.length)
    (hw' : ∀ w, weights' = some w → w.length = data'.length)
    (S : ∀ white, SameSums D white data (onesIfNone data weights) data' (onesIfNone data' weights')) :
    densityCoreN D (some norm) (Matrix.of fun i j => some (minv i j)) (liftCols points) data weights
      reflect = (densityCore D norm minv points data' weights' reflect).map (fun l => l.map some) := by
  unfold densityCoreN densityCore
  by_cases h : points.dim = m
  · have h' : (liftCols points).dim = m := h
    rw [dif_pos h, dif_pos h', completeMatrix_some]
    have hp : ((liftCols points).cols.map fun c => fun i => c (Fin.cast h'.symm i)) =
        (points.cols.map fun c => fun i : Fin m => c (Fin.cast h.symm i)).map liftCol := by
      simp only [liftCols, List.map_map]
      rfl
    have hdiv : ∀ l : List ℝ, (l.map some).map (fun v => Num.div v (Num.mul (some norm)
        (some (D.norm (liftCols points).dim)))) = (l.map (· / (norm * D.norm points.dim))).map some := by
      intro l
      rw [List.map_map, List.map_map]
      rfl
    have e1 : ∀ F : List ℝ → Res (List Num), (match (match weights with
        | none => (Except.ok (List.replicate data.length 1) : Res (List ℝ))
        | some w => if w.length ≠ data.length then .error .attributeError else .ok w) with
        | .error e => .error e
        | .ok w => F w) = F (onesIfNone data weights) := by
      intro F
      cases weights with
      | none => rfl
      | some w => simp [hw w rfl, onesIfNone]
    have e2 : ∀ F : List ℝ → Res (List ℝ), (match (match weights' with
        | none => (Except.ok (List.replicate data'.length 1) : Res (List ℝ))
        | some w => if w.length ≠ data'.length then .error .attributeError else .ok w) with
        | .error e => .error e
        | .ok w => F w) = F (onesIfNone data' weights') := by
      intro F
      cases weights' with
      | none => rfl
      | some w => simp [hw' w rfl, onesIfNone]
    simp only [hp]
    refine (e1 _).trans ?_
    refine Eq.trans ?_ (congrArg (Except.map _) (e2 _).symm)
    cases cholesky minv with
    | none => rfl
    | some white =>
      dsimp only
      by_cases hn : norm = 0
      · rw [if_pos hn, if_pos (congrArg some hn)]; rfl
      rw [if_neg hn, if_neg (fun h => hn (Option.some.inj h))]
      cases reflect with
      | none => dsimp only; rw [(S white).plain, hdiv]; rfl
      | some refl =>
        dsimp only
        by_cases hr : refl.length = m
        · rw [dif_pos hr, dif_pos hr, (S white).plain, reflectFoldN_same (S white), hdiv]; rfl
        · rw [dif_neg hr, dif_neg hr]; rfl
  · have h' : ¬ (liftCols points).dim = m := h
    rw [dif_neg h, dif_neg h']
    rfl

/-! ### The box kernel ignores incomplete points -/

open Classical in
/-- The column of real numbers, if there is no NaN in it. -/
noncomputable def completeCol {m : ℕ} (x : Fin m → Num) : Option (Fin m → ℝ) :=
  if ∀ i, x i ≠ none then some (fillZero x) else none

/-- The points without NaN. -/
noncomputable def completeRows {m : ℕ} (data : List (Fin m → Num)) : List (Fin m → ℝ) := data.filterMap completeCol

/-- The weights of the points without NaN. -/
noncomputable def completeWeights {m : ℕ} (data : List (Fin m → Num)) (w : List ℝ) : List ℝ :=
  (data.zip w).filterMap fun p => (completeCol p.1).map fun _ => p.2

theorem completeCol_lift {m : ℕ} (x : Fin m → ℝ) : completeCol (liftCol x) = some x := by
  unfold completeCol
  rw [if_pos (by simp [liftCol])]
  rfl

theorem completeCol_eq_some {m : ℕ} {x : Fin m → Num} {y : Fin m → ℝ} (h : completeCol x = some y) :
    x = liftCol y := by
  unfold completeCol at h
  split at h
  · rename_i hx
    funext i
    have hh : fillZero x = y := Option.some.inj h
    rw [← hh]
    unfold liftCol fillZero
    cases hi : x i with
    | none => exact absurd hi (hx i)
    | some v => rfl
  · exact absurd h (by simp)

theorem completeCol_eq_none {m : ℕ} {x : Fin m → Num} (h : completeCol x = none) : ∃ i, x i = none := by
  unfold completeCol at h
  split at h
  · exact absurd h (by simp)
  · rename_i hx
    push Not at hx
    exact hx

theorem Num.sum_zero_cons (l : List Num) : Num.sum (some 0 :: l) = Num.sum l := by
  unfold Num.sum
  simp [Num.add_some]

theorem Num.sum_cons_some (x : ℝ) (l : List Num) : Num.sum (some x :: l) = Num.add (some x) (Num.sum l) := by
  by_cases h : none ∈ l
  · rw [Num.sum_none _ h, Num.sum_none _ (List.mem_cons_of_mem _ h)]
    simp
  · have : ∃ r : List ℝ, l = r.map some := by
      clear x
      induction l with
      | nil => exact ⟨[], rfl⟩
      | cons a l ih =>
        cases a with
        | none => simp at h
        | some a =>
          obtain ⟨r, hr⟩ := ih (fun hh => h (List.mem_cons_of_mem _ hh))
          exact ⟨a :: r, by simp [hr]⟩
    obtain ⟨r, rfl⟩ := this
    rw [← List.map_cons, Num.sum_some, Num.sum_some]
    simp

theorem evaluateN_box {m : ℕ} (white : Matrix (Fin m) (Fin m) ℝ) (data : List (Fin m → Num))
    (points : List (Fin m → ℝ)) (w : List ℝ) :
    evaluateN white data (points.map liftCol) w (Dist.evalN .box) =
      (evaluateNumba white (completeRows data) points (completeWeights data w) (Dist.eval .box)).map some := by
  unfold evaluateN evaluateNumba
  rw [List.map_map, List.map_map]
  apply List.map_congr_left
  intro x _
  simp only [Function.comp]
  induction data generalizing w with
  | nil => simp [completeRows, Num.sum]
  | cons d data ih =>
    cases w with
    | nil => simp [completeWeights, Num.sum]
    | cons a w =>
      have ih := ih w
      simp only [List.zipWith_cons_cons]
      cases hd : completeCol d with
      | none =>
        obtain ⟨i, hi⟩ := completeCol_eq_none hd
        rw [whitenedDist2N_data white _ d i hi, evalN_box_none, Num.mul_some, zero_mul, Num.sum_zero_cons, ih]
        simp only [completeRows, completeWeights, List.zip_cons_cons, List.filterMap_cons, hd, Option.map_none]
      | some y =>
        have hy := completeCol_eq_some hd
        subst hy
        rw [whitenedDist2N_lift, evalN_some, Num.mul_some, Num.sum_cons_some, ih]
        simp only [completeRows, completeWeights, List.zip_cons_cons, List.filterMap_cons, hd, Option.map_some,
          List.zipWith_cons_cons, List.sum_cons, Num.add_some]

theorem completeCol_reflect {m : ℕ} (i : Fin m) (loc : ℝ) (x : Fin m → Num) :
    completeCol (reflectColN i loc x) = (completeCol x).map (reflectCol i loc) := by
  cases hx : completeCol x with
  | none =>
    obtain ⟨j, hj⟩ := completeCol_eq_none hx
    unfold completeCol
    rw [if_neg]
    · rfl
    · intro h
      apply h j
      unfold reflectColN
      by_cases hji : j = i
      · subst hji; simp [hj]
      · rw [Function.update_of_ne hji, hj]
  | some y =>
    rw [completeCol_eq_some hx, reflectColN_lift, completeCol_lift]
    rfl

theorem completeRows_reflect {m : ℕ} (i : Fin m) (loc : ℝ) (data : List (Fin m → Num)) :
    completeRows (data.map (reflectColN i loc)) = (completeRows data).map (reflectCol i loc) := by
  induction data with
  | nil => rfl
  | cons x data ih =>
    unfold completeRows at ih ⊢
    simp only [List.map_cons, List.filterMap_cons, completeCol_reflect]
    cases completeCol x with
    | none => simpa using ih
    | some y => simpa using ih

theorem completeWeights_reflect {m : ℕ} (i : Fin m) (loc : ℝ) (data : List (Fin m → Num)) (w : List ℝ) :
    completeWeights (data.map (reflectColN i loc)) w = completeWeights data w := by
  induction data generalizing w with
  | nil => rfl
  | cons x data ih =>
    cases w with
    | nil => simp [completeWeights]
    | cons a w =>
      have ih := ih w
      unfold completeWeights at ih ⊢
      simp only [List.map_cons, List.zip_cons_cons, List.filterMap_cons, completeCol_reflect, Option.map_map]
      cases completeCol x with
      | none => simpa using ih
      | some y => simpa using ih

theorem sameSums_box {m : ℕ} (white : Matrix (Fin m) (Fin m) ℝ) (data : List (Fin m → Num)) (w : List ℝ) :
    SameSums .box white data w (completeRows data) (completeWeights data w) where
  plain := fun points => evaluateN_box white data points w
  refl := fun i loc points => by
    rw [evaluateN_box, completeRows_reflect, completeWeights_reflect]

theorem completeWeights_ones {m : ℕ} (data : List (Fin m → Num)) :
    completeWeights data (List.replicate data.length 1) = List.replicate (completeRows data).length 1 := by
  induction data with
  | nil => rfl
  | cons x data ih =>
    unfold completeWeights completeRows at ih ⊢
    simp only [List.length_cons, List.replicate_succ, List.zip_cons_cons, List.filterMap_cons]
    cases completeCol x with
    | none => simpa using ih
    | some y => simp [ih, List.replicate_succ]

theorem completeWeights_length {m : ℕ} (data : List (Fin m → Num)) (w : List ℝ) (h : w.length = data.length) :
    (completeWeights data w).length = (completeRows data).length := by
  induction data generalizing w with
  | nil => simp [completeWeights, completeRows]
  | cons x data ih =>
    cases w with
    | nil => simp at h
    | cons a w =>
      have ih := ih w (by simpa using h)
      unfold completeWeights completeRows at ih ⊢
      simp only [List.zip_cons_cons, List.filterMap_cons]
      cases completeCol x with
      | none => simpa using ih
      | some y => simpa using ih

/-! ### The other kernels return NaN -/

theorem evaluateN_missing {m : ℕ} (D : Dist) (hD : D ≠ .box) (white : Matrix (Fin m) (Fin m) ℝ)
    (data points : List (Fin m → Num)) (w : List ℝ) (hw : w.length = data.length)
    (h : ∃ x ∈ data, ∃ i, x i = none) : ∀ v ∈ evaluateN white data points w D.evalN, v = none := by
  intro v hv
  unfold evaluateN at hv
  obtain ⟨x, _, rfl⟩ := List.mem_map.mp hv
  apply Num.sum_none
  obtain ⟨y, hy, i, hi⟩ := h
  obtain ⟨n, hn, hyn⟩ := List.getElem_of_mem hy
  rw [List.mem_iff_getElem]
  refine ⟨n, by simp [hw, hn], ?_⟩
  rw [List.getElem_zipWith, hyn, whitenedDist2N_data white x y i hi, evalN_none D hD]
  simp

theorem evaluateN_length {m : ℕ} (f : Num → Num) (white : Matrix (Fin m) (Fin m) ℝ)
    (data points : List (Fin m → Num)) (w : List ℝ) : (evaluateN white data points w f).length = points.length := by
  simp [evaluateN]

theorem reflectAddN_none {m : ℕ} (f : Num → Num) (white : Matrix (Fin m) (Fin m) ℝ)
    (data points : List (Fin m → Num)) (w : List ℝ) (P : (Fin m → Num) → Prop) (i : Fin m) (res : List Num)
    (loc : Option ℝ) (h : List.Forall₂ (fun x v => P x → v = none) points res) :
    List.Forall₂ (fun x v => P x → v = none) points (reflectAddN white data points w f i res loc) := by
  cases loc with
  | none => exact h
  | some loc =>
    unfold reflectAddN
    dsimp only
    have hl := evaluateN_length f white (data.map (reflectColN i loc)) points w
    generalize evaluateN white (data.map (reflectColN i loc)) points w f = e at hl
    induction h generalizing e with
    | nil => simp
    | @cons x v points res hv _ ih =>
      cases e with
      | nil => simp at hl
      | cons a e =>
        rw [List.zipWith_cons_cons]
        refine List.Forall₂.cons (fun hx => by rw [hv hx]; simp) (ih e (by simpa using hl))

theorem reflectStepN_none {m : ℕ} (f : Num → Num) (white : Matrix (Fin m) (Fin m) ℝ)
    (data points : List (Fin m → Num)) (w : List ℝ) (P : (Fin m → Num) → Prop) (res : List Num) (i : Fin m)
    (r : ReflRow) (hP : ∀ x, P x → ∀ b, r = some b → outsideRowN b (x i) = false)
    (h : List.Forall₂ (fun x v => P x → v = none) points res) :
    List.Forall₂ (fun x v => P x → v = none) points (reflectStepN white data points w f res i r) := by
  cases r with
  | none => exact h
  | some r =>
    unfold reflectStepN
    have h2 := reflectAddN_none f white data points w P i _ r.2
      (reflectAddN_none f white data points w P i res r.1 h)
    dsimp only
    generalize reflectAddN white data points w f i (reflectAddN white data points w f i res r.1) r.2 = e at h2
    clear h
    induction h2 with
    | nil => simp
    | @cons x v points e hv _ ih =>
      rw [List.zipWith_cons_cons]
      refine List.Forall₂.cons (fun hx => ?_) ih
      rw [if_neg (by rw [hP x hx r rfl]; simp)]
      exact hv hx

theorem reflectFoldN_none {m : ℕ} (f : Num → Num) (white : Matrix (Fin m) (Fin m) ℝ)
    (data points : List (Fin m → Num)) (w : List ℝ) (rows : Fin m → ReflRow) (l : List (Fin m)) (res : List Num)
    (h : List.Forall₂ (fun x v => (∀ i b, rows i = some b → outsideRowN b (x i) = false) → v = none) points res) :
    List.Forall₂ (fun x v => (∀ i b, rows i = some b → outsideRowN b (x i) = false) → v = none) points
      (l.foldl (fun res i => reflectStepN white data points w f res i (rows i)) res) := by
  induction l generalizing res with
  | nil => exact h
  | cons i l ih =>
    rw [List.foldl_cons]
    exact ih _ (reflectStepN_none f white data points w _ res i (rows i) (fun x hx b hb => hx i b hb) h)

end Kalepy
