import Verif.Model.RoundedCdf
import Verif.Props.Cdf
import Verif.Props.RoundedReflect
import Verif.Props.EdgesRounded

/-!
# C149: the cumulative distribution on the grid in floating point arithmetic
-/

namespace Kalepy

open Spec

variable {d p : ℕ} {fl : ℝ → ℝ}

/-- Mass of the cell with lower corner `j`, by the trapezoid rule: the mean of the density at the `2^d` corners times
the volume. -/
noncomputable def Spec.cellMass (rows : List (List ℝ)) (f : (Fin d → ℕ) → ℝ) (j : Fin d → ℕ) : ℝ :=
  (∑ c ∈ Fintype.piFinset fun _ : Fin d => ({0, 1} : Finset ℕ), f fun i => j i + c i) / 2 ^ d *
    ∏ i : Fin d, ((rows.getD i []).getD (j i + 1) 0 - (rows.getD i []).getD (j i) 0)

/-- Mass of all cells below the point `idx` of the grid. -/
noncomputable def Spec.massBelow (rows : List (List ℝ)) (f : (Fin d → ℕ) → ℝ) (idx : Fin d → ℕ) : ℝ :=
  ∑ j ∈ Fintype.piFinset fun i => Finset.range (idx i), Spec.cellMass rows f j

/-! ### Relative errors -/

/-- `a` and `b` are nonnegative and each is at least the fraction `r` of the other. -/
structure Near (r a b : ℝ) : Prop where
  left : 0 ≤ a
  right : 0 ≤ b
  le : r * a ≤ b
  ge : r * b ≤ a

namespace Near

variable {r s a b a' b' u : ℝ}

lemma rfl' (h : 0 ≤ a) : Near 1 a a := ⟨h, h, by simp, by simp⟩

lemma weaken (h : Near r a b) (hs : s ≤ r) : Near s a b :=
  ⟨h.left, h.right, (mul_le_mul_of_nonneg_right hs h.left).trans h.le,
    (mul_le_mul_of_nonneg_right hs h.right).trans h.ge⟩

lemma add (h : Near r a b) (h' : Near r a' b') : Near r (a + a') (b + b') :=
  ⟨add_nonneg h.left h'.left, add_nonneg h.right h'.right, by rw [mul_add]; exact add_le_add h.le h'.le,
    by rw [mul_add]; exact add_le_add h.ge h'.ge⟩

lemma mul (hr : 0 ≤ r) (hs : 0 ≤ s) (h : Near r a b) (h' : Near s a' b') : Near (r * s) (a * a') (b * b') := by
  refine ⟨mul_nonneg h.left h'.left, mul_nonneg h.right h'.right, ?_, ?_⟩
  · rw [mul_mul_mul_comm]
    exact mul_le_mul h.le h'.le (mul_nonneg hs h'.left) h.right
  · rw [mul_mul_mul_comm]
    exact mul_le_mul h.ge h'.ge (mul_nonneg hs h'.right) h.left

lemma divConst (h : Near r a b) {c : ℝ} (hc : 0 ≤ c) : Near r (a / c) (b / c) :=
  ⟨div_nonneg h.left hc, div_nonneg h.right hc, by rw [← mul_div_assoc]; exact div_le_div_of_nonneg_right h.le hc,
    by rw [← mul_div_assoc]; exact div_le_div_of_nonneg_right h.ge hc⟩

lemma div (hr : 0 ≤ r) (hs : 0 ≤ s) (h : Near r a b) (h' : Near s a' b') (ha : 0 < a') (hb : 0 < b') :
    Near (r * s) (a / a') (b / b') := by
  refine ⟨div_nonneg h.left ha.le, div_nonneg h.right hb.le, ?_, ?_⟩
  · rw [← mul_div_assoc, div_le_div_iff₀ ha hb]
    calc r * s * a * b' = (r * a) * (s * b') := by ring
      _ ≤ b * a' := mul_le_mul h.le h'.ge (mul_nonneg hs h'.right) h.right
  · rw [← mul_div_assoc, div_le_div_iff₀ hb ha]
    calc r * s * b * a' = (r * b) * (s * a') := by ring
      _ ≤ a * b' := mul_le_mul h.ge h'.le (mul_nonneg hs h'.left) h.left

lemma round (hu : Accurate u fl) (hu0 : 0 ≤ u) (hu1 : u ≤ 1) (hr : 0 ≤ r) (h : Near r a b) :
    Near (r * (1 - u)) a (fl b) := by
  have h1 := abs_le.mp (hu b)
  rw [abs_of_nonneg h.right] at h1
  have hb := h.right
  refine ⟨h.left, hu.nonneg hu1 hb, ?_, ?_⟩
  · calc r * (1 - u) * a = (1 - u) * (r * a) := by ring
      _ ≤ (1 - u) * b := mul_le_mul_of_nonneg_left h.le (by linarith)
      _ ≤ fl b := by linarith
  · calc r * (1 - u) * fl b = r * ((1 - u) * fl b) := by ring
      _ ≤ r * b := by
        refine mul_le_mul_of_nonneg_left ?_ hr
        have : (1 - u) * fl b ≤ (1 - u) * (b + u * b) := mul_le_mul_of_nonneg_left (by linarith) (by linarith)
        nlinarith [mul_nonneg (mul_nonneg hu0 hu0) hb]
      _ ≤ a := h.ge

end Near

section

variable {u : ℝ} (hu : Accurate u fl) (hu0 : 0 ≤ u) (hu1 : u ≤ 1)

include hu hu0 hu1

lemma near_sum {α : Type*} (l : List α) {t t' : α → ℝ} {m : ℕ} (h : ∀ x ∈ l, Near ((1 - u) ^ m) (t x) (t' x)) :
    ∀ {a b : ℝ} {k : ℕ}, Near ((1 - u) ^ (m + k)) a b →
      Near ((1 - u) ^ (m + k + l.length)) (l.foldl (fun acc x => id (acc + t x)) a)
        (l.foldl (fun acc x => fl (acc + t' x)) b) := by
  have hv : (0 : ℝ) ≤ 1 - u := by linarith
  have hv1 : 1 - u ≤ 1 := by linarith
  induction l with
  | nil => intro a b k hab; simpa using hab
  | cons x l ih =>
    intro a b k hab
    have hx := (h x (by simp)).weaken (pow_le_pow_of_le_one hv hv1 (Nat.le_add_right m k))
    have h1 := (hab.add hx).round hu hu0 hu1 (pow_nonneg hv _)
    rw [← pow_succ] at h1
    have := ih (fun y hy => h y (by simp [hy])) (k := k + 1) h1
    simp only [List.foldl_cons, List.length_cons, id_eq] at this ⊢
    have e : m + k + (l.length + 1) = m + (k + 1) + l.length := by omega
    rw [e]
    exact this

lemma near_prod (l : List (ℝ × ℝ)) (h : ∀ x ∈ l, Near (1 - u) x.1 x.2) :
    ∀ {a b : ℝ} {k : ℕ}, Near ((1 - u) ^ k) a b →
      Near ((1 - u) ^ (k + 2 * l.length)) ((l.map Prod.fst).foldl (fun a b => id (a * b)) a)
        ((l.map Prod.snd).foldl (fun a b => fl (a * b)) b) := by
  have hv : (0 : ℝ) ≤ 1 - u := by linarith
  induction l with
  | nil => intro a b k hab; simpa using hab
  | cons x l ih =>
    intro a b k hab
    have h1 := (hab.mul (pow_nonneg hv _) hv (h x (by simp))).round hu hu0 hu1 (mul_nonneg (pow_nonneg hv _) hv)
    rw [← pow_succ, ← pow_succ] at h1
    have := ih (fun y hy => h y (by simp [hy])) h1
    simp only [List.map_cons, List.foldl_cons, List.length_cons, id_eq] at this ⊢
    have e : k + 2 * (l.length + 1) = k + 1 + 1 + 2 * l.length := by omega
    rw [e]
    exact this

lemma near_volume {rows : List (List ℝ)} {idx : Fin d → ℕ}
    (h : ∀ i : Fin d, 0 ≤ edgeAt rows i (idx i + 1) - edgeAt rows i (idx i)) :
    Near ((1 - u) ^ (2 * d)) (volumeFl id rows idx) (volumeFl fl rows idx) := by
  have hv : (0 : ℝ) ≤ 1 - u := by linarith
  have hv1 : 1 - u ≤ 1 := by linarith
  obtain ⟨W, hW⟩ : ∃ W, W = (List.finRange d).map fun i : Fin d =>
      ((edgeAt rows i (idx i + 1) - edgeAt rows i (idx i)), fl (edgeAt rows i (idx i + 1) - edgeAt rows i (idx i))) :=
    ⟨_, rfl⟩
  have e1 : ((List.finRange d).map fun i : Fin d => id (edgeAt rows i (idx i + 1) - edgeAt rows i (idx i)))
      = W.map Prod.fst := by simp [hW, Function.comp_def]
  have e2 : ((List.finRange d).map fun i : Fin d => fl (edgeAt rows i (idx i + 1) - edgeAt rows i (idx i)))
      = W.map Prod.snd := by simp [hW, Function.comp_def]
  have hlen : W.length = d := by simp [hW]
  have hW' : ∀ x ∈ W, Near (1 - u) x.1 x.2 := by
    intro x hx
    rw [hW, List.mem_map] at hx
    obtain ⟨i, _, rfl⟩ := hx
    simpa using (Near.rfl' (h i)).round hu hu0 hu1 zero_le_one
  unfold volumeFl
  rw [e1, e2]
  cases W with
  | nil =>
    simp only [List.length_nil] at hlen
    subst hlen
    simpa using Near.rfl' zero_le_one
  | cons w ws =>
    have := near_prod hu hu0 hu1 ws (fun x hx => hW' x (by simp [hx])) (k := 1) (a := w.1) (b := w.2)
      (by simpa using hW' w (by simp))
    simp only [List.map_cons]
    refine this.weaken (pow_le_pow_of_le_one hv hv1 ?_)
    simp only [List.length_cons] at hlen
    omega

lemma near_mass {rows : List (List ℝ)} {f : NDArr d ℝ} {idx : Fin d → ℕ}
    (h : ∀ i : Fin d, 0 ≤ edgeAt rows i (idx i + 1) - edgeAt rows i (idx i))
    (hf : ∀ c ∈ cornerList d, 0 ≤ f.get fun i => idx i + c i) :
    Near ((1 - u) ^ (2 ^ d + 2 * d + 2)) ((massFl id f rows).get idx) ((massFl fl f rows).get idx) := by
  have hv : (0 : ℝ) ≤ 1 - u := by linarith
  have hv1 : 1 - u ≤ 1 := by linarith
  have hvol := near_volume hu hu0 hu1 h
  have hterm : ∀ c ∈ cornerList d, Near ((1 - u) ^ (2 * d + 1)) (id ((f.get fun i => idx i + c i) * volumeFl id rows idx))
      (fl ((f.get fun i => idx i + c i) * volumeFl fl rows idx)) := by
    intro c hc
    have := ((Near.rfl' (hf c hc)).mul zero_le_one (pow_nonneg hv _) hvol).round hu hu0 hu1
      (mul_nonneg zero_le_one (pow_nonneg hv _))
    rwa [one_mul, ← pow_succ] at this
  have hs := near_sum hu hu0 hu1 (cornerList d) hterm (k := 0) (a := 0) (b := 0)
    ⟨le_rfl, le_rfl, by simp, by simp⟩
  have hl : (cornerList d).length = 2 ^ d := by simp [cornerList]
  rw [hl] at hs
  have := (hs.divConst (show (0 : ℝ) ≤ 2 ^ d by positivity)).round hu hu0 hu1 (pow_nonneg hv _)
  rw [← pow_succ] at this
  have e : 2 * d + 1 + 0 + 2 ^ d + 1 = 2 ^ d + 2 * d + 2 := by omega
  rw [e] at this
  exact this

lemma near_runSum {f f' : ℕ → ℝ} {m : ℕ} (n : ℕ) (h : ∀ k ≤ n, Near ((1 - u) ^ m) (f k) (f' k)) :
    Near ((1 - u) ^ (m + n)) (runSumFl id f n) (runSumFl fl f' n) := by
  have hv : (0 : ℝ) ≤ 1 - u := by linarith
  have hv1 : 1 - u ≤ 1 := by linarith
  induction n with
  | zero => exact h 0 le_rfl
  | succ n ih =>
    have h1 := ih fun k hk => h k (by omega)
    have h2 := (h (n + 1) le_rfl).weaken (pow_le_pow_of_le_one hv hv1 (Nat.le_add_right m n))
    have := (h1.add h2).round hu hu0 hu1 (pow_nonneg hv _)
    rw [← pow_succ] at this
    exact this

lemma near_cumsum {s : Fin d → ℕ} (l : List (Fin d)) : ∀ {a b : NDArr d ℝ} {m : ℕ}, a.shape = s → b.shape = s →
    (∀ idx, ValidIdx s idx → Near ((1 - u) ^ m) (a.get idx) (b.get idx)) →
    (l.foldl (fun r i => cumsumAxisFl fl i r) b).shape = s ∧
    ∀ idx, ValidIdx s idx → Near ((1 - u) ^ (m + (l.map s).sum)) ((l.foldl (fun r i => cumsumAxisFl id i r) a).get idx)
      ((l.foldl (fun r i => cumsumAxisFl fl i r) b).get idx) := by
  have hv : (0 : ℝ) ≤ 1 - u := by linarith
  have hv1 : 1 - u ≤ 1 := by linarith
  induction l with
  | nil => intro a b m _ hb h; exact ⟨hb, by simpa using h⟩
  | cons i l ih =>
    intro a b m ha hb h
    have := ih (a := cumsumAxisFl id i a) (b := cumsumAxisFl fl i b) (m := m + s i) ha hb (by
      intro idx hidx
      have := near_runSum hu hu0 hu1 (f := fun k => a.get (Function.update idx i k))
        (f' := fun k => b.get (Function.update idx i k)) (m := m) (idx i) (fun k hk => h _ (by
          intro j
          by_cases hj : j = i
          · subst hj; rw [Function.update_self]; exact hk.trans_lt (hidx j)
          · rw [Function.update_of_ne hj]; exact hidx j))
      refine this.weaken (pow_le_pow_of_le_one hv hv1 ?_)
      have := hidx i
      omega)
    simpa [List.foldl_cons, add_assoc] using this

end

/-! ### Monotonicity -/

lemma runSum_float (h : Nearest p fl) {f : ℕ → ℝ} (n : ℕ) (hf : ∀ k ≤ n, 0 ≤ f k ∧ IsFloat p (f k)) :
    0 ≤ runSumFl fl f n ∧ IsFloat p (runSumFl fl f n) := by
  induction n with
  | zero => exact hf 0 le_rfl
  | succ n ih =>
    refine ⟨fl_nonneg h ?_, h.float _⟩
    exact add_nonneg (ih fun k hk => hf k (by omega)).1 (hf _ le_rfl).1

lemma runSum_mono (h : Nearest p fl) {f : ℕ → ℝ} {n m : ℕ} (hnm : n ≤ m) (hf : ∀ k ≤ m, 0 ≤ f k ∧ IsFloat p (f k)) :
    runSumFl fl f n ≤ runSumFl fl f m := by
  induction m, hnm using Nat.le_induction with
  | base => exact le_rfl
  | succ m hm ih =>
    refine (ih fun k hk => hf k (by omega)).trans ?_
    have h1 := (runSum_float h m fun k hk => hf k (by omega)).2
    calc runSumFl fl f m = fl (runSumFl fl f m) := (h.fix h1).symm
      _ ≤ fl (runSumFl fl f m + f (m + 1)) := h.mono (by linarith [(hf (m + 1) le_rfl).1])

lemma runSum_le (h : Nearest p fl) {f g : ℕ → ℝ} (n : ℕ) (hfg : ∀ k ≤ n, f k ≤ g k) :
    runSumFl fl f n ≤ runSumFl fl g n := by
  induction n with
  | zero => exact hfg 0 le_rfl
  | succ n ih => exact h.mono (add_le_add (ih fun k hk => hfg k (by omega)) (hfg _ le_rfl))

lemma valid_update {s idx : Fin d → ℕ} (h : ValidIdx s idx) {i : Fin d} {k : ℕ} (hk : k < s i) :
    ValidIdx s (Function.update idx i k) := by
  intro j
  by_cases hj : j = i
  · subst hj; rwa [Function.update_self]
  · rw [Function.update_of_ne hj]; exact h j

/-- The array increases along axis `i`. -/
def UpAxis (s : Fin d → ℕ) (a : NDArr d ℝ) (i : Fin d) : Prop :=
  ∀ idx, ValidIdx s idx → ∀ k, idx i ≤ k → k < s i → a.get idx ≤ a.get (Function.update idx i k)

lemma cumsum_up (h : Nearest p fl) {s : Fin d → ℕ} (l : List (Fin d)) : ∀ {a : NDArr d ℝ} (S : Finset (Fin d)),
    a.shape = s → (∀ idx, ValidIdx s idx → 0 ≤ a.get idx ∧ IsFloat p (a.get idx)) → (∀ i ∈ S, UpAxis s a i) →
    (∀ idx, ValidIdx s idx → 0 ≤ (l.foldl (fun r i => cumsumAxisFl fl i r) a).get idx ∧
      IsFloat p ((l.foldl (fun r i => cumsumAxisFl fl i r) a).get idx)) ∧
    ∀ i ∈ S ∪ l.toFinset, UpAxis s (l.foldl (fun r i => cumsumAxisFl fl i r) a) i := by
  induction l with
  | nil => intro a S _ h1 h2; exact ⟨h1, by simpa using h2⟩
  | cons i l ih =>
    intro a S ha h1 h2
    have := ih (a := cumsumAxisFl fl i a) (insert i S) ha (by
      intro idx hidx
      exact runSum_float h _ fun k hk => h1 _ (valid_update hidx (hk.trans_lt (hidx i)))) (by
      intro j hj idx hidx k hk hks
      simp only [cumsumAxisFl]
      by_cases hji : j = i
      · subst hji
        rw [Function.update_self]
        have e : (fun q => a.get (Function.update (Function.update idx j k) j q))
            = fun q => a.get (Function.update idx j q) := by
          funext q; rw [Function.update_idem]
        rw [e]
        exact runSum_mono h hk fun q hq => h1 _ (valid_update hidx (hq.trans_lt hks))
      · rw [Function.update_of_ne (fun hh => hji hh.symm)]
        refine runSum_le h _ fun q hq => ?_
        rw [Function.update_comm hji]
        have hv : ValidIdx s (Function.update idx i q) := valid_update hidx (hq.trans_lt (hidx i))
        refine h2 j ((Finset.mem_insert.mp hj).resolve_left hji) _ hv k ?_ hks
        rw [Function.update_of_ne hji]
        exact hk)
    refine ⟨this.1, ?_⟩
    intro j hj
    refine this.2 j ?_
    simp only [List.toFinset_cons, Finset.mem_union, Finset.mem_insert] at hj ⊢
    tauto

lemma up_all {s : Fin d → ℕ} {a : NDArr d ℝ} (h : ∀ i, UpAxis s a i) {idx idx' : Fin d → ℕ} (hv : ValidIdx s idx')
    (hle : ∀ i, idx i ≤ idx' i) : a.get idx ≤ a.get idx' := by
  have key : ∀ S : Finset (Fin d), a.get idx ≤ a.get (fun i => if i ∈ S then idx' i else idx i) := by
    intro S
    induction S using Finset.induction_on with
    | empty => simp
    | insert i S hi ih =>
      refine ih.trans ?_
      have hvS : ValidIdx s (fun j => if j ∈ S then idx' j else idx j) := by
        intro j
        show (if j ∈ S then idx' j else idx j) < s j
        split_ifs
        · exact hv j
        · exact (hle j).trans_lt (hv j)
      have := h i _ hvS (idx' i) (by simpa [hi] using hle i) (hv i)
      have e : Function.update (fun j => if j ∈ S then idx' j else idx j) i (idx' i)
          = fun j => if j ∈ insert i S then idx' j else idx j := by
        funext j
        by_cases hj : j = i
        · subst hj; simp
        · rw [Function.update_of_ne hj]; simp [hj]
      rwa [e] at this
  simpa using key Finset.univ

/-! ### Without rounding -/

lemma volume_id (rows : List (List ℝ)) (idx : Fin d → ℕ) :
    volumeFl id rows idx = ∏ i : Fin d, (edgeAt rows i (idx i + 1) - edgeAt rows i (idx i)) := by
  have hprod : ∀ (l : List ℝ) (a : ℝ), l.foldl (fun a b => id (a * b)) a = a * l.prod := by
    intro l
    induction l with
    | nil => simp
    | cons x l ih => intro a; simp only [List.foldl_cons, id_eq, List.prod_cons] at ih ⊢; rw [ih, mul_assoc]
  rw [← Fin.prod_ofFn, List.ofFn_eq_map]
  unfold volumeFl
  simp only [id_eq]
  generalize (List.finRange d).map (fun i : Fin d => edgeAt rows i (idx i + 1) - edgeAt rows i (idx i)) = W
  cases W with
  | nil => rfl
  | cons w ws => exact hprod ws w

lemma mass_id (f : NDArr d ℝ) (rows : List (List ℝ)) (idx : Fin d → ℕ) :
    (massFl id f rows).get idx = Spec.cellMass rows f.get idx := by
  have hs : ∀ (t : (Fin d → ℕ) → ℝ), (cornerList d).foldl (fun acc c => acc + t c) 0
      = ∑ c ∈ Fintype.piFinset fun _ : Fin d => ({0, 1} : Finset ℕ), t c := by
    intro t
    have h1 := foldl_add_sum t (cornerList d) 0
    simp only [id_eq] at h1
    rw [h1, zero_add, cornerList, List.map_map]
    have := sum_range_unravel (fun _ : Fin d => 2) t
    rw [Finset.prod_const, Finset.card_univ, Fintype.card_fin] at this
    exact this
  simp only [massFl, id_eq]
  rw [hs, volume_id, ← Finset.sum_mul, Spec.cellMass, mul_div_right_comm]
  rfl

lemma runSum_id (f : ℕ → ℝ) (n : ℕ) : runSumFl id f n = ∑ k ∈ Finset.range (n + 1), f k := by
  induction n with
  | zero => simp [runSumFl]
  | succ n ih => rw [Finset.sum_range_succ, ← ih]; rfl

lemma cumsum_fl_id (a : NDArr d ℝ) : cumsumNdFl id a = cumsumNd a none := by
  unfold cumsumNdFl cumsumNd
  congr 1
  funext r i
  unfold cumsumAxisFl NDArr.cumsumAxis
  congr 1
  funext idx
  exact runSum_id _ _

lemma trapz_mass_id (f : NDArr d ℝ) (rows : List (List ℝ)) (hm : EdgesMatch f.shape rows)
    (h0 : ¬ ∃ i, f.shape i = 0) : trapzDensToMass f rows Finset.univ = .ok (massFl id f rows) := by
  unfold trapzDensToMass
  rw [if_pos hm, if_neg (by simpa using h0)]
  have e1 : (massFl id f rows).get = fun idx => (∑ c ∈ corners Finset.univ, f.get (fun i => idx i + c i) *
      ∏ i, binWidth rows Finset.univ i (idx i)) / 2 ^ (Finset.univ : Finset (Fin d)).card := by
    funext idx
    rw [mass_id, Spec.cellMass, ← mul_div_right_comm, Finset.sum_mul, Finset.card_univ, Fintype.card_fin]
    congr 1
    refine Finset.sum_congr ?_ fun c _ => ?_
    · ext c
      simp only [corners, validIdx, Finset.mem_univ, not_true_eq_false, false_implies, implies_true, Finset.filter_true]
      rfl
    · congr 1
      refine Finset.prod_congr rfl fun i _ => ?_
      simp [binWidth, edgeAt]
  rw [← e1]
  simp [massFl]

/-- The rounded model without rounding is the model of the other theorems. -/
theorem C149_exact (rows : List (List ℝ)) (pdf : Arr) : (cdfFl id rows pdf : Res (CdfGrid d)) = cdfOf rows pdf := by
  unfold cdfFl cdfOf
  by_cases hm : EdgesMatch (pdf.toND rows : NDArr d ℝ).shape rows
  · by_cases h0 : ∃ i, (pdf.toND rows : NDArr d ℝ).shape i = 0
    · have e : cumtrapzNd (pdf.toND rows : NDArr d ℝ) rows true none = .error .assertionError := by
        unfold cumtrapzNd trapzDensToMass
        rw [if_pos hm, if_pos (by simpa [axisSet] using h0)]
        rfl
      rw [e, if_pos hm, if_pos h0]
    · have e : cumtrapzNd (pdf.toND rows : NDArr d ℝ) rows true none
          = .ok (padFront (fun _ => 1) (cumsumNdFl id (massFl id (pdf.toND rows : NDArr d ℝ) rows))) := by
        unfold cumtrapzNd axisSet
        rw [trapz_mass_id _ _ hm h0, cumsum_fl_id]
        rfl
      rw [e, if_pos hm, if_neg h0]
      rfl
  · have e : cumtrapzNd (pdf.toND rows : NDArr d ℝ) rows true none = .error .valueError := by
      unfold cumtrapzNd trapzDensToMass
      rw [if_neg hm]
      rfl
    rw [e, if_neg hm]

/-! ### The theorem -/

lemma edge_pos {rows : List (List ℝ)} (hd : rows.length = d) (hasc : Ascending rows) {idx : Fin d → ℕ}
    (hidx : ValidIdx (fun i : Fin d => (rows.getD i []).length - 1) idx) (i : Fin d) :
    0 < edgeAt rows i (idx i + 1) - edgeAt rows i (idx i) := by
  have hi : (i : ℕ) < rows.length := by rw [hd]; exact i.2
  have hmem : rows.getD i [] ∈ rows := by rw [List.getD_eq_getElem _ _ hi]; exact List.getElem_mem hi
  have h1 := hidx i
  simp only at h1
  have h2 : idx i + 1 < (rows.getD i []).length := by omega
  unfold edgeAt
  rw [List.getD_eq_getElem _ _ h2, List.getD_eq_getElem _ _ (by omega : idx i < _), sub_pos]
  exact List.pairwise_iff_getElem.mp (hasc _ hmem).2 _ _ _ _ (by omega)

lemma corner_le {c : Fin d → ℕ} (hc : c ∈ cornerList d) (i : Fin d) : c i ≤ 1 := by
  simp only [cornerList, List.mem_map, List.mem_range] at hc
  obtain ⟨k, hk, rfl⟩ := hc
  have : unravelIdx (fun _ : Fin d => 2) k i < 2 := unravelIdx_valid (shape := fun _ : Fin d => 2) (by simpa using hk) i
  omega

lemma cellMass_nonneg {rows : List (List ℝ)} (hd : rows.length = d) (hasc : Ascending rows) {f : (Fin d → ℕ) → ℝ}
    (hf : ∀ idx, ValidIdx (fun i : Fin d => (rows.getD i []).length) idx → 0 ≤ f idx) {j : Fin d → ℕ}
    (hj : ValidIdx (fun i : Fin d => (rows.getD i []).length - 1) j) : 0 ≤ Spec.cellMass rows f j := by
  refine mul_nonneg (div_nonneg (Finset.sum_nonneg fun c hc => hf _ fun i => ?_) (by positivity))
    (Finset.prod_nonneg fun i _ => (edge_pos hd hasc hj i).le)
  have h1 := hj i
  have h2 := Fintype.mem_piFinset.mp hc i
  simp only [Finset.mem_insert, Finset.mem_singleton] at h2
  simp only at h1 ⊢
  omega

lemma cellMass_pos {rows : List (List ℝ)} (hd : rows.length = d) (hasc : Ascending rows) {f : (Fin d → ℕ) → ℝ}
    (hf : ∀ idx, ValidIdx (fun i : Fin d => (rows.getD i []).length) idx → 0 ≤ f idx) {idx : Fin d → ℕ}
    (hidx : ValidIdx (fun i : Fin d => (rows.getD i []).length) idx) (hpos : 0 < f idx) :
    ∃ j, ValidIdx (fun i : Fin d => (rows.getD i []).length - 1) j ∧ 0 < Spec.cellMass rows f j := by
  have hlen : ∀ i : Fin d, 2 ≤ (rows.getD i []).length := by
    intro i
    have hi : (i : ℕ) < rows.length := by rw [hd]; exact i.2
    have hmem : rows.getD i [] ∈ rows := by rw [List.getD_eq_getElem _ _ hi]; exact List.getElem_mem hi
    exact (hasc _ hmem).1
  have hj : ValidIdx (fun i : Fin d => (rows.getD i []).length - 1)
      fun i => min (idx i) ((rows.getD i []).length - 2) := by
    intro i
    have := hlen i
    simp only
    omega
  refine ⟨_, hj, ?_⟩
  refine mul_pos (div_pos ?_ (by positivity)) (Finset.prod_pos fun i _ => edge_pos hd hasc hj i)
  refine Finset.sum_pos' (fun c hc => hf _ fun i => ?_) ⟨fun i => idx i - min (idx i) ((rows.getD i []).length - 2), ?_, ?_⟩
  · have h1 := hj i
    have h2 := Fintype.mem_piFinset.mp hc i
    simp only [Finset.mem_insert, Finset.mem_singleton] at h2
    simp only at h1 ⊢
    omega
  · rw [Fintype.mem_piFinset]
    intro i
    have h1 := hidx i
    have := hlen i
    simp only [Finset.mem_insert, Finset.mem_singleton] at h1 ⊢
    omega
  · have e : (fun i => min (idx i) ((rows.getD i []).length - 2) + (idx i - min (idx i) ((rows.getD i []).length - 2)))
        = idx := by
      funext i
      omega
    rw [e]
    exact hpos

/-- **C149.** In floating point arithmetic with rounding to nearest, the cumulative distribution on the grid of a density
with nonnegative values, not all zero, is computed; it has the shape of the grid; its values lie between 0 and 1 and
never decrease along any axis; it is 0 on the lower faces of the grid and exactly 1 at its upper corner; and each value
agrees with the quotient of exact trapezoid masses up to the relative error `N / 2^p`, where `N` is linear in the number
of points per axis. -/
theorem C149_cdf (hp : 1 ≤ p) (h : Nearest p fl) {rows : List (List ℝ)} (hd : rows.length = d)
    (hasc : ∀ r ∈ rows, 2 ≤ r.length ∧ r.Pairwise (· < ·)) {pdf : Arr}
    (hf : ∀ idx, ValidIdx (fun i : Fin d => (rows.getD i []).length) idx → 0 ≤ (pdf.toND rows).get idx)
    (hpos : ∃ idx, ValidIdx (fun i : Fin d => (rows.getD i []).length) idx ∧ 0 < (pdf.toND rows).get idx) :
    ∃ g : CdfGrid d, cdfFl fl rows pdf = .ok g ∧ g.rows = rows ∧ g.vals.shape = (fun i : Fin d => (rows.getD i []).length) ∧
      (∀ idx, ValidIdx g.vals.shape idx → 0 ≤ g.vals.get idx ∧ g.vals.get idx ≤ 1) ∧
      (∀ idx idx', ValidIdx g.vals.shape idx' → (∀ i, idx i ≤ idx' i) → g.vals.get idx ≤ g.vals.get idx') ∧
      (∀ idx, (∃ i, idx i = 0) → g.vals.get idx = 0) ∧
      g.vals.get (fun i : Fin d => (rows.getD i []).length - 1) = 1 ∧
      ∀ idx, ValidIdx g.vals.shape idx →
        let G := Spec.massBelow rows (pdf.toND rows).get idx /
          Spec.massBelow rows (pdf.toND rows).get (fun i : Fin d => (rows.getD i []).length - 1)
        let ε := (2 * (2 ^ d + 2 * d + ∑ i : Fin d, (rows.getD i []).length) + 5 : ℕ) * (1 / 2 : ℝ) ^ p
        (1 - ε) * G ≤ g.vals.get idx ∧ (1 - ε) * g.vals.get idx ≤ G := by
  have hlen : ∀ i : Fin d, 2 ≤ (rows.getD i []).length := by
    intro i
    have hi : (i : ℕ) < rows.length := by rw [hd]; exact i.2
    have hmem : rows.getD i [] ∈ rows := by rw [List.getD_eq_getElem _ _ hi]; exact List.getElem_mem hi
    exact (hasc _ hmem).1
  have hu := h.accurate hp
  have hu0 : (0 : ℝ) ≤ (1 / 2) ^ p := by positivity
  have hu2 : (1 / 2 : ℝ) ^ p ≤ 1 / 2 := by
    calc (1 / 2 : ℝ) ^ p ≤ (1 / 2) ^ 1 := pow_le_pow_of_le_one (by norm_num) (by norm_num) hp
      _ = 1 / 2 := by norm_num
  obtain ⟨u, hue⟩ : ∃ u : ℝ, u = (1 / 2) ^ p := ⟨_, rfl⟩
  rw [← hue] at hu hu0 hu2 ⊢
  have hu1 : u ≤ 1 := by linarith
  have hv : (0 : ℝ) < 1 - u := by linarith
  obtain ⟨f, hfe⟩ : ∃ f : NDArr d ℝ, f = pdf.toND rows := ⟨_, rfl⟩
  have hshape : f.shape = fun i : Fin d => (rows.getD i []).length := by rw [hfe]; rfl
  rw [← hfe] at hf hpos ⊢
  obtain ⟨s, hs⟩ : ∃ s : Fin d → ℕ, s = fun i : Fin d => (rows.getD i []).length - 1 := ⟨_, rfl⟩
  have hshape' : ∀ fl : ℝ → ℝ, (massFl fl f rows).shape = s := by
    intro fl
    rw [hs]
    show (fun i => f.shape i - 1) = _
    rw [hshape]
  -- the masses
  have hmass : ∀ idx, ValidIdx s idx →
      Near ((1 - u) ^ (2 ^ d + 2 * d + 2)) ((massFl id f rows).get idx) ((massFl fl f rows).get idx) := by
    intro idx hidx
    rw [hs] at hidx
    refine near_mass hu hu0 hu1 (fun i => (edge_pos hd hasc hidx i).le) fun c hc => hf _ fun i => ?_
    have h1 := hidx i
    have h2 := corner_le hc i
    simp only at h1 ⊢
    omega
  obtain ⟨hcs, hcum⟩ := near_cumsum hu hu0 hu1 (s := s) (List.finRange d).reverse (hshape' id) (hshape' fl) hmass
  obtain ⟨hnn, hup⟩ := cumsum_up h (s := s) (List.finRange d).reverse (a := massFl fl f rows) ∅ (hshape' fl)
    (fun idx hidx => ⟨(hmass idx hidx).right, h.float _⟩) (by simp)
  have hcs' : (cumsumNdFl fl (massFl fl f rows)).shape = s := hcs
  obtain ⟨B, hB⟩ : ∃ B, B = cumsumNdFl fl (massFl fl f rows) := ⟨_, rfl⟩
  have hup' : ∀ {idx idx' : Fin d → ℕ}, ValidIdx s idx' → (∀ i, idx i ≤ idx' i) → B.get idx ≤ B.get idx' := by
    intro idx idx' hv' hle
    rw [hB]
    exact up_all (fun i => hup i (by simp)) hv' hle
  have hsum : (((List.finRange d).reverse.map s).sum) = ∑ i, s i := by
    rw [List.map_reverse, List.sum_reverse, ← List.ofFn_eq_map, List.sum_ofFn]
  obtain ⟨m, hm⟩ : ∃ m, m = 2 ^ d + 2 * d + 2 + ∑ i, s i := ⟨_, rfl⟩
  -- the padded cumulative masses
  obtain ⟨c, hc⟩ : ∃ c, c = padFront (fun _ => 1) B := ⟨_, rfl⟩
  have hcshape : c.shape = fun i : Fin d => (rows.getD i []).length := by
    funext i
    have := hlen i
    rw [hc]
    show B.shape i + 1 = _
    rw [hB, hcs', hs]
    simp only
    omega
  have hczero : ∀ idx : Fin d → ℕ, (∃ i, idx i = 0) → c.get idx = 0 := by
    rintro idx ⟨i, hi⟩
    rw [hc]
    simp only [padFront]
    rw [if_pos ⟨i, by omega⟩]
  have hcpos : ∀ idx : Fin d → ℕ, (¬ ∃ i, idx i = 0) → c.get idx = B.get fun i => idx i - 1 := by
    intro idx hi
    rw [hc]
    simp only [padFront]
    rw [if_neg]
    rintro ⟨i, hi'⟩
    exact hi ⟨i, by omega⟩
  have hpred : ∀ idx : Fin d → ℕ, ValidIdx c.shape idx → (¬ ∃ i, idx i = 0) → ValidIdx s fun i => idx i - 1 := by
    intro idx hidx hi i
    have h1 := hidx i
    rw [hcshape] at h1
    have h2 : idx i ≠ 0 := fun h' => hi ⟨i, h'⟩
    rw [hs]
    simp only at h1 ⊢
    omega
  have hcnn : ∀ idx, ValidIdx c.shape idx → 0 ≤ c.get idx := by
    intro idx hidx
    by_cases hi : ∃ i, idx i = 0
    · rw [hczero idx hi]
    · rw [hcpos idx hi, hB]
      exact (hnn _ (hpred idx hidx hi)).1
  have hcmono : ∀ idx idx', ValidIdx c.shape idx' → (∀ i, idx i ≤ idx' i) → c.get idx ≤ c.get idx' := by
    intro idx idx' hv' hle
    by_cases hi : ∃ i, idx i = 0
    · rw [hczero idx hi]
      exact hcnn idx' hv'
    · have hi' : ¬ ∃ i, idx' i = 0 := by
        rintro ⟨i, h0⟩
        have := hle i
        exact hi ⟨i, by omega⟩
      rw [hcpos idx hi, hcpos idx' hi']
      exact hup' (hpred idx' hv' hi') fun i => Nat.sub_le_sub_right (hle i) 1
  have hbelow : ∀ idx, ValidIdx c.shape idx →
      Near ((1 - u) ^ m) (Spec.massBelow rows f.get idx) (c.get idx) := by
    intro idx hidx
    by_cases hi : ∃ i, idx i = 0
    · rw [hczero idx hi]
      have : Spec.massBelow rows f.get idx = 0 := by
        obtain ⟨i, hi⟩ := hi
        refine Finset.sum_eq_zero fun j hj => ?_
        have := Fintype.mem_piFinset.mp hj i
        rw [hi] at this
        simp at this
      rw [this]
      exact ⟨le_rfl, le_rfl, by simp, by simp⟩
    · have h1 := hcum _ (hpred idx hidx hi)
      rw [hsum, ← hm] at h1
      rw [hcpos idx hi, hB]
      have h2 : Spec.massBelow rows f.get idx = (cumsumNdFl id (massFl id f rows)).get fun i => idx i - 1 := by
        rw [cumsum_fl_id, (cumsumNd_none _).2]
        unfold Spec.massBelow
        refine Finset.sum_congr ?_ fun j _ => (mass_id f rows j).symm
        congr 1
        funext i
        have : idx i ≠ 0 := fun h' => hi ⟨i, h'⟩
        congr 1
        omega
      rw [h2]
      exact h1
  obtain ⟨L, hL⟩ : ∃ L : Fin d → ℕ, L = fun i : Fin d => (rows.getD i []).length - 1 := ⟨_, rfl⟩
  rw [← hL]
  have hLv : ValidIdx c.shape L := by
    intro i
    have := hlen i
    rw [hcshape, hL]
    simp only
    omega
  have hmax : c.max = c.get L := by
    refine NDArr.max_eq hLv fun j hj => hcmono j L hLv fun i => ?_
    have := hj i
    rw [hcshape] at this
    rw [hL]
    simp only at this ⊢
    omega
  have hMpos : 0 < Spec.massBelow rows f.get L := by
    obtain ⟨idx, hidx, hp0⟩ := hpos
    obtain ⟨j, hj, hjp⟩ := cellMass_pos hd hasc hf hidx hp0
    refine Finset.sum_pos' (fun j hj => ?_) ⟨j, ?_, hjp⟩
    · refine cellMass_nonneg hd hasc hf fun i => ?_
      have := Fintype.mem_piFinset.mp hj i
      rw [hL] at this
      simpa using this
    · rw [Fintype.mem_piFinset]
      intro i
      rw [hL]
      simpa using hj i
  have hLpos : 0 < c.get L := by
    have := (hbelow L hLv).le
    exact (mul_pos (pow_pos hv m) hMpos).trans_le this
  have hmatch : EdgesMatch f.shape rows := ⟨hd, fun i => by rw [hshape]⟩
  have hne : ¬ ∃ i, f.shape i = 0 := by
    rintro ⟨i, hi⟩
    have := hlen i
    rw [hshape] at hi
    simp only at hi
    omega
  refine ⟨⟨rows, c.map fun x => fl (x / c.max)⟩, ?_, rfl, hcshape, ?_, ?_, ?_, ?_, ?_⟩
  · unfold cdfFl
    simp only
    rw [← hfe, if_pos hmatch, if_neg hne, ← hB, ← hc, if_neg (by rw [hmax]; exact hLpos.ne'),
      if_pos (show Ascending rows from hasc)]
  · intro idx hidx
    have h1 := hcnn idx hidx
    have h2 : c.get idx ≤ c.get L := hcmono idx L hLv fun i => by
      have := hidx i
      simp only [NDArr.map] at this
      rw [hcshape] at this
      rw [hL]
      simp only at this ⊢
      omega
    refine ⟨fl_nonneg h (div_nonneg h1 (by rw [hmax]; exact hLpos.le)), ?_⟩
    calc fl (c.get idx / c.max) ≤ fl 1 := h.mono (by rw [hmax]; exact (div_le_one hLpos).mpr h2)
      _ = 1 := h.one
  · intro idx idx' hv' hle
    exact h.mono (div_le_div_of_nonneg_right (hcmono idx idx' hv' hle) (by rw [hmax]; exact hLpos.le))
  · intro idx hi
    show fl (c.get idx / c.max) = 0
    rw [hczero idx hi, zero_div, h.zero]
  · show fl (c.get L / c.max) = 1
    rw [hmax, div_self hLpos.ne', h.one]
  · intro idx hidx
    have h1 := ((hbelow idx hidx).div (pow_nonneg hv.le m) (pow_nonneg hv.le m) (hbelow L hLv) hMpos hLpos).round hu hu0
      hu1 (mul_nonneg (pow_nonneg hv.le m) (pow_nonneg hv.le m))
    rw [← pow_add, ← pow_succ] at h1
    have hb := one_add_mul_le_pow (show (-2 : ℝ) ≤ -u by linarith) (m + m + 1)
    have hsle : ∑ i, s i ≤ ∑ i : Fin d, (rows.getD i []).length :=
      Finset.sum_le_sum fun i _ => by rw [hs]; exact Nat.sub_le _ _
    have hml : m + m + 1 ≤ 2 * (2 ^ d + 2 * d + ∑ i : Fin d, (rows.getD i []).length) + 5 := by
      rw [hm]
      generalize 2 ^ d = q at *
      omega
    have hml' : ((m + m + 1 : ℕ) : ℝ) ≤ (2 * (2 ^ d + 2 * d + ∑ i : Fin d, (rows.getD i []).length) + 5 : ℕ) := by
      exact_mod_cast hml
    have hε : 1 - (2 * (2 ^ d + 2 * d + ∑ i : Fin d, (rows.getD i []).length) + 5 : ℕ) * u ≤ (1 - u) ^ (m + m + 1) := by
      have := mul_le_mul_of_nonneg_right hml' hu0
      rw [← sub_eq_add_neg] at hb
      linarith
    have h2 := h1.weaken hε
    rw [← hmax] at h2
    exact ⟨h2.le, h2.ge⟩

/-- Concrete case of the hypotheses of `C149_cdf`: a density on a grid of 3 times 2 points. -/
example : ([[0, 1, 3], [0, 1 / 2]] : List (List ℝ)).length = 2 ∧
    (∀ r ∈ ([[0, 1, 3], [0, 1 / 2]] : List (List ℝ)), 2 ≤ r.length ∧ r.Pairwise (· < ·)) ∧
    (∀ idx, ValidIdx (fun i : Fin 2 => (([[0, 1, 3], [0, 1 / 2]] : List (List ℝ)).getD i []).length) idx →
      0 ≤ ((⟨[3, 2], [0, 1, 2, 1, 1, 0]⟩ : Arr).toND [[0, 1, 3], [0, 1 / 2]]).get idx) ∧
    ∃ idx, ValidIdx (fun i : Fin 2 => (([[0, 1, 3], [0, 1 / 2]] : List (List ℝ)).getD i []).length) idx ∧
      0 < ((⟨[3, 2], [0, 1, 2, 1, 1, 0]⟩ : Arr).toND [[0, 1, 3], [0, 1 / 2]]).get idx := by
  refine ⟨rfl, ?_, ?_, ![1, 0], ?_, ?_⟩
  · intro r hr
    simp only [List.mem_cons, List.not_mem_nil, or_false] at hr
    rcases hr with rfl | rfl <;> norm_num
  · intro idx _
    simp only [Arr.toND]
    generalize ravelIdx _ idx = k
    rcases lt_or_ge k 6 with hk | hk
    · interval_cases k <;> norm_num
    · rw [List.getD_eq_default _ _ (by simpa using hk)]
  · intro i
    fin_cases i <;> simp
  · have : ravelIdx (fun i : Fin 2 => (([[0, 1, 3], [0, 1 / 2]] : List (List ℝ)).getD i []).length) ![1, 0] = 2 := by
      simp [ravelIdx]
    simp only [Arr.toND]
    rw [this]
    norm_num

end Kalepy
