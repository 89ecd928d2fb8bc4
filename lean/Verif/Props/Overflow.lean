import Verif.Props.Underflow

/-!
# C161: the density in arithmetic with a largest number

C135 and C156 are about roundings without overflow.  Here nothing is assumed about the rounding of numbers larger than a number `Ω`:
a program gets infinities or NaN there.  If the data are not too large no such number occurs.
-/

namespace Kalepy

open Matrix Spec

/-! ### Specification -/

/-- `fl` rounds like `g` as long as there is no overflow, i.e. up to the absolute value `Ω`. -/
def Spec.AgreeUpTo (Ω : ℝ) (fl g : ℝ → ℝ) : Prop := ∀ x, |x| ≤ Ω → fl x = g x

/-- Size of the numbers in the sum over the data at the point `x`. -/
noncomputable def Spec.sumSize {m : ℕ} (r : ℝ) (D : Dist) (white : Matrix (Fin m) (Fin m) ℝ) (wdata : List ((Fin m → ℝ) × ℝ))
    (x : Fin m → ℝ) : ℝ :=
  (wdata.map fun q => (|q.2| + r ^ 2) * (1 + Spec.distSizeFrom r white x q.1) ^ Spec.degree D).sum

/-- The distances, kernels, sums and quotients at the point `x` are all below `Ω`, with a factor for the roundings. -/
structure Spec.Fits {m : ℕ} (Ω u r norm : ℝ) (D : Dist) (white : Matrix (Fin m) (Fin m) ℝ) (wdata : List ((Fin m → ℝ) × ℝ))
    (x : Fin m → ℝ) : Prop where
  dist : ∀ q ∈ wdata, (1 + 2 * u) ^ (9 * m + 20) * (1 + Spec.distSizeFrom r white x q.1) ^ Spec.degree D ≤ Ω
  sum : (1 + 2 * u) ^ (9 * m + wdata.length + 22) * Spec.sumSize r D white wdata x ≤ Ω
  quot : (1 + 2 * u) ^ (9 * m + wdata.length + 22) * (Spec.sumSize r D white wdata x / norm) ≤ Ω

/-! ### Proofs -/

variable {m : ℕ} {fl g : ℝ → ℝ} {u r Ω : ℝ}

lemma AccurateFrom.abs_le {t : ℝ} (hu : AccurateFrom u t g) (hu0 : 0 ≤ u) {x T : ℝ} (h : |x| ≤ T) (ht : t ≤ T) :
    |g x| ≤ (1 + 2 * u) * T := by
  have h1 := hu.err x
  have h2 := abs_add_le (g x - x) x
  rw [sub_add_cancel] at h2
  have h3 : u * (|x| + t) ≤ u * (T + T) := mul_le_mul_of_nonneg_left (by linarith) hu0
  linarith

lemma foldl_agree {α : Type*} {t : ℝ} (ha : AgreeUpTo Ω fl g) (hu : AccurateFrom u t g) (hu0 : 0 ≤ u) {s T : α → ℝ} (l : List α) :
    ∀ {acc S : ℝ}, |acc| ≤ S → (∀ i ∈ l, |s i| ≤ T i ∧ t ≤ T i) → (1 + 2 * u) ^ l.length * (S + (l.map T).sum) ≤ Ω →
      l.foldl (fun acc i => fl (acc + s i)) acc = l.foldl (fun acc i => g (acc + s i)) acc ∧
      |l.foldl (fun acc i => g (acc + s i)) acc| ≤ (1 + 2 * u) ^ l.length * (S + (l.map T).sum) := by
  have hb : (1 : ℝ) ≤ 1 + 2 * u := by linarith
  induction l with
  | nil => intro acc S h _ _; simpa using h
  | cons i l ih =>
    intro acc S h hT hΩ
    have hi := hT i (by simp)
    have hTi : 0 ≤ T i := (abs_nonneg _).trans hi.1
    have hS : 0 ≤ S := (abs_nonneg _).trans h
    have hl : 0 ≤ (l.map T).sum := List.sum_nonneg fun y hy => by
      obtain ⟨j, hj, rfl⟩ := List.mem_map.mp hy
      exact (abs_nonneg _).trans (hT j (by simp [hj])).1
    have h1 : |acc + s i| ≤ S + T i := (abs_add_le _ _).trans (add_le_add h hi.1)
    simp only [List.map_cons, List.sum_cons, List.length_cons] at hΩ
    have hp : (1 : ℝ) ≤ (1 + 2 * u) ^ (l.length + 1) := one_le_pow₀ hb
    have h2 : |acc + s i| ≤ Ω := by nlinarith
    have h3 : |g (acc + s i)| ≤ (1 + 2 * u) * (S + T i) := AccurateFrom.abs_le hu hu0 h1 (by linarith)
    have hp' : (0 : ℝ) ≤ (1 + 2 * u) ^ l.length := by positivity
    have h4 : (1 + 2 * u) ^ l.length * ((1 + 2 * u) * (S + T i) + (l.map T).sum)
        ≤ (1 + 2 * u) ^ (l.length + 1) * (S + (T i + (l.map T).sum)) := by
      rw [pow_succ]
      have : (1 + 2 * u) * (S + T i) + (l.map T).sum ≤ (1 + 2 * u) * (S + (T i + (l.map T).sum)) := by nlinarith
      calc (1 + 2 * u) ^ l.length * ((1 + 2 * u) * (S + T i) + (l.map T).sum)
          ≤ (1 + 2 * u) ^ l.length * ((1 + 2 * u) * (S + (T i + (l.map T).sum))) := mul_le_mul_of_nonneg_left this hp'
        _ = _ := by ring
    simp only [List.foldl_cons, List.map_cons, List.sum_cons, List.length_cons]
    rw [ha _ h2]
    obtain ⟨h5, h6⟩ := ih h3 (fun j hj => hT j (by simp [hj])) (h4.trans hΩ)
    exact ⟨h5, h6.trans h4⟩

lemma whiten_agree (ha : AgreeUpTo Ω fl g) (hu : AccurateFrom u (r ^ 2) g) (hu0 : 0 ≤ u) (hr0 : 0 ≤ r) (hr1 : r ≤ 1)
    (white : Matrix (Fin m) (Fin m) ℝ) (k : Fin m) (x : Fin m → ℝ)
    (hΩ : (1 + 2 * u) ^ (m + 1) * ∑ l, (|white k l| * |x l| + r) ≤ Ω) :
    whitenFl fl white k x = whitenFl g white k x ∧ |whitenFl g white k x| ≤ (1 + 2 * u) ^ (m + 1) * ∑ l, (|white k l| * |x l| + r) := by
  have hb : (1 : ℝ) ≤ 1 + 2 * u := by linarith
  have hr2 : r ^ 2 ≤ r := by nlinarith
  have hterm : ∀ l, |white k l| * |x l| + r ≤ Ω := by
    intro l
    have h1 := Finset.single_le_sum (f := fun l => |white k l| * |x l| + r) (fun l _ => by positivity) (Finset.mem_univ l)
    have h2 : (1 : ℝ) ≤ (1 + 2 * u) ^ (m + 1) := one_le_pow₀ hb
    have h3 : 0 ≤ |white k l| * |x l| + r := by positivity
    have h4 : (1 + 2 * u) ^ (m + 1) * (|white k l| * |x l| + r) ≤ Ω := (mul_le_mul_of_nonneg_left h1 (zero_le_one.trans h2)).trans hΩ
    have h5 := mul_le_mul_of_nonneg_right h2 h3
    linarith
  have e : ∀ l, fl (white k l * x l) = g (white k l * x l) := fun l => ha _ (by
    rw [abs_mul]
    linarith [hterm l])
  have hT : ∀ l ∈ List.finRange m, |g (white k l * x l)| ≤ (1 + 2 * u) * (|white k l| * |x l| + r) ∧
      r ^ 2 ≤ (1 + 2 * u) * (|white k l| * |x l| + r) := by
    intro l _
    have h0 : 0 ≤ |white k l| * |x l| := by positivity
    refine ⟨AccurateFrom.abs_le hu hu0 (by rw [abs_mul]; linarith) (by linarith), ?_⟩
    nlinarith
  have e2 : ((List.finRange m).map fun l => (1 + 2 * u) * (|white k l| * |x l| + r)).sum
      = (1 + 2 * u) * ∑ l, (|white k l| * |x l| + r) := by
    rw [← Fin.sum_univ_def, Finset.mul_sum]
  have h := foldl_agree ha hu hu0 (List.finRange m) (acc := 0) (S := 0) (by simp) hT (by
    rw [e2, List.length_finRange, zero_add, ← mul_assoc, ← pow_succ]
    exact hΩ)
  rw [e2, List.length_finRange, zero_add, ← mul_assoc, ← pow_succ] at h
  simp only [whitenFl, e]
  exact h

lemma dist2_agree (ha : AgreeUpTo Ω fl g) (hu : AccurateFrom u (r ^ 2) g) (hu0 : 0 ≤ u) (hr0 : 0 ≤ r) (hr1 : r ≤ 1)
    (white : Matrix (Fin m) (Fin m) ℝ) (x d : Fin m → ℝ)
    (hΩ : (1 + 2 * u) ^ (3 * m + 5) * (1 + Spec.distSizeFrom r white x d) ≤ Ω) :
    dist2Fl fl white x d = dist2Fl g white x d := by
  have hb : (1 : ℝ) ≤ 1 + 2 * u := by linarith
  have hbp : ∀ {a b : ℕ}, a ≤ b → (1 + 2 * u) ^ a ≤ (1 + 2 * u) ^ b := fun h => pow_le_pow_right₀ hb h
  obtain ⟨s, hs⟩ : ∃ s : Fin m → (Fin m → ℝ) → ℝ, s = fun k y => ∑ l, (|white k l| * |y l| + r) := ⟨_, rfl⟩
  have hs0 : ∀ k y, 0 ≤ s k y := fun k y => by
    rw [hs]
    exact Finset.sum_nonneg fun l _ => by positivity
  have hsr : ∀ k y, r ≤ s k y := fun k y => by rw [hs]; exact size_le_sum hr0 white k y
  have eS : Spec.distSizeFrom r white x d = ∑ k, (s k x + s k d) ^ 2 := by rw [Spec.distSizeFrom, hs]
  have hsq : ∀ k, (s k x + s k d) ^ 2 ≤ Spec.distSizeFrom r white x d := fun k => by
    rw [eS]
    exact Finset.single_le_sum (f := fun k => (s k x + s k d) ^ 2) (fun k _ => sq_nonneg _) (Finset.mem_univ k)
  have hlin : ∀ k, s k x + s k d ≤ 1 + Spec.distSizeFrom r white x d := fun k => by
    have := hsq k
    nlinarith [sq_nonneg (s k x + s k d - 1), hs0 k x, hs0 k d]
  have hS0 := distSizeFrom_nonneg r white x d
  have big : ∀ {n : ℕ} {a : ℝ}, n ≤ 3 * m + 5 → 0 ≤ a → a ≤ 1 + Spec.distSizeFrom r white x d → (1 + 2 * u) ^ n * a ≤ Ω := by
    intro n a hn h0 h1
    refine le_trans (mul_le_mul (hbp hn) h1 h0 (by positivity)) hΩ
  have hw1 : ∀ k, whitenFl fl white k x = whitenFl g white k x ∧ |whitenFl g white k x| ≤ (1 + 2 * u) ^ (m + 1) * s k x := fun k => by
    have := whiten_agree ha hu hu0 hr0 hr1 white k x (by
      have := big (n := m + 1) (by omega) (hs0 k x) (by linarith [hlin k, hs0 k d])
      rwa [hs] at this)
    rwa [hs]
  have hw2 : ∀ k, whitenFl fl white k d = whitenFl g white k d ∧ |whitenFl g white k d| ≤ (1 + 2 * u) ^ (m + 1) * s k d := fun k => by
    have := whiten_agree ha hu hu0 hr0 hr1 white k d (by
      have := big (n := m + 1) (by omega) (hs0 k d) (by linarith [hlin k, hs0 k x])
      rwa [hs] at this)
    rwa [hs]
  have hdiff : ∀ k, |whitenFl g white k x - whitenFl g white k d| ≤ (1 + 2 * u) ^ (m + 1) * (s k x + s k d) := fun k => by
    refine (abs_sub _ _).trans ?_
    rw [mul_add]
    exact add_le_add (hw1 k).2 (hw2 k).2
  have e1 : ∀ k, fl (whitenFl g white k x - whitenFl g white k d) = g (whitenFl g white k x - whitenFl g white k d) := fun k =>
    ha _ ((hdiff k).trans (big (by omega) (add_nonneg (hs0 k x) (hs0 k d)) (hlin k)))
  have b1 : ∀ k, |g (whitenFl g white k x - whitenFl g white k d)| ≤ (1 + 2 * u) ^ (m + 2) * (s k x + s k d) := fun k => by
    have h1 : r ^ 2 ≤ (1 + 2 * u) ^ (m + 1) * (s k x + s k d) := by
      have h2 : (1 : ℝ) ≤ (1 + 2 * u) ^ (m + 1) := one_le_pow₀ hb
      have h3 : r ^ 2 ≤ s k x + s k d := by nlinarith [hsr k x, hs0 k d]
      nlinarith [hs0 k x, hs0 k d]
    have := AccurateFrom.abs_le hu hu0 (hdiff k) h1
    rwa [← mul_assoc, ← pow_succ'] at this
  have b2 : ∀ k, |g (whitenFl g white k x - whitenFl g white k d) * g (whitenFl g white k x - whitenFl g white k d)|
      ≤ (1 + 2 * u) ^ (2 * m + 4) * (s k x + s k d) ^ 2 := fun k => by
    rw [abs_mul]
    refine (mul_le_mul (b1 k) (b1 k) (abs_nonneg _) ((abs_nonneg _).trans (b1 k))).trans (le_of_eq ?_)
    ring
  have e2 : ∀ k, fl (g (whitenFl g white k x - whitenFl g white k d) * g (whitenFl g white k x - whitenFl g white k d))
      = g (g (whitenFl g white k x - whitenFl g white k d) * g (whitenFl g white k x - whitenFl g white k d)) := fun k =>
    ha _ ((b2 k).trans (big (by omega) (sq_nonneg _) (by linarith [hsq k])))
  have hT : ∀ k ∈ List.finRange m,
      |g (g (whitenFl g white k x - whitenFl g white k d) * g (whitenFl g white k x - whitenFl g white k d))|
        ≤ (1 + 2 * u) ^ (2 * m + 5) * (s k x + s k d) ^ 2 ∧ r ^ 2 ≤ (1 + 2 * u) ^ (2 * m + 5) * (s k x + s k d) ^ 2 := by
    intro k _
    have h3 : r ^ 2 ≤ (s k x + s k d) ^ 2 := pow_le_pow_left₀ hr0 (by linarith [hsr k x, hs0 k d]) 2
    have h4 : ∀ n : ℕ, r ^ 2 ≤ (1 + 2 * u) ^ n * (s k x + s k d) ^ 2 := fun n => by
      have h2 : (1 : ℝ) ≤ (1 + 2 * u) ^ n := one_le_pow₀ hb
      nlinarith [sq_nonneg (s k x + s k d)]
    refine ⟨?_, h4 _⟩
    have := AccurateFrom.abs_le hu hu0 (b2 k) (h4 _)
    rwa [← mul_assoc, ← pow_succ'] at this
  have e3 : ((List.finRange m).map fun k => (1 + 2 * u) ^ (2 * m + 5) * (s k x + s k d) ^ 2).sum
      = (1 + 2 * u) ^ (2 * m + 5) * Spec.distSizeFrom r white x d := by
    rw [← Fin.sum_univ_def, eS, Finset.mul_sum]
  have h := (foldl_agree ha hu hu0 (List.finRange m) (acc := 0) (S := 0) (by simp) hT (by
    rw [e3, List.length_finRange, zero_add, ← mul_assoc, ← pow_add]
    exact big (by omega) hS0 (by linarith))).1
  simp only [dist2Fl, (hw1 _).1, (hw2 _).1, e1, e2]
  exact h

lemma degree_pos (D : Dist) : 1 ≤ Spec.degree D := by cases D <;> simp [Spec.degree]

lemma kernel_agree (ha : AgreeUpTo Ω fl g) (hu : AccurateFrom u (r ^ 2) g) (hu0 : 0 ≤ u) (hr0 : 0 ≤ r) (hr1 : r ≤ 1) (D : Dist)
    (white : Matrix (Fin m) (Fin m) ℝ) (x d : Fin m → ℝ)
    (hΩ : (1 + 2 * u) ^ (9 * m + 20) * (1 + Spec.distSizeFrom r white x d) ^ Spec.degree D ≤ Ω) :
    D.evalFl fl (dist2Fl fl white x d) = D.evalFl g (dist2Fl g white x d) ∧
      |D.evalFl g (dist2Fl g white x d)| ≤ (1 + 2 * u) ^ (9 * m + 20) * (1 + Spec.distSizeFrom r white x d) ^ Spec.degree D := by
  have hb : (1 : ℝ) ≤ 1 + 2 * u := by linarith
  have hbp : ∀ {a b : ℕ}, a ≤ b → (1 + 2 * u) ^ a ≤ (1 + 2 * u) ^ b := fun h => pow_le_pow_right₀ hb h
  have hS0 := distSizeFrom_nonneg r white x d
  have big : ∀ {n k : ℕ}, n ≤ 9 * m + 20 → k ≤ Spec.degree D →
      (1 + 2 * u) ^ n * (1 + Spec.distSizeFrom r white x d) ^ k ≤ Ω := by
    intro n k hn hk
    exact le_trans (mul_le_mul (hbp hn) (pow_le_pow_right₀ (by linarith) hk) (by positivity) (by positivity)) hΩ
  have hΩ1 : 1 ≤ Ω := by
    have := big (n := 0) (k := 0) (by omega) (by omega)
    simpa using this
  have hd := dist2_agree ha hu hu0 hr0 hr1 white x d (by
    have := big (n := 3 * m + 5) (k := 1) (by omega) (degree_pos D)
    rwa [pow_one] at this)
  rw [hd]
  have hA := (dist2_approxFrom hu hu0 hr0 hr1 white x d).abs_le
  have hy := dist2FlFrom_nonneg hu white x d
  rw [abs_of_nonneg hy] at hA
  have hS1 : 1 ≤ (1 + 2 * u) ^ (3 * m + 5) := one_le_pow₀ hb
  have h1y : |1 - dist2Fl g white x d| ≤ (1 + 2 * u) ^ (3 * m + 5) * (1 + Spec.distSizeFrom r white x d) := by
    rw [abs_le]
    constructor <;> nlinarith
  have big1 : (1 + 2 * u) ^ (3 * m + 5) * (1 + Spec.distSizeFrom r white x d) ≤ Ω := by
    have := big (n := 3 * m + 5) (k := 1) (by omega) (degree_pos D)
    rwa [pow_one] at this
  have ht : r ^ 2 ≤ 1 := pow_le_one₀ hr0 hr1
  constructor
  · cases D with
    | gaussian =>
      simp only [Dist.evalFl]
      have h1 : fl (-dist2Fl g white x d / 2) = g (-dist2Fl g white x d / 2) := by
        refine ha _ ?_
        rw [neg_div, abs_neg, abs_of_nonneg (by positivity)]
        nlinarith
      have h2 : g (-dist2Fl g white x d / 2) ≤ 0 := hu.nonpos _ (by linarith)
      rw [h1]
      refine ha _ ?_
      rw [abs_of_pos (Real.exp_pos _)]
      exact (Real.exp_le_one_iff.mpr h2).trans hΩ1
    | box => rfl
    | parabola =>
      simp only [Dist.evalFl]
      rw [ha _ (h1y.trans big1)]
    | triweight =>
      simp only [Dist.evalFl]
      have hz := AccurateFrom.abs_le hu hu0 h1y (by nlinarith)
      rw [← mul_assoc, ← pow_succ'] at hz
      rw [ha _ (h1y.trans big1)]
      obtain ⟨z, hzd⟩ : ∃ z, z = g (1 - dist2Fl g white x d) := ⟨_, rfl⟩
      obtain ⟨S, hS⟩ : ∃ S, S = 1 + Spec.distSizeFrom r white x d := ⟨_, rfl⟩
      have hS1' : 1 ≤ S := by rw [hS]; linarith
      rw [← hzd] at hz ⊢
      rw [← hS] at hz big
      have hz2 : |z * z| ≤ (1 + 2 * u) ^ (6 * m + 12) * S ^ 2 := by
        rw [abs_mul]
        refine (mul_le_mul hz hz (abs_nonneg _) ((abs_nonneg _).trans hz)).trans (le_of_eq ?_)
        ring
      rw [ha _ (hz2.trans (big (by omega) (by simp [Spec.degree])))]
      have h1S : r ^ 2 ≤ (1 + 2 * u) ^ (6 * m + 12) * S ^ 2 := by
        have a1 : (1 : ℝ) ≤ (1 + 2 * u) ^ (6 * m + 12) := one_le_pow₀ hb
        have a2 : (1 : ℝ) ≤ S ^ 2 := one_le_pow₀ hS1'
        nlinarith
      have hz3 := AccurateFrom.abs_le hu hu0 hz2 h1S
      have hz4 : |z * g (z * z)| ≤ (1 + 2 * u) ^ (9 * m + 19) * S ^ 3 := by
        rw [abs_mul]
        refine (mul_le_mul hz hz3 (abs_nonneg _) ((abs_nonneg _).trans hz)).trans (le_of_eq ?_)
        ring
      rw [ha _ (hz4.trans (big (by omega) (by simp [Spec.degree])))]
  · by_cases hD : D = .box
    · subst hD
      have h1 : (1 : ℝ) ≤ (1 + 2 * u) ^ (9 * m + 20) := one_le_pow₀ hb
      have h2 : (1 : ℝ) ≤ (1 + Spec.distSizeFrom r white x d) ^ Spec.degree .box := one_le_pow₀ (by linarith)
      have h3 := one_le_mul_of_one_le_of_one_le h1 h2
      simp only [Dist.evalFl]
      split_ifs
      · rw [abs_one]; exact h3
      · rw [abs_zero]; linarith
    · exact (kernel_approxFrom hu hu0 hr0 hr1 hD white x d).abs_le

/-- **C161 (no overflow).** If the sizes of the numbers at the points stay below `Ω`, the density does not depend on what happens to larger
numbers: it is the one of the arithmetic without overflow, whose accuracy C156 states. -/
theorem C161_no_overflow (ha : AgreeUpTo Ω fl g) (hu : AccurateFrom u (r ^ 2) g) (hu0 : 0 ≤ u) (hr0 : 0 ≤ r) (hr1 : r ≤ 1) (D : Dist)
    (white : Matrix (Fin m) (Fin m) ℝ) {norm : ℝ} (hn : 0 < norm) (data points : List (Fin m → ℝ)) (weights : List ℝ)
    (hfit : ∀ x ∈ points, Spec.Fits Ω u r norm D white (data.zip weights) x) :
    densityFl fl D white norm data points weights none = densityFl g D white norm data points weights none := by
  have hb : (1 : ℝ) ≤ 1 + 2 * u := by linarith
  simp only [densityFl, evaluateFl, List.map_map]
  refine List.map_congr_left fun x hx => ?_
  have hf := hfit x hx
  simp only [Function.comp]
  obtain ⟨T, hTd⟩ : ∃ T : (Fin m → ℝ) × ℝ → ℝ, T = fun q =>
    (|q.2| + r ^ 2) * (1 + Spec.distSizeFrom r white x q.1) ^ Spec.degree D := ⟨_, rfl⟩
  have hS : Spec.sumSize r D white (data.zip weights) x = ((data.zip weights).map T).sum := by rw [Spec.sumSize, hTd]
  have hT1 : ∀ q, |q.2| * (1 + Spec.distSizeFrom r white x q.1) ^ Spec.degree D ≤ T q ∧ r ^ 2 ≤ T q := by
    intro q
    rw [hTd]
    have h1 : 1 ≤ (1 + Spec.distSizeFrom r white x q.1) ^ Spec.degree D :=
      one_le_pow₀ (by linarith [distSizeFrom_nonneg r white x q.1])
    constructor <;> nlinarith [abs_nonneg q.2, sq_nonneg r]
  have hT0 : ∀ q, 0 ≤ T q := fun q => (sq_nonneg r).trans (hT1 q).2
  have hle : ∀ q ∈ data.zip weights, T q ≤ ((data.zip weights).map T).sum := fun q hq =>
    List.single_le_sum (fun y hy => by
      obtain ⟨q', _, rfl⟩ := List.mem_map.mp hy
      exact hT0 q') _ (List.mem_map.mpr ⟨q, hq, rfl⟩)
  have hk : ∀ q ∈ data.zip weights, D.evalFl fl (dist2Fl fl white x q.1) = D.evalFl g (dist2Fl g white x q.1) ∧
      |D.evalFl g (dist2Fl g white x q.1) * q.2| ≤ (1 + 2 * u) ^ (9 * m + 20) * T q := by
    intro q hq
    obtain ⟨h1, h2⟩ := kernel_agree ha hu hu0 hr0 hr1 D white x q.1 (hf.dist q hq)
    refine ⟨h1, ?_⟩
    rw [abs_mul]
    refine (mul_le_mul_of_nonneg_right h2 (abs_nonneg _)).trans ?_
    rw [mul_assoc]
    refine mul_le_mul_of_nonneg_left ?_ (by positivity)
    rw [mul_comm]
    exact (hT1 q).1
  have hN : ∀ {n : ℕ} {a : ℝ}, n ≤ 9 * m + (data.zip weights).length + 22 → 0 ≤ a → a ≤ ((data.zip weights).map T).sum →
      (1 + 2 * u) ^ n * a ≤ Ω := by
    intro n a hn h0 h1
    refine le_trans (mul_le_mul (pow_le_pow_right₀ hb hn) h1 h0 (by positivity)) ?_
    rw [← hS]
    exact hf.sum
  have hp : ∀ q ∈ data.zip weights, fl (D.evalFl fl (dist2Fl fl white x q.1) * q.2) = g (D.evalFl g (dist2Fl g white x q.1) * q.2) ∧
      |g (D.evalFl g (dist2Fl g white x q.1) * q.2)| ≤ (1 + 2 * u) ^ (9 * m + 21) * T q ∧
      r ^ 2 ≤ (1 + 2 * u) ^ (9 * m + 21) * T q := by
    intro q hq
    obtain ⟨h1, h2⟩ := hk q hq
    have h3 : ∀ n : ℕ, r ^ 2 ≤ (1 + 2 * u) ^ n * T q := fun n => by
      have a1 : (1 : ℝ) ≤ (1 + 2 * u) ^ n := one_le_pow₀ hb
      have a2 := hT1 q
      have a3 := hT0 q
      nlinarith
    refine ⟨?_, ?_, h3 _⟩
    · rw [h1]
      exact ha _ (h2.trans (hN (by omega) (hT0 q) (hle q hq)))
    · have := AccurateFrom.abs_le hu hu0 h2 (h3 _)
      rwa [← mul_assoc, ← pow_succ'] at this
  have e3 : ((data.zip weights).map fun q => (1 + 2 * u) ^ (9 * m + 21) * T q).sum
      = (1 + 2 * u) ^ (9 * m + 21) * ((data.zip weights).map T).sum := List.sum_map_mul_left ..
  have hs0 : 0 ≤ ((data.zip weights).map T).sum := List.sum_nonneg fun y hy => by
    obtain ⟨q', _, rfl⟩ := List.mem_map.mp hy
    exact hT0 q'
  obtain ⟨h5, h6⟩ := foldl_agree ha hu hu0 (data.zip weights) (acc := 0) (S := 0) (by simp) (fun q hq => (hp q hq).2) (by
    rw [e3, zero_add, ← mul_assoc, ← pow_add]
    exact hN (by omega) hs0 le_rfl)
  rw [e3, zero_add, ← mul_assoc, ← pow_add] at h6
  have e4 : evaluateOneFl fl D white data weights x = evaluateOneFl g D white data weights x := by
    rw [evaluateOneFl, evaluateOneFl]
    refine Eq.trans ?_ h5
    refine List.foldl_ext _ _ _ fun acc q hq => ?_
    rw [(hp q hq).1]
  rw [e4]
  refine ha _ ?_
  rw [abs_div, abs_of_pos hn]
  have h7 : |evaluateOneFl g D white data weights x| ≤ (1 + 2 * u) ^ (9 * m + (data.zip weights).length + 22)
      * ((data.zip weights).map T).sum := by
    rw [evaluateOneFl]
    exact h6.trans (mul_le_mul_of_nonneg_right (pow_le_pow_right₀ hb (by omega)) hs0)
  refine le_trans (div_le_div_of_nonneg_right h7 hn.le) ?_
  rw [mul_div_assoc, ← hS]
  exact hf.quot

/-- Largest distance (plus one) between points with coordinates up to `A` after whitening with a matrix with entries up to `B`. -/
def Spec.reach (m : ℕ) (A B : ℝ) : ℝ := 1 + m * (2 * (m * (B * A + 1))) ^ 2

lemma distSizeFrom_le_reach (hr0 : 0 ≤ r) (hr1 : r ≤ 1) {A B : ℝ} {white : Matrix (Fin m) (Fin m) ℝ} (hB : ∀ k l, |white k l| ≤ B)
    {x d : Fin m → ℝ} (hx : ∀ l, |x l| ≤ A) (hd : ∀ l, |d l| ≤ A) : 1 + Spec.distSizeFrom r white x d ≤ Spec.reach m A B := by
  rw [Spec.reach, Spec.distSizeFrom]
  have h1 : ∀ y : Fin m → ℝ, (∀ l, |y l| ≤ A) → ∀ k, ∑ l, (|white k l| * |y l| + r) ≤ m * (B * A + 1) := by
    intro y hy k
    have : ∀ l ∈ Finset.univ, |white k l| * |y l| + r ≤ B * A + 1 := fun l _ =>
      add_le_add (mul_le_mul (hB k l) (hy l) (abs_nonneg _) ((abs_nonneg _).trans (hB k l))) hr1
    have := Finset.sum_le_card_nsmul _ _ _ this
    simp only [Finset.card_univ, Fintype.card_fin, nsmul_eq_mul] at this
    exact this
  have h2 : ∀ k ∈ Finset.univ, (∑ l, (|white k l| * |x l| + r) + ∑ l, (|white k l| * |d l| + r)) ^ 2 ≤ (2 * (m * (B * A + 1))) ^ 2 :=
    fun k _ => by
      refine pow_le_pow_left₀ ?_ (by linarith [h1 x hx k, h1 d hd k]) 2
      exact add_nonneg (Finset.sum_nonneg fun l _ => by positivity) (Finset.sum_nonneg fun l _ => by positivity)
  have := Finset.sum_le_card_nsmul _ _ _ h2
  simp only [Finset.card_univ, Fintype.card_fin, nsmul_eq_mul] at this
  linarith

/-- **C161 (double precision).** In double precision with overflow beyond `2 ^ 1023` the densities have the accuracy of C156, for all data,
points, weights and matrices with entries up to `A`, `W` and `B` which are not too large. -/
theorem C161_double (hg : NearestFrom 53 (-1074) g) (ha : AgreeUpTo (2 ^ 1023) fl g) {D : Dist} (hD : D ≠ .box)
    {white M : Matrix (Fin m) (Fin m) ℝ} (hW : whiteᵀ * white = M⁻¹) {norm : ℝ} (hn : 0 < norm)
    (data points : List (Fin m → ℝ)) (weights : List ℝ) (hw : ∀ w ∈ weights, 0 ≤ w)
    (hlen : weights.length = data.length) (hN : 9 * m + data.length + 22 ≤ 2 ^ 51)
    {A B W : ℝ} (hA : ∀ x ∈ data ++ points, ∀ l, |x l| ≤ A) (hB : ∀ k l, |white k l| ≤ B) (hWb : ∀ w ∈ weights, w ≤ W) (hW0 : 0 ≤ W)
    (hsize : Spec.reach m A B ^ Spec.degree D ≤ 2 ^ 1022)
    (hsum : data.length * ((W + 1) * Spec.reach m A B ^ Spec.degree D) ≤ 2 ^ 1022 * min 1 norm) :
    ∀ i (h : i < points.length) (h' : i < (densityFl fl D white norm data points weights none).length),
      |(densityFl fl D white norm data points weights none)[i] - Spec.kernelSum D M (data.zip weights) points[i] / norm|
        ≤ (9 * m + data.length + 22 : ℕ) / 2 ^ 51
          * (((data.zip weights).map fun q => (q.2 + (1 / 2) ^ 1022)
              * (1 + Spec.distSizeFrom ((1 / 2) ^ 511) white points[i] q.1) ^ Spec.degree D).sum / norm + (1 / 2) ^ 1022) := by
  have hu := hg.accurate (by norm_num)
  have e0 : (2 : ℝ) ^ (53 - 1) * 2 ^ (-1074 : ℤ) = ((1 / 2) ^ 511) ^ 2 := by
    rw [← pow_mul, one_div, inv_pow, ← zpow_natCast (2 : ℝ) (511 * 2), ← _root_.zpow_neg, ← zpow_natCast (2 : ℝ) (53 - 1),
      ← zpow_add₀ (by norm_num)]
    norm_num
  rw [e0] at hu
  have hr1 : ((1 : ℝ) / 2) ^ 511 ≤ 1 := pow_le_one₀ (by norm_num) (by norm_num)
  have hr0 : (0 : ℝ) ≤ (1 / 2) ^ 511 := by positivity
  have hzl : (data.zip weights).length = data.length := by simp [hlen]
  have hpow : ∀ n : ℕ, n ≤ 2 ^ 51 → (1 + 2 * (1 / 2 : ℝ) ^ 53) ^ n ≤ 2 := by
    intro n hn
    have h1 : (1 + 2 * (1 / 2 : ℝ) ^ 53) ^ n ≤ Real.exp (1 / 2) := by
      have h2 : 1 + 2 * (1 / 2 : ℝ) ^ 53 ≤ Real.exp ((1 / 2) ^ 52) := by
        have := Real.add_one_le_exp ((1 / 2 : ℝ) ^ 52)
        linarith [show 2 * (1 / 2 : ℝ) ^ 53 = (1 / 2) ^ 52 by norm_num]
      refine (pow_le_pow_left₀ (by positivity) h2 n).trans ?_
      rw [← Real.exp_nat_mul]
      refine Real.exp_le_exp.mpr ?_
      have h3 : (n : ℝ) ≤ 2 ^ 51 := by exact_mod_cast hn
      calc (n : ℝ) * (1 / 2) ^ 52 ≤ 2 ^ 51 * (1 / 2) ^ 52 := mul_le_mul_of_nonneg_right h3 (by positivity)
        _ = 1 / 2 := by norm_num
    have h4 : Real.exp (1 / 2) ≤ 2 := by
      have h5 : Real.exp (1 / 2) ^ 2 = Real.exp 1 := by rw [← Real.exp_nat_mul]; norm_num
      have h6 := Real.exp_one_lt_d9
      nlinarith [Real.exp_pos (1 / 2)]
    exact h1.trans h4
  have h2 : (2 : ℝ) * 2 ^ 1022 = 2 ^ 1023 := by rw [← pow_succ']
  obtain ⟨R, hR⟩ : ∃ R, R = Spec.reach m A B := ⟨_, rfl⟩
  have hR1 : 1 ≤ R := by
    rw [hR, Spec.reach]
    have : (0 : ℝ) ≤ m * (2 * (m * (B * A + 1))) ^ 2 := by positivity
    linarith
  rw [← hR] at hsize hsum
  have hmn : 0 < min 1 norm := lt_min one_pos hn
  have hfit : ∀ x ∈ points, Spec.Fits (2 ^ 1023) ((1 / 2) ^ 53) ((1 / 2) ^ 511) norm D white (data.zip weights) x := by
    intro x hx
    have hxA := hA x (List.mem_append_right _ hx)
    have hS : ∀ q ∈ data.zip weights, (1 + Spec.distSizeFrom ((1 / 2) ^ 511) white x q.1) ^ Spec.degree D ≤ R ^ Spec.degree D := by
      intro q hq
      rw [hR]
      exact pow_le_pow_left₀ (by linarith [distSizeFrom_nonneg ((1 / 2) ^ 511) white x q.1])
        (distSizeFrom_le_reach hr0 hr1 hB hxA (hA q.1 (List.mem_append_left _ (List.of_mem_zip hq).1))) _
    have hs : Spec.sumSize ((1 / 2) ^ 511) D white (data.zip weights) x ≤ 2 ^ 1022 * min 1 norm := by
      refine le_trans ?_ hsum
      rw [Spec.sumSize, ← hzl, ← nsmul_eq_mul]
      have := List.sum_le_card_nsmul ((data.zip weights).map fun q =>
        (|q.2| + ((1 / 2) ^ 511) ^ 2) * (1 + Spec.distSizeFrom ((1 / 2) ^ 511) white x q.1) ^ Spec.degree D)
        ((W + 1) * R ^ Spec.degree D) (fun y hy => by
          obtain ⟨q, hq, rfl⟩ := List.mem_map.mp hy
          have hq2 := (List.of_mem_zip hq).2
          refine mul_le_mul (add_le_add ?_ (pow_le_one₀ hr0 hr1)) (hS q hq) ?_ (by linarith)
          · rw [abs_of_nonneg (hw _ hq2)]
            exact hWb _ hq2
          · exact pow_nonneg (by linarith [distSizeFrom_nonneg ((1 / 2) ^ 511) white x q.1]) _)
      rwa [List.length_map] at this
    have hs0 : 0 ≤ Spec.sumSize ((1 / 2) ^ 511) D white (data.zip weights) x := by
      rw [Spec.sumSize]
      refine List.sum_nonneg fun y hy => ?_
      obtain ⟨q, hq, rfl⟩ := List.mem_map.mp hy
      have := distSizeFrom_nonneg ((1 / 2) ^ 511) white x q.1
      positivity
    have hp := hpow (9 * m + (data.zip weights).length + 22) (by rw [hzl]; exact hN)
    refine ⟨fun q hq => ?_, ?_, ?_⟩
    · rw [← h2]
      refine mul_le_mul (hpow _ (by omega)) ((hS q hq).trans hsize) ?_ (by norm_num)
      exact pow_nonneg (by linarith [distSizeFrom_nonneg ((1 / 2) ^ 511) white x q.1]) _
    · rw [← h2]
      refine mul_le_mul hp (hs.trans ?_) hs0 (by norm_num)
      exact mul_le_of_le_one_right (by positivity) (min_le_left _ _)
    · rw [← h2]
      refine mul_le_mul hp ?_ (div_nonneg hs0 hn.le) (by norm_num)
      rw [div_le_iff₀ hn]
      exact hs.trans (mul_le_mul_of_nonneg_left (min_le_right _ _) (by positivity))
  have e := C161_no_overflow ha hu (by positivity) hr0 hr1 D white hn data points weights hfit
  rw [e]
  exact C156_double hg hD hW hn data points weights hw hlen hN

/-- The conditions are met by data far larger than the ones used in practice: here coordinates up to `10 ^ 100`. -/
example (hg : NearestFrom 53 (-1074) g) (ha : AgreeUpTo (2 ^ 1023) fl g) (a b : ℝ) (h0 : |a| ≤ 10 ^ 100) (h1 : |b| ≤ 10 ^ 100) :
    ∀ h' : 0 < (densityFl fl .gaussian (1 : Matrix (Fin 1) (Fin 1) ℝ) 2 [![0], ![b]] [![a]] [1, 3] none).length,
    |(densityFl fl .gaussian (1 : Matrix (Fin 1) (Fin 1) ℝ) 2 [![0], ![b]] [![a]] [1, 3] none)[0]
      - Spec.kernelSum .gaussian 1 [(![0], 1), (![b], 3)] ![a] / 2|
      ≤ (33 : ℕ) / 2 ^ 51 * (([((![0] : Fin 1 → ℝ), (1 : ℝ)), (![b], 3)].map fun q => (q.2 + (1 / 2) ^ 1022)
        * (1 + Spec.distSizeFrom ((1 / 2) ^ 511) (1 : Matrix (Fin 1) (Fin 1) ℝ) ![a] q.1) ^ 1).sum / 2 + (1 / 2) ^ 1022) := by
  intro h'
  have hR : Spec.reach 1 ((10 : ℝ) ^ 100) 1 ^ 1 ≤ 10 ^ 202 := by
    simp only [Spec.reach]
    norm_num
  have big : (8 : ℝ) * 10 ^ 202 ≤ 2 ^ 1022 := by
    calc (8 : ℝ) * 10 ^ 202 ≤ 2 ^ 3 * (2 ^ 4) ^ 202 := by
          refine mul_le_mul (by norm_num) (pow_le_pow_left₀ (by norm_num) (by norm_num) _) (by positivity) (by norm_num)
      _ = 2 ^ 811 := by rw [← pow_mul, ← pow_add]
      _ ≤ 2 ^ 1022 := pow_le_pow_right₀ (by norm_num) (by norm_num)
  have hp : (0 : ℝ) ≤ 10 ^ 202 := by positivity
  exact C161_double hg ha (D := .gaussian) (by simp) (M := 1) (by simp) two_pos [![0], ![b]] [![a]] [1, 3]
    (by simp) rfl (by norm_num) (A := 10 ^ 100) (B := 1) (W := 3) (by simp [h0, h1]) (by intro k l; rw [Subsingleton.elim k l]; simp)
    (by norm_num) (by norm_num) (hR.trans (le_trans (le_mul_of_one_le_left hp (by norm_num)) big)) (by
      rw [min_eq_left (by norm_num)]
      have : ((2 : ℕ) : ℝ) * ((3 + 1) * Spec.reach 1 ((10 : ℝ) ^ 100) 1 ^ 1) ≤ 8 * 10 ^ 202 := by push_cast; linarith
      rw [mul_one]
      exact this.trans big) 0 (by simp) h'

/-- **C161 (sign).** Under the same conditions no density is negative. -/
theorem C161_nonneg (ha : AgreeUpTo Ω fl g) (hu : AccurateFrom u (r ^ 2) g) (hu0 : 0 ≤ u) (hr0 : 0 ≤ r) (hr1 : r ≤ 1) (D : Dist)
    (white : Matrix (Fin m) (Fin m) ℝ) {norm : ℝ} (hn : 0 < norm) (data points : List (Fin m → ℝ)) (weights : List ℝ)
    (hw : ∀ w ∈ weights, 0 ≤ w) (hfit : ∀ x ∈ points, Spec.Fits Ω u r norm D white (data.zip weights) x) :
    (densityFl fl D white norm data points weights none).length = points.length ∧
    ∀ v ∈ densityFl fl D white norm data points weights none, 0 ≤ v := by
  rw [C161_no_overflow ha hu hu0 hr0 hr1 D white hn data points weights hfit]
  exact C156_nonneg hu D white hn.le data points hw none

end Kalepy
