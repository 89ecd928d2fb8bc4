import Verif.Props.Init
import Verif.Proofs.Np

/-!
# Bandwidth specification (C18)
-/

namespace Kalepy

open Matrix

variable {d : ℕ}

/-- Specification: the value a single bandwidth specification stands for: the number itself, or the factors of
Scott and Silverman. -/
def Spec.BwMeans (d : ℕ) (neff : ℝ) : BwVal → ℝ → Prop
  | .num x, b => b = x
  | .str s, b => 0 < neff ∧
      ((s = "scott" ∧ b = neff ^ (-1 / ((d : ℝ) + 4))) ∨
        (s = "silverman" ∧ b = (neff * ((d : ℝ) + 2) / 4) ^ (-1 / ((d : ℝ) + 4))))
  | .other, _ => False

/-- Specification: the bandwidth matrix asked for. -/
def Spec.BwAsked (d : ℕ) (neff : ℝ) (diagonal : Bool) : BwArg → Matrix (Fin d) (Fin d) ℝ → Prop
  | .none, B => ∃ b, Spec.BwMeans d neff (.str "scott") b ∧
      ∀ i j, B i j = if diagonal = true ∧ i ≠ j then 0 else b
  | .val v, B => ∃ b, Spec.BwMeans d neff v b ∧ ∀ i j, B i j = if diagonal = true ∧ i ≠ j then 0 else b
  | .vec l, B => l.length = d ∧ ∀ i j : Fin d, if i = j then ∃ v, l[(i : ℕ)]? = some v ∧ Spec.BwMeans d neff v (B i j)
      else B i j = 0
  | .mat r c f, B => ∃ (hr : r = d) (hc : c = d), ∀ i j, Spec.BwMeans d neff (f (Fin.cast hr.symm i)
      (Fin.cast hc.symm j)) (B i j)

/-- Specification: the effect of `bw_rescale`, multiplication entry by entry (a vector belongs to the columns). -/
def Spec.Rescaled (B B' : Matrix (Fin d) (Fin d) ℝ) : Rescale d → Prop
  | .none => B' = B
  | .scalar c => ∀ i j, B' i j = c * B i j
  | .vec v => ∀ i j, B' i j = v j * B i j
  | .mat m => ∀ i j, B' i j = m i j * B i j

lemma computeBw_iff {neff : ℝ} {v : BwVal} {b : ℝ} : computeBw d neff v = .ok b ↔ Spec.BwMeans d neff v b := by
  cases v with
  | num x => simp only [computeBw, Spec.BwMeans, Except.ok.injEq]; exact eq_comm
  | other => simp [computeBw, Spec.BwMeans]
  | str s =>
    simp only [computeBw, Spec.BwMeans]
    by_cases hn : 0 < neff
    · by_cases h1 : s = "scott"
      · subst h1; simp [hn, scottFactor, eq_comm]
      · by_cases h2 : s = "silverman"
        · subst h2; simp [hn, silvermanFactor, eq_comm]
        · simp [h1, h2]
    · simp only [hn, if_false, false_and, iff_false]
      split_ifs <;> simp

lemma map_ok {α β : Type*} {r : Res α} {f : α → β} {b : β} (h : r.map f = .ok b) : ∃ a, r = .ok a ∧ f a = b := by
  cases r with
  | error e => cases h
  | ok a => cases h; exact ⟨a, rfl, rfl⟩

lemma bwMatrix_inv {neff : ℝ} {diagonal : Bool} {arg : BwArg} {B : Matrix (Fin d) (Fin d) ℝ}
    (h : bwMatrix d neff diagonal arg = .ok B) : Spec.BwAsked d neff diagonal arg B := by
  cases arg with
  | none =>
    obtain ⟨b, h1, rfl⟩ := map_ok h
    exact ⟨b, computeBw_iff.mp h1, fun i j => by simp⟩
  | val v =>
    obtain ⟨b, h1, rfl⟩ := map_ok h
    exact ⟨b, computeBw_iff.mp h1, fun i j => by simp⟩
  | vec l =>
    simp only [bwMatrix] at h
    split_ifs at h with h1 h2
    obtain ⟨b, h3, rfl⟩ := map_ok h
    refine ⟨h2, fun i j => ?_⟩
    split_ifs with hij
    · subst hij
      have hi : (i : ℕ) < l.length := by rw [h2]; exact i.2
      refine ⟨l[(i : ℕ)], by simp [hi], ?_⟩
      rw [Matrix.diagonal_apply_eq]
      have := computeBw_iff.mp (finSeq_ok.mp h3 i)
      rwa [List.getD_eq_getElem _ _ hi] at this
    · rw [Matrix.diagonal_apply_ne _ hij]
  | mat r c f =>
    simp only [bwMatrix] at h
    split_ifs at h with h1 h2
    obtain ⟨b, h3, rfl⟩ := map_ok h
    refine ⟨h2.1, h2.2, fun i j => ?_⟩
    exact computeBw_iff.mp (finSeq_ok.mp (finSeq_ok.mp h3 i) j)

/-- Not the case in which the code refuses a well-formed bandwidth: a sequence or array of length one (which is
well-formed for one-dimensional data only). -/
def BwArg.notSingle : BwArg → Prop
  | .vec l => l.length ≠ 1
  | .mat r _ _ => r ≠ 1
  | _ => True

lemma bwMatrix_of_asked {neff : ℝ} {diagonal : Bool} {arg : BwArg} {B : Matrix (Fin d) (Fin d) ℝ}
    (hd : arg.notSingle) (h : Spec.BwAsked d neff diagonal arg B) : bwMatrix d neff diagonal arg = .ok B := by
  cases arg with
  | none =>
    obtain ⟨b, h1, h2⟩ := h
    simp only [bwMatrix, computeBw_iff.mpr h1, Except.map, Except.ok.injEq]
    ext i j; simp [h2 i j]
  | val v =>
    obtain ⟨b, h1, h2⟩ := h
    simp only [bwMatrix, computeBw_iff.mpr h1, Except.map, Except.ok.injEq]
    ext i j; simp [h2 i j]
  | vec l =>
    obtain ⟨h1, h2⟩ := h
    simp only [bwMatrix]
    rw [if_neg hd, if_pos h1, (finSeq_ok (g := fun i => B i i)).mpr]
    · simp only [Except.map, Except.ok.injEq]
      ext i j
      by_cases hij : i = j
      · subst hij; simp
      · have := h2 i j
        rw [if_neg hij] at this
        rw [Matrix.diagonal_apply_ne _ hij, this]
    · intro i
      have := h2 i i
      rw [if_pos rfl] at this
      obtain ⟨v, hv, hm⟩ := this
      rw [List.getD_eq_getElem?_getD, hv]
      exact computeBw_iff.mpr hm
  | mat r c f =>
    obtain ⟨hr, hc, h2⟩ := h
    simp only [bwMatrix]
    rw [if_neg hd, dif_pos ⟨hr, hc⟩, (finSeq_ok (g := fun i j => B i j)).mpr]
    · rfl
    · intro i
      exact finSeq_ok.mpr fun j => computeBw_iff.mpr (h2 i j)

lemma rescaled (B : Matrix (Fin d) (Fin d) ℝ) (r : Rescale d) : Spec.Rescaled B (rescaleBw B r) r := by
  cases r with
  | none => rfl
  | scalar c => exact fun i j => rfl
  | vec v => exact fun i j => rfl
  | mat m => exact fun i j => rfl

/-- **C18.** Every KDE that can be constructed has the bandwidth matrix its specification asks for: a scalar
fills it (only the diagonal with `diagonal=True`), a vector gives a diagonal matrix, an array is used entry by
entry, the names give the factors of Scott and Silverman (`None`: Scott), then `bw_rescale` is applied.
In particular nothing else is accepted. -/
theorem C18_bandwidth {E : Ext} {a : KDEArgs d} {k : KDE d} (h : KDE.init E a = .ok k) :
    ∃ B, Spec.BwAsked d k.neff a.diagonal a.bandwidth B ∧ Spec.Rescaled B k.bandwidth a.rescale := by
  obtain ⟨_, w, _, bw0, _, _, _, _, _, hne, hw, _, hb, _, _, _, _, _, rfl⟩ := init_inv h
  exact ⟨bw0, bwMatrix_inv hb, rescaled _ _⟩

/-- **C18.** The kernel matrix is covariance times bandwidth squared, entry by entry. -/
theorem C18_matrix {E : Ext} {a : KDEArgs d} {k : KDE d} (h : KDE.init E a = .ok k) :
    k.kernel.matrix = Spec.kernelMatrix k.covariance k.bandwidth ∧ k.kernel.bandwidth = k.bandwidth := by
  obtain ⟨_, w, _, bw0, _, _, _, _, _, hne, hw, _, hb, _, _, _, _, _, rfl⟩ := init_inv h
  exact ⟨rfl, rfl⟩

/-- **C18.** A bandwidth that is not well-formed is refused with `ValueError` (if the other arguments up to this
point are accepted). -/
theorem C18_refuses {neff : ℝ} (hn : 0 < neff) (diagonal : Bool) (arg : BwArg)
    (h : ¬ ∃ B, Spec.BwAsked d neff diagonal arg B) : bwMatrix d neff diagonal arg = .error .valueError := by
  have hc : ∀ (v : BwVal), (∃ b, computeBw d neff v = .ok b) ∨ computeBw d neff v = .error .valueError := by
    intro v
    cases v with
    | num x => exact Or.inl ⟨_, rfl⟩
    | other => exact Or.inr rfl
    | str s => simp only [computeBw, hn, if_true]; split_ifs <;> simp
  have hf : ∀ {α : Type} (n : ℕ) (f : Fin n → Res α),
      (∀ i, (∃ b, f i = .ok b) ∨ f i = .error .valueError) →
      (∃ b, finSeq f = .ok b) ∨ finSeq f = .error .valueError := by
    intro α n
    induction n with
    | zero => intro f _; exact Or.inl ⟨_, rfl⟩
    | succ n ih =>
      intro f hf
      simp only [finSeq]
      rcases hf 0 with ⟨b, hb⟩ | hb <;> rw [hb]
      · rcases ih (fun i => f i.succ) fun i => hf i.succ with ⟨r, hr⟩ | hr <;> rw [hr] <;> simp
      · simp
  cases hr : bwMatrix d neff diagonal arg with
  | ok B => exact absurd ⟨B, bwMatrix_inv hr⟩ h
  | error e =>
    cases arg with
    | none =>
      simp only [bwMatrix] at hr
      rcases hc (.str "scott") with ⟨b, hb⟩ | hb <;> rw [hb] at hr <;> cases hr
      rfl
    | val v =>
      simp only [bwMatrix] at hr
      rcases hc v with ⟨b, hb⟩ | hb <;> rw [hb] at hr <;> cases hr
      rfl
    | vec l =>
      simp only [bwMatrix] at hr
      split_ifs at hr
      · cases hr; rfl
      · rcases hf d _ (fun i : Fin d => hc (l.getD i .other)) with ⟨b, hb⟩ | hb <;> rw [hb] at hr <;> cases hr
        rfl
      · cases hr; rfl
    | mat r c f =>
      simp only [bwMatrix] at hr
      split_ifs at hr with h1 h2
      · cases hr; rfl
      · rcases hf d _ (fun i : Fin d => hf d _ (fun j : Fin d =>
            hc (f (Fin.cast h2.1.symm i) (Fin.cast h2.2.symm j)))) with ⟨b, hb⟩ | hb <;> rw [hb] at hr <;> cases hr
        rfl
      · cases hr; rfl

/-- **C18**, full claim about acceptance: if a construction succeeds with some number as bandwidth, it also
succeeds with every other well-formed bandwidth, and gives the matrix asked for. -/
def C18_Claim : Prop :=
  ∀ (d : ℕ) (E : Ext) (a : KDEArgs d) (k₁ : KDE d), KDE.init E { a with bandwidth := .val (.num 1) } = .ok k₁ →
    ∀ (arg : BwArg) (B : Matrix (Fin d) (Fin d) ℝ), Spec.BwAsked d k₁.neff a.diagonal arg B →
      ∃ k, KDE.init E { a with bandwidth := arg } = .ok k ∧ Spec.Rescaled B k.bandwidth a.rescale

lemma parseExtrema_ok {dat dat' ext : Fin d → ℝ × ℝ} {o : Option (List ExtElem)}
    (h : parseExtrema dat o = .ok ext) : ∃ ext', parseExtrema dat' o = .ok ext' := by
  cases o with
  | none => exact ⟨_, rfl⟩
  | some l =>
    simp only [parseExtrema, parseExtremaList] at h ⊢
    split_ifs at h ⊢ <;> exact ⟨_, rfl⟩

/-- **C18**, proved part: everything but a sequence or array of length one, i.e. all specifications unless the
data are one-dimensional. -/
theorem C18_accepted_partial (E : Ext) (a : KDEArgs d) (k₁ : KDE d)
    (h : KDE.init E { a with bandwidth := .val (.num 1) } = .ok k₁) (arg : BwArg) (hd : arg.notSingle)
    (B : Matrix (Fin d) (Fin d) ℝ) (hB : Spec.BwAsked d k₁.neff a.diagonal arg B) :
    ∃ k, KDE.init E { a with bandwidth := arg } = .ok k ∧ Spec.Rescaled B k.bandwidth a.rescale := by
  obtain ⟨reflect, w, cov, bw0, D, out, eff, ext, hr, hne, hw, hc, hb, hD, he, ho, hf, hx, rfl⟩ := init_inv h
  simp only at hr hne hw hc hb hD he ho hf hx hB
  have hb' := bwMatrix_of_asked hd hB
  have hbw0 : ∀ i, bw0 i i = 1 := by
    simp only [bwMatrix] at hb
    obtain ⟨b, h1, rfl⟩ := map_ok hb
    intro i
    have : (1 : ℝ) = b := by simpa [computeBw] using h1
    simp [← this]
  have hdiag : ∀ (B : Matrix (Fin d) (Fin d) ℝ) (i : Fin d),
      rescaleBw B a.rescale i i = rescaleBw bw0 a.rescale i i * B i i := by
    intro B i
    cases a.rescale <;> simp [rescaleBw, hbw0]
  unfold effExtrema at hf
  split_ifs at hf with hpos
  unfold KDE.init
  simp only [hr, if_neg hne, hw, hc, hb', hD, he, ne_eq, not_true_eq_false, if_false, ho]
  have hpos' : ∀ i, 0 ≤ (Kernel.init D (rescaleBw B a.rescale) cov a.helper a.chunk).matrix i i := by
    intro i
    have := hpos i
    simp only [Kernel.init, Matrix.of_apply] at this ⊢
    rw [hdiag, mul_pow, ← mul_assoc]
    exact mul_nonneg this (sq_nonneg _)
  obtain ⟨dat, h1, _⟩ := dataExtrema_spec hne
  rw [show effExtrema a.dataset (Kernel.init D (rescaleBw B a.rescale) cov a.helper a.chunk).matrix out
      = .ok (fun i => (min ((dat i).1 - Real.sqrt ((Kernel.init D (rescaleBw B a.rescale) cov a.helper
          a.chunk).matrix i i) * out) ((dat i).2 + Real.sqrt ((Kernel.init D (rescaleBw B a.rescale) cov a.helper
          a.chunk).matrix i i) * out), max ((dat i).1 - Real.sqrt ((Kernel.init D (rescaleBw B a.rescale) cov a.helper
          a.chunk).matrix i i) * out) ((dat i).2 + Real.sqrt ((Kernel.init D (rescaleBw B a.rescale) cov a.helper
          a.chunk).matrix i i) * out))) by
    unfold effExtrema
    rw [if_pos hpos', h1]]
  simp only
  obtain ⟨ext', hx'⟩ := parseExtrema_ok (dat' := fun i => (min ((dat i).1 - Real.sqrt ((Kernel.init D (rescaleBw B a.rescale) cov a.helper
          a.chunk).matrix i i) * out) ((dat i).2 + Real.sqrt ((Kernel.init D (rescaleBw B a.rescale) cov a.helper
          a.chunk).matrix i i) * out), max ((dat i).1 - Real.sqrt ((Kernel.init D (rescaleBw B a.rescale) cov a.helper
          a.chunk).matrix i i) * out) ((dat i).2 + Real.sqrt ((Kernel.init D (rescaleBw B a.rescale) cov a.helper
          a.chunk).matrix i i) * out))) hx
  rw [hx']
  exact ⟨_, rfl, rescaled _ _⟩

/-- **C18 is false of the code** for one-dimensional data: the vector `[2]` is well-formed, but refused. -/
theorem C18_refuted : ¬ C18_Claim := by
  intro hC
  have E : Ext := ⟨fun A => A, id⟩
  obtain ⟨k, hk, _⟩ := C16_accepted (d := 1) E [![0]] (by simp) [1] ⟨rfl, by simp, 1, by simp, by norm_num⟩ .box rfl
    1 1 (by intro i; fin_cases i; simp)
  obtain ⟨k', hk', _⟩ := hC 1 E
    { dataset := [![0]]
      weights := .arr [.fin 1]
      kernel := .cls .box
      covariance := some 1 } k hk (.vec [.num 2]) (Matrix.of fun _ _ => 2)
    ⟨rfl, fun i j => by
      have : i = j := Subsingleton.elim _ _
      subst this
      fin_cases i
      simp [Spec.BwMeans]⟩
  obtain ⟨_, _, _, bw0, _, _, _, _, _, _, _, _, hb, _⟩ := init_inv hk'
  simp [bwMatrix] at hb

/-- **C18.** The factors are positive and decrease strictly with the effective number of points; Scott's is at
most 1. -/
theorem C18_factors (d : ℕ) (n m : ℝ) (h1 : 1 ≤ n) (hm : n < m) (b b' : ℝ) :
    (Spec.BwMeans d n (.str "scott") b → Spec.BwMeans d m (.str "scott") b' → 0 < b' ∧ b' < b ∧ b ≤ 1) ∧
    (Spec.BwMeans d n (.str "silverman") b → Spec.BwMeans d m (.str "silverman") b' → 0 < b' ∧ b' < b) := by
  have hd : (0:ℝ) < (d : ℝ) + 4 := by positivity
  have he : -1 / ((d : ℝ) + 4) < 0 := div_neg_of_neg_of_pos (by norm_num) hd
  constructor
  · rintro ⟨_, h | h⟩ ⟨_, h' | h'⟩
    · obtain ⟨_, rfl⟩ := h
      obtain ⟨_, rfl⟩ := h'
      refine ⟨Real.rpow_pos_of_pos (by linarith) _, Real.rpow_lt_rpow_of_neg (by linarith) hm he, ?_⟩
      exact Real.rpow_le_one_of_one_le_of_nonpos h1 he.le
    all_goals simp at *
  · rintro ⟨_, h | h⟩ ⟨_, h' | h'⟩
    · simp at h
    · simp at h
    · simp at h'
    · obtain ⟨_, rfl⟩ := h
      obtain ⟨_, rfl⟩ := h'
      have hd2 : (0:ℝ) < (d : ℝ) + 2 := by positivity
      refine ⟨Real.rpow_pos_of_pos (by apply div_pos (mul_pos (by linarith) hd2); norm_num) _, ?_⟩
      refine Real.rpow_lt_rpow_of_neg (by apply div_pos (mul_pos (by linarith) hd2); norm_num) ?_ he
      have := mul_lt_mul_of_pos_right hm hd2
      linarith

/-- Concrete cases of the specification, and of the hypotheses of `C18_accepted_partial` (the construction with
bandwidth 1 succeeds by `C16_accepted`) and `C18_refuses`. -/
example : Spec.BwAsked 2 5 true (.val (.num 3)) !![3, 0; 0, 3] ∧
    Spec.BwAsked 2 5 false (.vec [.num 3, .num 4]) !![3, 0; 0, 4] ∧ (BwArg.vec [.num 3, .num 4]).notSingle ∧
    (¬ ∃ B, Spec.BwAsked 2 5 false (.vec [.num 3]) B) ∧
    (¬ ∃ B, Spec.BwAsked 2 5 false (.val (.str "Scott")) B) ∧ 
    Spec.Rescaled !![3, 1; 1, 4] !![3, 2; 1, 8] (.vec ![1, 2]) := by
  refine ⟨⟨3, rfl, ?_⟩, ⟨rfl, ?_⟩, by simp [BwArg.notSingle], ?_, ?_, ?_⟩
  · intro i j; fin_cases i <;> fin_cases j <;> simp
  · intro i j; fin_cases i <;> fin_cases j <;> simp [Spec.BwMeans]
  · rintro ⟨B, h, _⟩; simp at h
  · rintro ⟨B, b, ⟨_, h | h⟩, _⟩ <;> simp at h
  · intro i j; fin_cases i <;> fin_cases j <;> norm_num

example : ∃ k₁, KDE.init (d := 2) ⟨fun A => A, id⟩
    { dataset := [![0, 1], ![2, 5]]
      weights := .arr [.fin 1, .fin 3]
      kernel := .cls .box
      bandwidth := .val (.num 1)
      covariance := some 1 } = .ok k₁ := by
  obtain ⟨k, hk, _⟩ := C16_accepted ⟨fun A => A, id⟩ [![0, 1], ![2, 5]] (by simp) [1, 3]
    ⟨rfl, by simp, 1, by simp, by norm_num⟩ .box rfl 1 (1 : Matrix (Fin 2) (Fin 2) ℝ) (by simp)
  exact ⟨k, hk⟩

end Kalepy
