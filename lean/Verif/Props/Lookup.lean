import Mathlib.Data.List.TakeWhile
import Verif.Model.KDE

/-!
# Kernel lookup (C24) and `kalepy.pdf` (C25)
-/

namespace Kalepy

/-! ## C24 -/

/-- Specification: `c` is the ASCII lower-case letter `n`, possibly in upper case.  (The Kelvin sign is an
upper-case `k` for Python.) -/
def Spec.SameLetter (c n : Char) : Prop :=
  c = n ∨ c.toNat + 32 = n.toNat ∨ (c.toNat = 0x212A ∧ n = 'k')

/-- Specification: the names and the kernels they stand for. -/
def Spec.kernelNames : List (String × Dist) :=
  [("gaussian", .gaussian), ("box", .box), ("parabola", .parabola), ("epanechnikov", .parabola),
   ("triweight", .triweight)]

/-- Specification: the characters that Python takes as whitespace: tab to carriage return, the separators 28 to 31
and the space, and the Unicode spaces. -/
def Spec.Blank (c : Char) : Prop :=
  (9 ≤ c.toNat ∧ c.toNat ≤ 13) ∨ (28 ≤ c.toNat ∧ c.toNat ≤ 32) ∨ c.toNat = 0x85 ∨ c.toNat = 0xA0 ∨ c.toNat = 0x1680 ∨
    (0x2000 ≤ c.toNat ∧ c.toNat ≤ 0x200A) ∨ c.toNat = 0x2028 ∨ c.toNat = 0x2029 ∨ c.toNat = 0x202F ∨
    c.toNat = 0x205F ∨ c.toNat = 0x3000

/-- Specification: `s` is the given name in any letter case, with whitespace around it. -/
def Spec.Spells (s : List Char) (nm : String) : Prop :=
  ∃ pre mid post, s = pre ++ mid ++ post ∧ (∀ c ∈ pre, Spec.Blank c) ∧ (∀ c ∈ post, Spec.Blank c) ∧
    List.Forall₂ Spec.SameLetter mid nm.toList

lemma blank_iff (c : Char) : Spec.Blank c ↔ pySpace c = true := by
  unfold Spec.Blank pySpace
  simp only [List.mem_cons, List.not_mem_nil, or_false, decide_eq_true_eq]
  omega

lemma char_ext {a b : Char} (h : a.toNat = b.toNat) : a = b := by
  have := congrArg Char.ofNat h
  simpa using this

/-- The characters of the names are ASCII lower-case letters. -/
def AsciiLower (n : Char) : Prop := 97 ≤ n.toNat ∧ n.toNat ≤ 122

lemma AsciiLower.notSpace {n : Char} (h : AsciiLower n) : pySpace n = false := by
  unfold pySpace
  simp only [List.mem_cons, List.not_mem_nil, or_false, decide_eq_false_iff_not]
  unfold AsciiLower at h
  omega

lemma pyLower_space {c : Char} (h : pySpace c = true) : pyLower c = [c] := by
  unfold pySpace at h
  simp only [List.mem_cons, List.not_mem_nil, or_false, decide_eq_true_eq] at h
  unfold pyLower
  rw [if_neg, if_neg, if_neg]
  · rintro rfl
    revert h; decide
  · rintro rfl
    revert h; decide
  · rintro ⟨h1, h2⟩
    have a1 : 65 ≤ c.toNat := h1
    have a2 : c.toNat ≤ 90 := h2
    omega

lemma pyLower_same {c n : Char} (hn : AsciiLower n) (h : Spec.SameLetter c n) : pyLower c = [n] := by
  unfold AsciiLower at hn
  unfold pyLower
  rcases h with rfl | h | ⟨h1, rfl⟩
  · rw [if_neg, if_neg, if_neg]
    · rintro rfl; revert hn; decide
    · rintro rfl; revert hn; decide
    · rintro ⟨_, h2⟩
      have a2 : c.toNat ≤ 90 := h2
      omega
  · rw [if_pos]
    · rw [h]; simp
    · exact ⟨show 65 ≤ c.toNat by omega, show c.toNat ≤ 90 by omega⟩
  · have : c = Char.ofNat 0x212A := char_ext h1
    subst this
    decide

lemma toNat_ofNat_ascii {n : ℕ} (h : n < 200) : (Char.ofNat n).toNat = n := by
  have hv : n.isValidChar := Or.inl (by omega)
  rw [Char.ofNat, dif_pos hv]; rfl

lemma same_of_pyLower {c n : Char} (h : pyLower c = [n]) : c = n ∨ Spec.SameLetter c n := by
  unfold pyLower at h
  split_ifs at h with h1 h2 h3
  · right; right; left
    have e : Char.ofNat (c.toNat + 32) = n := by simpa using h
    have a1 : 65 ≤ c.toNat := h1.1
    have a2 : c.toNat ≤ 90 := h1.2
    rw [← e, toNat_ofNat_ascii (by omega)]
  · right; right; right
    subst h2
    have : 'k' = n := by simpa using h
    exact ⟨by decide, this.symm⟩
  · simp at h
  · left; simpa using h

lemma space_of_pyLower {c n : Char} (h : pyLower c = [n]) (hs : pySpace n = true) : pySpace c = true := by
  unfold pyLower at h
  split_ifs at h with h1 h2 h3
  · exfalso
    have e : Char.ofNat (c.toNat + 32) = n := by simpa using h
    have a1 : 65 ≤ c.toNat := h1.1
    have a2 : c.toNat ≤ 90 := h1.2
    have : AsciiLower n := by
      unfold AsciiLower
      rw [← e, toNat_ofNat_ascii (by omega)]; omega
    rw [this.notSpace] at hs; cases hs
  · have : 'k' = n := by simpa using h
    subst this; exfalso; revert hs; decide
  · simp at h
  · have : c = n := by simpa using h
    rw [this]; exact hs

lemma pyLower_single {c : Char} (h : ∀ x ∈ pyLower c, pySpace x = true ∨ AsciiLower x) :
    ∃ n, pyLower c = [n] := by
  unfold pyLower at h ⊢
  split_ifs at h ⊢ with h1 h2 h3
  · exact ⟨_, rfl⟩
  · exact ⟨_, rfl⟩
  · exfalso
    rcases h (Char.ofNat 0x307) (by simp) with h | h
    · revert h; decide
    · revert h; unfold AsciiLower; decide
  · exact ⟨_, rfl⟩

lemma flatMap_map {s : List Char} (h : ∀ x ∈ s.flatMap pyLower, pySpace x = true ∨ AsciiLower x) :
    s.flatMap pyLower = s.map fun c => (pyLower c).headD ' ' := by
  induction s with
  | nil => rfl
  | cons c s ih =>
    rw [List.flatMap_cons] at h ⊢
    obtain ⟨n, hn⟩ := pyLower_single (c := c) fun x hx => h x (by simp [hx])
    rw [ih fun x hx => h x (by simp only [List.mem_append]; exact Or.inr hx)]
    simp [hn]

lemma strip_spec (t : List Char) : ∃ A B, t = A ++ ((t.dropWhile pySpace).reverse.dropWhile pySpace).reverse ++ B ∧
    (∀ c ∈ A, pySpace c = true) ∧ (∀ c ∈ B, pySpace c = true) := by
  refine ⟨t.takeWhile pySpace, ((t.dropWhile pySpace).reverse.takeWhile pySpace).reverse, ?_, ?_, ?_⟩
  · rw [List.append_assoc, ← List.reverse_append, List.takeWhile_append_dropWhile, List.reverse_reverse,
      List.takeWhile_append_dropWhile]
  · intro c hc; exact List.mem_takeWhile_imp hc
  · intro c hc; exact List.mem_takeWhile_imp (List.mem_reverse.mp hc)

lemma strip_eq {A m B : List Char} (hA : ∀ c ∈ A, pySpace c = true) (hB : ∀ c ∈ B, pySpace c = true)
    (hm : ∀ c ∈ m, pySpace c = false) (hne : m ≠ []) :
    (((A ++ m ++ B).dropWhile pySpace).reverse.dropWhile pySpace).reverse = m := by
  rw [List.append_assoc, List.dropWhile_append_of_pos hA]
  have h1 : ∀ (m l : List Char), (∀ c ∈ m, pySpace c = false) → m ≠ [] →
      (m ++ l).dropWhile pySpace = m ++ l := by
    intro m l h hne
    cases m with
    | nil => exact absurd rfl hne
    | cons a m => rw [List.cons_append, List.dropWhile_cons_of_neg (by simp [h a (by simp)])]
  rw [h1 m B hm hne, List.reverse_append,
    List.dropWhile_append_of_pos (fun c hc => hB c (List.mem_reverse.mp hc))]
  have := h1 m.reverse [] (fun c hc => hm c (List.mem_reverse.mp hc)) (by simpa using hne)
  rw [List.append_nil] at this
  rw [this, List.reverse_reverse]

lemma names_ascii {nm : String} {D : Dist} (h : (nm, D) ∈ Spec.kernelNames) :
    (∀ c ∈ nm.toList, AsciiLower c) ∧ nm.toList ≠ [] := by
  simp only [Spec.kernelNames, List.mem_cons, Prod.mk.injEq, List.not_mem_nil, or_false] at h
  unfold AsciiLower
  rcases h with ⟨rfl, _⟩ | ⟨rfl, _⟩ | ⟨rfl, _⟩ | ⟨rfl, _⟩ | ⟨rfl, _⟩ <;> simp

lemma lowerStrip_iff {s : List Char} {nm : String} (hn : ∀ c ∈ nm.toList, AsciiLower c) (hne : nm.toList ≠ []) :
    lowerStrip s = nm.toList ↔ Spec.Spells s nm := by
  unfold Spec.Spells
  simp only [blank_iff]
  constructor
  · intro h
    obtain ⟨A, B, ht, hA, hB⟩ := strip_spec (s.flatMap pyLower)
    have h' : (((s.flatMap pyLower).dropWhile pySpace).reverse.dropWhile pySpace).reverse = nm.toList := h
    rw [h'] at ht
    have hall : ∀ x ∈ s.flatMap pyLower, pySpace x = true ∨ AsciiLower x := by
      intro x hx
      rw [ht] at hx
      simp only [List.mem_append] at hx
      rcases hx with (hx | hx) | hx
      · exact Or.inl (hA x hx)
      · exact Or.inr (hn x hx)
      · exact Or.inl (hB x hx)
    have hsingle : ∀ c ∈ s, pyLower c = [(pyLower c).headD ' '] := by
      intro c hc
      obtain ⟨n, hn⟩ := pyLower_single (c := c) fun x hx => hall x (List.mem_flatMap.mpr ⟨c, hc, hx⟩)
      simp [hn]
    rw [flatMap_map hall, List.map_eq_append_iff] at ht
    obtain ⟨l1, l2, rfl, h1, h2⟩ := ht
    rw [List.map_eq_append_iff] at h1
    obtain ⟨l3, l4, rfl, h3, h4⟩ := h1
    have hspace : ∀ (l : List Char) (T : List Char), (∀ c ∈ l, pyLower c = [(pyLower c).headD ' ']) →
        l.map (fun c => (pyLower c).headD ' ') = T → (∀ c ∈ T, pySpace c = true) → ∀ c ∈ l, pySpace c = true := by
      intro l T hl hT hsp c hc
      have hs := hsp _ (hT ▸ List.mem_map_of_mem hc)
      exact space_of_pyLower (hl c hc) hs
    refine ⟨l3, l4, l2, rfl, hspace l3 A (fun c hc => hsingle c (by simp [hc])) h3 hA,
      hspace l2 B (fun c hc => hsingle c (by simp [hc])) h2 hB, ?_⟩
    rw [← h4, List.forall₂_map_right_iff]
    rw [List.forall₂_same]
    intro c hc
    rcases same_of_pyLower (hsingle c (by simp [hc])) with h | h
    · exact Or.inl h
    · exact h
  · rintro ⟨pre, mid, post, rfl, h1, h2, h3⟩
    unfold lowerStrip
    have hs : ∀ l : List Char, (∀ c ∈ l, pySpace c = true) → l.flatMap pyLower = l := by
      intro l hl
      induction l with
      | nil => rfl
      | cons c l ih =>
        rw [List.flatMap_cons, pyLower_space (hl c (by simp)), ih fun x hx => hl x (by simp [hx])]; rfl
    have hm : ∀ (m n : List Char), (∀ c ∈ n, AsciiLower c) → List.Forall₂ Spec.SameLetter m n →
        m.flatMap pyLower = n := by
      intro m n hn h
      induction h with
      | nil => rfl
      | cons a _ ih =>
        rw [List.flatMap_cons, pyLower_same (hn _ (by simp)) a, ih fun x hx => hn x (by simp [hx])]; rfl
    rw [List.flatMap_append, List.flatMap_append, hs pre h1, hs post h2, hm mid _ hn h3]
    exact strip_eq h1 h2 (fun c hc => (hn c hc).notSpace) hne

/-- **C24.** A name is accepted exactly if it is one of the known ones, in any letter case and with whitespace
around it; the kernel is the one it names. -/
theorem C24_name (s : List Char) (D : Dist) :
    getDistribution (.name s) = .ok D ↔ ∃ nm, (nm, D) ∈ Spec.kernelNames ∧ Spec.Spells s nm := by
  have hkey : ∀ nm D, (nm, D) ∈ Spec.kernelNames → distTable.lookup nm.toList = some D := by
    intro nm D h
    simp only [Spec.kernelNames, List.mem_cons, Prod.mk.injEq, List.not_mem_nil, or_false] at h
    rcases h with ⟨rfl, rfl⟩ | ⟨rfl, rfl⟩ | ⟨rfl, rfl⟩ | ⟨rfl, rfl⟩ | ⟨rfl, rfl⟩ <;> decide
  constructor
  · intro h
    simp only [getDistribution] at h
    split at h
    · rename_i D' hD
      cases h
      obtain ⟨l1, l2, hl, _⟩ := List.lookup_eq_some_iff.mp hD
      have hmem : (lowerStrip s, D) ∈ distTable := by rw [hl]; simp
      have : ∃ nm, (nm, D) ∈ Spec.kernelNames ∧ lowerStrip s = nm.toList := by
        simp only [distTable, List.mem_cons, Prod.mk.injEq, List.not_mem_nil, or_false] at hmem
        simp only [Spec.kernelNames, List.mem_cons, Prod.mk.injEq, List.not_mem_nil, or_false]
        rcases hmem with ⟨h, rfl⟩ | ⟨h, rfl⟩ | ⟨h, rfl⟩ | ⟨h, rfl⟩ | ⟨h, rfl⟩
        · exact ⟨_, by simp, h⟩
        · exact ⟨_, by simp, h⟩
        · exact ⟨"parabola", by simp, h⟩
        · exact ⟨"epanechnikov", by simp, h⟩
        · exact ⟨_, by simp, h⟩
      obtain ⟨nm, hnm, e⟩ := this
      obtain ⟨h1, h2⟩ := names_ascii hnm
      exact ⟨nm, hnm, (lowerStrip_iff h1 h2).mp e⟩
    · cases h
  · rintro ⟨nm, hnm, hs⟩
    obtain ⟨h1, h2⟩ := names_ascii hnm
    simp only [getDistribution, (lowerStrip_iff h1 h2).mpr hs, hkey nm D hnm]

/-- **C24.** Everything else is refused with `ValueError`; `None` is the Gaussian, a class is itself. -/
theorem C24_otherwise (a : KernelArg) :
    (∃ D, getDistribution a = .ok D) ∨ getDistribution a = .error .valueError := by
  cases a with
  | none => exact Or.inl ⟨_, rfl⟩
  | cls D => exact Or.inl ⟨_, rfl⟩
  | name s =>
    simp only [getDistribution]
    split
    · exact Or.inl ⟨_, rfl⟩
    · exact Or.inr rfl
  | other => exact Or.inr rfl

/-- **C24.** The other kinds of arguments. -/
theorem C24_kinds : getDistribution .none = .ok .gaussian ∧ (∀ D, getDistribution (.cls D) = .ok D) ∧
    getDistribution .other = .error .valueError := ⟨rfl, fun _ => rfl, rfl⟩

/-- Concrete case: `" EpaNechnikov\n"`. -/
example : Spec.Spells " EpaNechnikov\n".toList "epanechnikov" :=
  ⟨[' '], "EpaNechnikov".toList, ['\n'], by decide, by simp [blank_iff, pySpace], by simp [blank_iff, pySpace], by
    simp [Spec.SameLetter]⟩

/-! ## C25 -/

/-- **C25**, full claim: `kalepy.pdf` computes `kalepy.density(..., probability=True)`. -/
def C25_Claim : Prop :=
  ∀ (d : ℕ) (E : Ext) (srt : List ℝ → List ℕ) (a : KDEArgs d) (points : Option Pts) (grid : Bool),
    kalepyPdf E srt a points .none grid = kalepyDensity E srt a points true grid

/-- What `kalepy.pdf` does instead: it never returns a result. -/
theorem C25_never_returns {d : ℕ} (E : Ext) (srt : List ℝ → List ℕ) (a : KDEArgs d) (points : Option Pts)
    (params : ParamArg) (grid : Bool) : ∃ e, kalepyPdf E srt a points params grid = .error e := by
  unfold kalepyPdf kalepyDensity
  have : ∃ e, KDE.init E { a with extra := "params" :: a.extra } = .error e := by
    unfold KDE.init
    split
    · exact ⟨_, rfl⟩
    · split
      · exact ⟨_, rfl⟩
      · split
        · exact ⟨_, rfl⟩
        · split
          · exact ⟨_, rfl⟩
          · split
            · exact ⟨_, rfl⟩
            · split
              · exact ⟨_, rfl⟩
              · exact ⟨.typeError, by simp⟩
  obtain ⟨e, he⟩ := this
  exact ⟨e, by rw [he]⟩

end Kalepy
