import Verif.Model.Registry
import Verif.Props.Lookup

/-!
# C24: the names and the list of the distribution classes
-/

namespace Kalepy

/-- The class names in lower case are known names. -/
lemma own_names (D : Dist) : ∃ nm, (nm, D) ∈ Spec.kernelNames ∧ nm.toList = D.name.map Char.toLower := by
  cases D with
  | gaussian => exact ⟨"gaussian", by simp [Spec.kernelNames], by decide⟩
  | box => exact ⟨"box", by simp [Spec.kernelNames], by decide⟩
  | parabola => exact ⟨"parabola", by simp [Spec.kernelNames], by decide⟩
  | triweight => exact ⟨"triweight", by simp [Spec.kernelNames], by decide⟩

lemma sameLetter_lower (D : Dist) : List.Forall₂ Spec.SameLetter D.name (D.name.map Char.toLower) := by
  have key : ∀ l : List Char, (∀ c ∈ l, c.toLower = c ∨ c.toNat + 32 = c.toLower.toNat) →
      List.Forall₂ Spec.SameLetter l (l.map Char.toLower) := by
    intro l
    induction l with
    | nil => exact fun _ => .nil
    | cons a l ih =>
      intro h
      refine .cons ?_ (ih fun c hc => h c (List.mem_cons_of_mem _ hc))
      rcases h a List.mem_cons_self with h | h
      · exact .inl h.symm
      · exact .inr (.inl h)
  apply key
  cases D <;> decide

/-- **C24.** The name of a distribution class, in any letter case and with whitespace around it, is accepted and stands for this
class. -/
theorem C24_own_name (D : Dist) {pre mid post : List Char} (hpre : ∀ c ∈ pre, Spec.Blank c) (hpost : ∀ c ∈ post, Spec.Blank c)
    (hmid : mid = D.name ∨ List.Forall₂ Spec.SameLetter mid (D.name.map Char.toLower)) :
    getDistribution (.name (pre ++ mid ++ post)) = .ok D := by
  obtain ⟨nm, h1, h2⟩ := own_names D
  refine (C24_name _ _).mpr ⟨nm, h1, pre, mid, post, rfl, hpre, hpost, ?_⟩
  rw [h2]
  rcases hmid with rfl | hmid
  · exact sameLetter_lower D
  · exact hmid

/-- Concrete case of the hypotheses of `C24_own_name`: `" Triweight\n"` and `" bOx\n"`. -/
example : (∀ c ∈ [' '], Spec.Blank c) ∧ (∀ c ∈ ['\n'], Spec.Blank c) ∧ "Triweight".toList = Dist.triweight.name ∧
    List.Forall₂ Spec.SameLetter ['b', 'O', 'x'] (Dist.box.name.map Char.toLower) := by
  refine ⟨by simp [blank_iff, pySpace], by simp [blank_iff, pySpace], rfl, ?_⟩
  have : Dist.box.name.map Char.toLower = ['b', 'o', 'x'] := by decide
  rw [this]
  exact .cons (.inl rfl) (.cons (.inr (.inl rfl)) (.cons (.inl rfl) .nil))

lemma appendNew_spec (l dists : List Dist) (hn : dists.Nodup) :
    (appendNew dists l).Nodup ∧ ∀ D, D ∈ appendNew dists l ↔ D ∈ dists ∨ D ∈ l := by
  induction l generalizing dists with
  | nil => exact ⟨hn, fun D => by simp [appendNew]⟩
  | cons a l ih =>
    unfold appendNew
    split
    · rename_i ha
      obtain ⟨h1, h2⟩ := ih dists hn
      refine ⟨h1, fun D => ?_⟩
      rw [h2, List.mem_cons]
      constructor
      · rintro (h | h) <;> simp [h]
      · rintro (h | rfl | h) <;> simp_all
    · rename_i ha
      obtain ⟨h1, h2⟩ := ih (dists ++ [a]) (List.nodup_append.mpr ⟨hn, List.nodup_singleton a, by
        rintro x hx y hy rfl
        exact ha (by rwa [List.mem_singleton.mp hy] at hx)⟩)
      refine ⟨h1, fun D => ?_⟩
      rw [h2]
      simp [or_assoc]

/-- **C24.** The list of all distribution classes contains every class that is found under some name, exactly once (also the
class with two names), and no others; in particular every class. -/
theorem C24_all : allDistributions.Nodup ∧
    (∀ D, D ∈ allDistributions ↔ ∃ s, getDistribution (.name s) = .ok D) ∧ ∀ D, D ∈ allDistributions := by
  obtain ⟨h1, h2⟩ := appendNew_spec (distTable.map (·.2)) [] List.nodup_nil
  have hall : ∀ D, D ∈ allDistributions := fun D => (h2 D).mpr (.inr (by cases D <;> simp [distTable]))
  exact ⟨h1, fun D => ⟨fun _ => ⟨[] ++ D.name ++ [], C24_own_name D (by simp) (by simp) (.inl rfl)⟩, fun _ => hall D⟩, hall⟩

end Kalepy
