import Verif.Model.Distribution
import Verif.Props.ResampleLaw
import Verif.Props.ResampleReflect

/-!
# C93: arrays of samples of the kernels' distributions
-/

namespace Kalepy

open Spec

variable {d : ℕ}

/-- **C93** as claimed: without further arguments `sample(size)` returns a one-dimensional array of `size` numbers. -/
def C93_Claim : Prop :=
  ∀ (D : Dist) (size : ℕ) (rnd : ℕ → Draw 1) (shape : List ℕ) (l : List (Fin 1 → ℝ)),
    D.sampleArray size none rnd = .ok (shape, l) → shape = [size]

/-- **C93**, proved part: it holds for all sizes but one (where the result has no axes at all); `squeeze=False`, and the default in more than one
dimension, give an array of shape `(ndim, size)`; in all cases the array has `ndim * size` elements, and the samples of the
distributions with finite support (of the parabola in one dimension) lie within the unit ball. -/
theorem C93_partial (hd : 0 < d) (D : Dist) (size : ℕ) (squeeze : Option Bool) (rnd : ℕ → Draw d)
    (hr : ∀ n, (rnd n).Valid ∧ rad (rnd n).gauss ≠ 0) :
    ∃ shape l, D.sampleArray size squeeze rnd = .ok (shape, l) ∧ l.length = size ∧ shape.prod = d * size ∧
      (squeeze = some false ∨ (squeeze = none ∧ d ≠ 1) → shape = [d, size]) ∧
      (squeeze ≠ some false → d = 1 → size ≠ 1 → shape = [size]) ∧
      (squeeze ≠ some false → d = 1 → size = 1 → shape = []) ∧
      ((D = .box ∨ D = .triweight ∨ (D = .parabola ∧ d = 1)) → ∀ u ∈ l, ∑ i, u i ^ 2 ≤ 1) := by
  have hex : ∃ l, listSeq (fun k => D.sample (rnd k)) (List.range size) = .ok l := by
    have : ∀ k, ∃ u, D.sample (rnd k) = .ok u := fun k => sample_ok D (hr k).1 (hr k).2
    choose u hu using this
    refine ⟨(List.range size).map u, listSeq_ok.mpr ?_⟩
    rw [List.forall₂_map_right_iff]
    exact List.forall₂_same.mpr fun k _ => hu k
  obtain ⟨l, hl⟩ := hex
  have hlen : l.length = size := by rw [listSeq_length hl, List.length_range]
  refine ⟨if squeeze.getD (decide (d = 1)) then [d, size].filter (· ≠ 1) else [d, size], l, ?_, hlen, ?_, ?_, ?_, ?_, ?_⟩
  · simp only [Dist.sampleArray, hl]
  · split_ifs
    · by_cases h1 : d = 1 <;> by_cases h2 : size = 1 <;> simp [h1, h2]
    · simp
  · rintro (rfl | ⟨rfl, h⟩)
    · simp
    · simp [h]
  · rintro hs rfl hsz
    have : squeeze.getD (decide (1 = 1)) = true := by
      rcases squeeze with _ | _ | _
      · rfl
      · exact absurd rfl hs
      · rfl
    rw [if_pos this]
    simp [hsz]
  · rintro hs rfl rfl
    have : squeeze.getD (decide (1 = 1)) = true := by
      rcases squeeze with _ | _ | _
      · rfl
      · exact absurd rfl hs
      · rfl
    rw [if_pos this]
    simp
  · intro hD u hu
    obtain ⟨k, _, hk⟩ := listSeq_mem hl u hu
    exact sample_in_ball hD (hr k).1 hk

/-- Hypotheses of `C93_partial`: four samples of the triweight distribution in three dimensions. -/
example : ∃ shape l, Dist.triweight.sampleArray 4 none (fun _ => fixedDraw (fun _ : Fin 3 => 0) 0) = .ok (shape, l) ∧ shape = [3, 4] ∧
    ∀ u ∈ l, ∑ i, u i ^ 2 ≤ 1 := by
  obtain ⟨shape, l, h1, _, _, h2, _, _, h3⟩ := C93_partial (by norm_num : 0 < 3) .triweight 4 none
    (fun _ => fixedDraw (fun _ : Fin 3 => 0) 0)
    fun _ => ⟨fixedDraw_valid (fun _ => by norm_num) (by norm_num), fixedDraw_rad (by norm_num) _ _⟩
  exact ⟨shape, l, h1, h2 (Or.inr ⟨rfl, by norm_num⟩), h3 (Or.inr (Or.inl rfl))⟩

/-- **C93** fails: a single sample is returned as an array without axes. -/
theorem C93_refuted : ¬ C93_Claim := by
  intro hc
  obtain ⟨shape, l, h1, _, _, _, _, h2, _⟩ := C93_partial one_pos .gaussian 1 none
    (fun _ => fixedDraw (fun _ : Fin 1 => 0) 0)
    fun _ => ⟨fixedDraw_valid (fun _ => by norm_num) (by norm_num), fixedDraw_rad (by norm_num) _ _⟩
  have := hc .gaussian 1 _ shape l h1
  rw [h2 (by simp) rfl rfl] at this
  cases this

end Kalepy
