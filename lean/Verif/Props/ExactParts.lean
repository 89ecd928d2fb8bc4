import Verif.Props.Reflect
import Verif.Props.ResampleLaw

/-!
# C64, C66: exact descriptions

What the code does where the claim fails (C64), and the bootstrap of data without weights (C66).
-/

namespace Kalepy

open Matrix

variable {d : ℕ}

/-- **C64, what happens instead.** A list of one row per parameter that has been used once, for some data, means from then on
the boundaries found for those data, whatever other data it is used with. -/
theorem C64_actual (data data' : List (Fin d → ℝ)) (hne : data ≠ []) (hne' : data' ≠ []) (l : List RefDim)
    (hl : ¬ (d = 1 ∧ l.length = 2)) (rows : List ReflRow) (h : checkReflect data (.rows l) = .ok (some rows)) :
    checkReflect data' (reflectAfter data (.rows l)) = .ok (some rows) := by
  have e : reflectAfter data (.rows l) = Reflect.ofChecked (some rows) := by
    simp only [reflectAfter]
    rw [if_neg hl, h]
    rfl
  rw [e]
  exact C20_idempotent data hne _ rows h data' hne'

/-- **C64.** A pair given for one-dimensional data is copied, so that the caller's list is left as it is and can be used
again, also with `True` in it. -/
theorem C64_pair (data : List (Fin 1 → ℝ)) (a b : RefDim) : reflectAfter data (.rows [a, b]) = .rows [a, b] := by
  simp [reflectAfter]

/-- Hypotheses of `C64_actual` on a concrete case. -/
example : checkReflect [![(1 : ℝ)], ![2]] (.rows [.seq [.num 0, .none]]) = .ok (some [some (some 0, none)]) := by
  refine ((C20_list _ (by simp) _ (by simp)).1 _).mpr ⟨rfl, rfl, ?_⟩
  intro i mn mx _
  fin_cases i
  exact ⟨_, _, rfl, rfl, Or.inr (Or.inr ⟨_, _, _, _, rfl, rfl, rfl, rfl, by simp [Spec.Ordered]⟩)⟩

/-- **C66** for data without weights: the point returned by `resample(keep=True)` for the `n`-th sample is the `j`-th
exactly when the uniform number of that sample is in `[j/N, (j+1)/N)`: every data point is equally likely. -/
theorem C66_equal {E : Ext} {a : KDEArgs d} {k : KDE d} (h : KDE.init E a = .ok k)
    (hw : k.weights = none) (size : Option ℕ) (reflect : Reflect) (squeeze : Bool)
    (rnd : ℕ → ℕ → Draw d) (hrnd : ∀ m n, (rnd m n).Valid) (s : Samples d)
    (hs : k.resample size .true reflect squeeze rnd = .ok s) (hb : Spec.boundaries k reflect = .ok none)
    (n : ℕ) (hn : n < s.points.length) :
    ∃! j : ℕ, j < a.dataset.length ∧ s.points[n]? = a.dataset[j]? ∧
      (rnd 0 n).pick ∈ Set.Ico ((j : ℝ) / a.dataset.length) ((j + 1 : ℝ) / a.dataset.length) ∧
      MeasureTheory.volume (Set.Ico ((j : ℝ) / a.dataset.length) ((j + 1 : ℝ) / a.dataset.length))
        = ENNReal.ofReal (1 / a.dataset.length) := by
  have hd : k.dataset = a.dataset := by
    obtain ⟨_, _, _, _, _, _, _, _, _, _, _, _, _, _, _, _, _, _, he⟩ := init_inv h; rw [he]
  rcases resample_inv h hs with ⟨_, h1⟩ | ⟨rows, draws, h0, _⟩
  swap
  · rw [h0] at hb; cases hb
  obtain ⟨_, U, ps, hU, hps, _, hall⟩ := resampleClear_inv h1
  obtain ⟨u, m, hu, hm, e⟩ := hall n hn
  have hmem := choiceDatum_mem hm
  rw [hw] at hmem
  have hz : zeroDims ps (Uᵀ *ᵥ u) = 0 := by
    funext i
    rw [zeroDims, if_pos ((keepDims_spec hps i).mpr trivial)]; rfl
  have hj : choiceIndex k.dataset.length none (rnd 0 n).pick < k.dataset.length := by
    by_contra hlt
    rw [List.getElem?_eq_none (by omega)] at hmem
    cases hmem
  set j := choiceIndex k.dataset.length none (rnd 0 n).pick with hjd
  rw [hd] at hj
  have hN : (0 : ℝ) < a.dataset.length := by
    have : 0 < a.dataset.length := by omega
    exact_mod_cast this
  have hp := (hrnd 0 n).2.2.2.1
  have hiff : ∀ i : ℕ, (rnd 0 n).pick ∈ Set.Ico ((i : ℝ) / a.dataset.length) ((i + 1 : ℝ) / a.dataset.length) ↔ j = i := by
    intro i
    rw [hjd, hd, Set.mem_Ico, div_le_iff₀ hN, lt_div_iff₀ hN]
    exact (Nat.floor_eq_iff (mul_nonneg hp hN.le)).symm
  refine ⟨j, ⟨hj, ?_, (hiff j).mpr rfl, ?_⟩, ?_⟩
  · rw [← hd, hmem, List.getElem?_eq_getElem hn, e, hz, add_zero]
  · rw [Real.volume_Ico]
    congr 1; ring
  · rintro i ⟨_, _, hi, _⟩
    exact ((hiff i).mp hi).symm

end Kalepy
