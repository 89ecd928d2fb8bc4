import Verif.Props.CdfDefault

/-!
# C175: finite kernels in any dimension
-/

namespace Kalepy

open Spec (EquallySpaced)

variable {d : ℕ}

/-- **C175**, finite kernels in any dimension: let neighbouring default evaluation points of the `i`-th parameter be at most
`2 * r i` apart.  If the box with these half-widths around a datum lies within the support of the datum's kernel, then `cdf`
returns numbers. -/
theorem C175_spacing_nd {E : Ext} {a : KDEArgs d} {k : KDE d} (h : KDE.init E a = .ok k) (hd : 0 < d)
    {srt : List ℝ → List ℕ} (hs : ∀ l, IsArgsort (srt l) l) (hp : a.points = .none) (he : a.extrema = none)
    (hr : a.reflect = .none) (hsq : a.squeeze = true → d = 1) (hM : (Spec.kernelMatrix k.covariance k.bandwidth).PosDef)
    (hD : k.kernel.dist.finite = true) {pts : Pts} (hpts : (k.points srt).1 = .ok pts) (r : Fin d → ℝ)
    (hstep : ∀ (i : Fin d) (j : ℕ), j + 1 < (pts.toRows.getD i []).length → (pts.toRows.getD i []).getD (j + 1) 0
      - (pts.toRows.getD i []).getD j 0 ≤ 2 * r i)
    (hbox : ∀ u : Fin d → ℝ, (∀ i, |u i| ≤ r i) → Spec.dist2 (Spec.kernelMatrix k.covariance k.bandwidth) u < 1) :
    ∃ G, Spec.ReportsCdf E srt k G := by
  have hlt := extrema_lt h he hr hD hM
  obtain ⟨pts', hpts', hlen, hsp⟩ := default_points_spaced h hd hs hp hsq hlt
  obtain rfl : pts = pts' := by rw [hpts] at hpts'; exact Except.ok.inj hpts'
  obtain ⟨pts', hp', _, hiff⟩ := C175_data h hd hs hp hr hsq hM hlt
  obtain rfl : pts = pts' := by rw [hpts] at hp'; exact Except.ok.inj hp'
  obtain ⟨p, hpm, hp0⟩ := exists_weight h
  have hpd : p.1 ∈ a.dataset := by
    have := hpm
    unfold Spec.weighted at this
    split at this
    · obtain ⟨x, hx, rfl⟩ := List.mem_map.mp this
      exact hx
    · exact (List.of_mem_zip this).1
  have key : ∀ i : Fin d, ∃ m, m < (pts.toRows.getD i []).length ∧ |(pts.toRows.getD i []).getD m 0 - p.1 i| ≤ r i := by
    intro i
    obtain ⟨n, hn, _, hl⟩ := hsp i
    obtain ⟨_, hfirst, hlast⟩ := equallySpaced_increasing hl (by omega) (hlt i)
    have hst := hstep i
    generalize pts.toRows.getD i [] = row at hl hst hfirst hlast ⊢
    have hMi : 0 < Real.sqrt (Spec.kernelMatrix k.covariance k.bandwidth i i) := Real.sqrt_pos.mpr hM.diag_pos
    obtain ⟨dat, _, hd2⟩ := dataExtrema_spec (C16_weights h).1
    obtain ⟨e1, e2⟩ := C09_extrema h he hr hD i _ _ (hd2 i)
    have hin := (hd2 i).2.2 (p.1 i) (List.mem_map_of_mem hpd)
    have hf0 : row.getD 0 0 = (k.extrema i).1 := by rw [List.getD_eq_getElem?_getD, hfirst]; rfl
    have hfn : row.getD n 0 = (k.extrema i).2 := by rw [List.getD_eq_getElem?_getD, hlast]; rfl
    obtain ⟨j, hj, hj1, hj2⟩ := exists_cell (f := fun j => row.getD j 0) (n := n) (y := p.1 i)
      (by show row.getD 0 0 < _; rw [hf0, e1]; nlinarith [hin.1])
      (by show _ ≤ row.getD n 0; rw [hfn, e2]; nlinarith [hin.2])
    have hl1 := hl.1
    have hst := hst j (by omega)
    by_cases hc : p.1 i - row.getD j 0 ≤ r i
    · exact ⟨j, by omega, by rw [abs_le]; constructor <;> linarith⟩
    · exact ⟨j + 1, by omega, by rw [abs_le]; constructor <;> linarith⟩
  choose m hm hclose using key
  exact hiff.mpr ⟨m, hm, p, hpm, hp0, shape_pos_inside _ (hbox _ hclose)⟩

/-- Concrete case of the hypotheses of `C175_spacing_nd`: data (0, 0) and (1, 1), any finite kernel of radius 1. -/
example (srt : List ℝ → List ℕ) (hs : ∀ l, IsArgsort (srt l) l) (D : Dist) (hD : D.finite = true) :
    ∃ (E : Ext) (a : KDEArgs 2) (k : KDE 2) (pts q : Pts) (out : List ℝ), KDE.init E a = .ok k ∧ a.points = .none ∧
      a.extrema = none ∧ a.reflect = .none ∧ a.squeeze = false ∧ k.kernel.dist = D ∧
      (Spec.kernelMatrix k.covariance k.bandwidth).PosDef ∧ (k.points srt).1 = .ok pts ∧
      (∀ (i : Fin 2) (j : ℕ), j + 1 < (pts.toRows.getD i []).length → (pts.toRows.getD i []).getD (j + 1) 0
        - (pts.toRows.getD i []).getD j 0 ≤ 2 * (6 / 10)) ∧
      (∀ u : Fin 2 → ℝ, (∀ i, |u i| ≤ 6 / 10) →
        Spec.dist2 (Spec.kernelMatrix k.covariance k.bandwidth) u < 1) ∧ (k.cdf E srt q).1 = .ok out := by
  obtain ⟨k, hk, hw⟩ := C16_accepted (d := 2) ⟨fun A => A, id⟩ [![0, 0], ![1, 1]] (by simp) [1, 1]
    ⟨rfl, by simp, 1, by simp, by norm_num⟩ D hD 1 1 (fun i => by fin_cases i <;> norm_num)
  have hk' := hk
  obtain ⟨_, _, _, _, D', _, _, _, _, _, _, hc, hb, hD', _, _, _, _, he⟩ := init_inv hk
  cases hc
  cases hD'
  cases hb
  have hM1 : Spec.kernelMatrix k.covariance k.bandwidth = 1 := by
    rw [he]
    ext i j
    simp [Spec.kernelMatrix, rescaleBw]
  have hDk : k.kernel.dist = D := by rw [he]; rfl
  have hM : (Spec.kernelMatrix k.covariance k.bandwidth).PosDef := by rw [hM1]; exact Matrix.PosDef.one
  have hlt := extrema_lt hk' rfl rfl (by rw [hDk]; exact hD) hM
  obtain ⟨pts, hpts, hlen, hsp⟩ := default_points_spaced hk' two_pos hs rfl (by simp) hlt
  have hstep : ∀ (i : Fin 2) (j : ℕ), j + 1 < (pts.toRows.getD i []).length → (pts.toRows.getD i []).getD (j + 1) 0
        - (pts.toRows.getD i []).getD j 0 ≤ 2 * (6 / 10) := by
    intro i j hj
    obtain ⟨e1, e2⟩ := C09_extrema hk' rfl rfl (by rw [hDk]; exact hD) i 0 1
      (by fin_cases i <;> exact ⟨by simp, by simp, by simp⟩)
    obtain ⟨n, hn3, _, hl, hv⟩ := hsp i
    rw [hM1] at e1 e2
    generalize pts.toRows.getD i [] = row at hl hv hj ⊢
    rw [List.getD_eq_getElem?_getD, List.getD_eq_getElem?_getD, hv _ (by omega), hv _ (by omega), e1, e2]
    have hnR : (3 : ℝ) ≤ n := by exact_mod_cast hn3
    simp only [Option.getD_some, Matrix.one_apply_eq, Real.sqrt_one, Nat.cast_add, Nat.cast_one]
    have : (1 + 1 * (1 + 1 / 10 ^ 8) - (0 - 1 * (1 + 1 / 10 ^ 8))) / (n : ℝ) ≤ 2 * (6 / 10) := by
      rw [div_le_iff₀ (by linarith)]
      norm_num
      linarith
    linarith
  have hbox : ∀ u : Fin 2 → ℝ, (∀ i, |u i| ≤ 6 / 10) →
      Spec.dist2 (Spec.kernelMatrix k.covariance k.bandwidth) u < 1 := by
    intro u hu
    have h0 := abs_le.mp (hu 0)
    have h1 := abs_le.mp (hu 1)
    rw [hM1]
    simp only [Spec.dist2, inv_one, Matrix.one_mulVec, dotProduct, Fin.sum_univ_two]
    nlinarith [h0.1, h0.2, h1.1, h1.2]
  obtain ⟨G, hG⟩ := C175_spacing_nd hk' two_pos hs rfl rfl rfl (by simp) hM (by rw [hDk]; exact hD) hpts (fun _ => 6 / 10)
    hstep hbox
  exact ⟨_, _, k, pts, _, _, hk', rfl, rfl, rfl, rfl, hDk, hM, hpts, hstep, hbox, hG [] []⟩

end Kalepy
