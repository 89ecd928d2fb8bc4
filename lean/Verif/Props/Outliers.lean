import Verif.Props.Sample
import Verif.Props.Centroid

/-!
# C50, C51: outlier sampling
-/

set_option linter.unusedSectionVars false

namespace Kalepy

variable {d : ℕ}

lemma SampleOutliers.init_ok {srt : List ℝ → List ℕ} {edges : List (List ℝ)} {dens : NDArr d ℝ}
    {thr : ℝ} {mass : Option (NDArr d ℝ)} {o : SampleOutliers d}
    (h : SampleOutliers.init srt edges dens thr mass = .ok o) :
    o.grid.edges = edges ∧ o.grid.dens = dens ∧ o.grid.scalarDens = none ∧
    initMasses edges dens mass none none = .ok (o.grid.mass, o.grid.scalarMass) ∧
    dataToCumulative srt o.massOuts.flat = .ok (o.grid.idx, o.grid.csum) ∧
    o.massOuts = (o.grid.mass.map fun x => if thr < x then 0 else x) ∧
    o.massIns = (o.grid.mass.map fun x => if thr < x then x else 0) := by
  unfold SampleOutliers.init at h
  cases hi : initMasses edges dens mass none none with
  | error e => rw [hi] at h; cases h
  | ok p =>
    obtain ⟨m, s⟩ := p
    rw [hi] at h
    change (dataToCumulative srt (m.map fun x => if thr < x then 0 else x).flat >>= _) = _ at h
    cases hd : dataToCumulative srt (m.map fun x => if thr < x then 0 else x).flat with
    | error e => rw [hd] at h; cases h
    | ok q =>
      obtain ⟨a, b⟩ := q
      rw [hd] at h
      have : (Except.ok _ : Res (SampleOutliers d)) = .ok o := h
      injection this with this
      subst this
      exact ⟨rfl, rfl, rfl, rfl, hd, rfl, rfl⟩

lemma filter_range_length {K : Type*} [Zero K] (l : List K) (p : K → Bool) :
    ((List.range l.length).filter fun k => p (l.getD k 0)).length = l.countP p := by
  conv_rhs => rw [← list_map_getD_range l]
  rw [List.countP_map, List.countP_eq_length_filter]
  rfl

lemma npAround_le_zero {x : ℝ} (hx : x ≤ 0) : npAround x ≤ 0 := by
  have h := abs_le.mp (npAround_abs x)
  have : ((npAround x : ℤ) : ℝ) < 1 := by linarith
  have : npAround x < 1 := by exact_mod_cast this
  omega

/-- The interior part of the output (helper): bins above the threshold, as index tuples. -/
noncomputable def interiorBins (m : NDArr d ℝ) (thr : ℝ) : List (Fin d → ℕ) :=
  ((List.range (m.map fun x => if thr < x then x else 0).flat.length).filter fun k =>
    decide (0 < (m.map fun x => if thr < x then x else 0).flat.getD k 0)).map (unravelIdx m.shape)

lemma interiorBins_nodup (m : NDArr d ℝ) (thr : ℝ) : (interiorBins m thr).Nodup := by
  unfold interiorBins
  refine List.Nodup.map_on ?_ (List.nodup_range.filter _)
  intro x hx y hy hxy
  simp only [List.mem_filter, List.mem_range, NDArr.flat_length, NDArr.size, NDArr.map] at hx hy
  rw [← ravel_unravelIdx hx.1, ← ravel_unravelIdx hy.1, hxy]

lemma mem_interiorBins {m : NDArr d ℝ} {thr : ℝ} (ht : 0 ≤ thr) (b : Fin d → ℕ) :
    b ∈ interiorBins m thr ↔ ValidIdx m.shape b ∧ thr < m.get b := by
  have hval : ∀ k, k < (m.map fun x => if thr < x then x else 0).flat.length →
      (0 < (m.map fun x => if thr < x then x else 0).flat.getD k 0
        ↔ thr < m.get (unravelIdx m.shape k)) := by
    intro k hk
    rw [flat_getD _ hk]
    simp only [NDArr.map]
    split_ifs with h
    · simp [h, ht.trans_lt h]
    · simp [h]
  unfold interiorBins
  simp only [List.mem_map, List.mem_filter, List.mem_range, decide_eq_true_eq]
  constructor
  · rintro ⟨k, ⟨hk, hp⟩, rfl⟩
    refine ⟨unravelIdx_valid (by rw [NDArr.flat_length] at hk; exact hk), (hval k hk).mp hp⟩
  · rintro ⟨hv, hb⟩
    have hk : ravelIdx m.shape b < (m.map fun x => if thr < x then x else 0).flat.length := by
      rw [NDArr.flat_length]; exact ravelIdx_lt hv
    exact ⟨_, ⟨hk, (hval _ hk).mpr (by rwa [unravel_ravelIdx hv])⟩, unravel_ravelIdx hv⟩

/-- Structure of every result of `Sample_Outliers.sample` (helper). -/
lemma outliers_spec {srt : List ℝ → List ℕ} (hs : ∀ l, IsArgsort (srt l) l)
    {edges : List (List ℝ)} {dens : NDArr d ℝ} {thr : ℝ} {mass : Option (NDArr d ℝ)}
    {o : SampleOutliers d} (hinit : SampleOutliers.init srt edges dens thr mass = .ok o)
    (hedges : ∀ e ∈ edges, e.Pairwise (· ≤ ·)) (hthr : 0 ≤ thr)
    (hm : ∀ b, ValidIdx o.grid.mass.shape b → 0 ≤ o.grid.mass.get b)
    (r : Rand d) (hr : r.InRange) (pr : PoissonRand)
    (hpr : o.massOuts.sum = 0 → pr.outside = 0) (pin pout interp : Bool)
    (hi : interp = true → dens.sum ≠ 0) :
    ∃ (nOut : ℤ) (outs : List (Fin d → ℝ)), 
      nOut = (if pout then (pr.outside : ℤ) else npAround o.massOuts.sum) ∧
      o.sample r pr pin pout interp = .ok ((interiorBins o.grid.mass thr).length + nOut,
        ((interiorBins o.grid.mass thr).map fun b => (fun i => centroid edges dens b i,
          if pin then (pr.inside (ravelIdx o.grid.mass.shape b) : ℝ) else o.grid.mass.get b))
        ++ outs.map fun x => (x, 1)) ∧
      0 ≤ nOut ∧ (outs.length : ℤ) = nOut ∧
      (∀ x ∈ outs, ∃ b, (∀ i, b i + 1 < dens.shape i) ∧ 0 < o.grid.mass.get b ∧
        o.grid.mass.get b ≤ thr ∧ Spec.InBin edges b x) ∧
      (0 < nOut → ∃ s, o.grid.sample r (some (nOut : ℝ)) interp (some false) = .ok s ∧ outs = s.map Prod.fst) := by
  obtain ⟨e1, e2, e3, e4, e5, e6, e7⟩ := SampleOutliers.init_ok hinit
  obtain ⟨f1, f2, -, -, -, f6⟩ := initMasses_ok e4
  have hshape : (fun i => o.grid.dens.shape i - 1) = o.grid.mass.shape := by
    funext i; rw [e2, f2]; omega
  have houts_nn : ∀ b, ValidIdx o.massOuts.shape b → 0 ≤ o.massOuts.get b := by
    intro b hb
    rw [e6] at hb ⊢
    simp only [NDArr.map]
    split_ifs
    · exact le_rfl
    · exact hm b hb
  have hsum_nn : 0 ≤ o.massOuts.sum := Finset.sum_nonneg fun b hb => houts_nn b (mem_validIdx.mp hb)
  set nOut : ℤ := (if pout then (pr.outside : ℤ) else npAround o.massOuts.sum) with hnOut
  have hn0 : 0 ≤ nOut := by
    rw [hnOut]; split_ifs
    · positivity
    · exact npAround_nonneg hsum_nn
  -- interior part
  have hins : ∀ x ∈ o.massIns.flat, 0 ≤ x := flat_nonneg (by
    intro b hb
    rw [e7] at hb ⊢
    simp only [NDArr.map]
    split_ifs
    · exact hm b hb
    · exact le_rfl)
  have hcount : ((List.range o.massIns.flat.length).filter fun k =>
      decide (0 < o.massIns.flat.getD k 0)).length = o.massIns.flat.countP fun x => decide (x ≠ 0) := by
    rw [filter_range_length o.massIns.flat fun x => decide (0 < x)]
    refine List.countP_congr fun x hx => ?_
    have := hins x hx
    simp only [decide_eq_true_eq]
    exact ⟨fun h => h.ne', fun h => lt_of_le_of_ne this (Ne.symm h)⟩
  have hlen : o.massIns.flat.countP (fun x => decide (x ≠ 0)) = (interiorBins o.grid.mass thr).length := by
    rw [← hcount, interiorBins, List.length_map, e7]
  have hint : (((List.range o.massIns.flat.length).filter fun k =>
        decide (0 < o.massIns.flat.getD k 0)).map fun k =>
        (fun i => centroid o.grid.edges o.grid.dens
            (unravelIdx (fun i => o.grid.dens.shape i - 1) k) i,
          if pin then (pr.inside k : ℝ) else o.massIns.get
            (unravelIdx (fun i => o.grid.dens.shape i - 1) k)))
      = (interiorBins o.grid.mass thr).map fun b => (fun i => centroid edges dens b i,
          if pin then (pr.inside (ravelIdx o.grid.mass.shape b) : ℝ) else o.grid.mass.get b) := by
    rw [interiorBins, List.map_map, ← e7]
    refine List.map_congr_left fun k hk => ?_
    simp only [List.mem_filter, List.mem_range, decide_eq_true_eq] at hk
    have hk' : k < ∏ i, o.grid.mass.shape i := by
      have := hk.1; rw [NDArr.flat_length, e7] at this; exact this
    simp only [Function.comp]
    rw [hshape, ravel_unravelIdx hk', e1, e2]
    have hpos := hk.2
    rw [flat_getD _ hk.1, e7] at hpos
    have hget : o.massIns.get (unravelIdx o.grid.mass.shape k)
        = o.grid.mass.get (unravelIdx o.grid.mass.shape k) := by
      rw [e7]
      simp only [NDArr.map] at hpos ⊢
      split_ifs at hpos ⊢ with hh
      · rfl
      · exact absurd hpos (lt_irrefl _)
    rw [hget]
  have hsample : o.sample r pr pin pout interp =
      if 0 < nOut then
        match o.grid.sample r (some (nOut : ℝ)) interp (some false) with
        | .error e => .error e
        | .ok outs => .ok ((interiorBins o.grid.mass thr).length + nOut,
            ((interiorBins o.grid.mass thr).map fun b => (fun i => centroid edges dens b i,
              if pin then (pr.inside (ravelIdx o.grid.mass.shape b) : ℝ) else o.grid.mass.get b))
            ++ outs.map fun s => (s.1, 1))
      else .ok ((interiorBins o.grid.mass thr).length + nOut,
            (interiorBins o.grid.mass thr).map fun b => (fun i => centroid edges dens b i,
              if pin then (pr.inside (ravelIdx o.grid.mass.shape b) : ℝ) else o.grid.mass.get b)) := by
    unfold SampleOutliers.sample
    simp only []
    rw [if_neg (by rw [hcount]; simp), hint, hlen]
    rfl
  by_cases hpos : 0 < nOut
  · have hsum : 0 < o.massOuts.sum := by
      refine lt_of_le_of_ne hsum_nn fun h0 => ?_
      have : nOut ≤ 0 := by
        rw [hnOut]; split_ifs
        · rw [hpr h0.symm]; simp
        · exact npAround_le_zero h0.symm.le
      omega
    have hcum : CumOK o.massOuts.flat o.grid.idx o.grid.csum := by
      obtain ⟨i, c, he, hc⟩ := dataToCumulative_ok hs (m := o.massOuts.flat) (by rwa [NDArr.flat_sum])
      rw [e5] at he
      injection he with he
      injection he with e1 e2
      rw [e1, e2]; exact hc
    have hsh : ∀ i, o.grid.dens.shape i = o.massOuts.shape i + 1 := by
      intro i; rw [e2, e6]; exact f2 i
    have hnR : (0 : ℝ) ≤ (nOut : ℝ) := by exact_mod_cast hn0
    have hpy : pyInt ((some (nOut : ℝ)).getD o.grid.mass.sum) = nOut := by
      rw [Option.getD_some, pyInt, if_pos hnR, Int.floor_intCast]
    obtain ⟨outs, ho, hl, hk⟩ := sample_spec o.grid hcum hsh houts_nn hsum r hr (some (nOut : ℝ)) interp
      (some false)
      (by
        intro sd sm h
        simp only [useScalars, e3] at h
        cases h)
      (by rw [e2]; exact hi) (by rw [hpy]; exact hn0)
    rw [hpy] at hl
    refine ⟨nOut, outs.map Prod.fst, rfl, ?_, hn0, by rw [List.length_map, hl]; omega, ?_, fun _ => ⟨outs, ho, rfl⟩⟩
    · rw [hsample, if_pos hpos, ho, List.map_map]
      rfl
    · intro x hx
      obtain ⟨s, hsm, rfl⟩ := List.mem_map.mp hx
      obtain ⟨k, hk', rfl⟩ := List.getElem_of_mem hsm
      obtain ⟨u, -, h0, h1, hxx, -⟩ := hk k hk'
      obtain ⟨-, -, -, -, hv, hp⟩ := pick_spec hcum houts_nn hsum h0 h1
      set b := chosenBin o.massOuts.shape o.grid.idx o.grid.csum u
      have hb : ∀ i, b i + 1 < dens.shape i := fun i => by
        have h7 : dens.shape i = o.massOuts.shape i + 1 := by rw [← e2]; exact hsh i
        have := hv i; omega
      have hp2 : 0 < o.grid.mass.get b ∧ o.grid.mass.get b ≤ thr := by
        rw [e6] at hp
        simp only [NDArr.map] at hp
        split_ifs at hp with hh
        · exact absurd hp (lt_irrefl _)
        · exact ⟨hp, not_lt.mp hh⟩
      refine ⟨b, hb, hp2.1, hp2.2, inBin_of_pos f1 hedges hb
        (fun i => relPos_mem _ _ _ (hr.2 k i).1 (hr.2 k i).2.le) (by rw [← e1]; exact hxx)⟩
  · refine ⟨nOut, [], rfl, ?_, hn0, by simp; omega, by simp, fun h => absurd h hpos⟩
    rw [hsample, if_neg hpos]
    simp

/-- **C50.** Without Poisson noise, for nonnegative masses and any threshold `≥ 0`, every call succeeds
and returns: exactly one sample for each bin of mass above the threshold, with weight equal to that
mass, followed by samples of weight 1, as many as the remaining mass rounded to the nearest integer.
The returned `nsamp` is the number of samples and the weights sum to the total mass to within 1/2. -/
theorem C50_outlier_mass_conserved {srt : List ℝ → List ℕ} (hs : ∀ l, IsArgsort (srt l) l)
    {edges : List (List ℝ)} {dens : NDArr d ℝ} {thr : ℝ} {mass : Option (NDArr d ℝ)}
    {o : SampleOutliers d} (hinit : SampleOutliers.init srt edges dens thr mass = .ok o)
    (hedges : ∀ e ∈ edges, e.Pairwise (· ≤ ·)) (hthr : 0 ≤ thr)
    (hm : ∀ b, ValidIdx o.grid.mass.shape b → 0 ≤ o.grid.mass.get b)
    (r : Rand d) (hr : r.InRange) (pr : PoissonRand) (interp : Bool)
    (hi : interp = true → dens.sum ≠ 0) :
    ∃ (nsamp : ℤ) (bins : List (Fin d → ℕ)) (interior : List (Fin d → ℝ)) (outs : List (Fin d → ℝ)),
      o.sample r pr false false interp = .ok (nsamp,
        (interior.zip (bins.map o.grid.mass.get)) ++ outs.map fun x => (x, 1)) ∧
      interior.length = bins.length ∧
      bins.Nodup ∧ (∀ b, b ∈ bins ↔ ValidIdx o.grid.mass.shape b ∧ thr < o.grid.mass.get b) ∧
      nsamp = bins.length + outs.length ∧
      |(outs.length : ℝ)
        - ∑ b ∈ validIdx o.grid.mass.shape with o.grid.mass.get b ≤ thr, o.grid.mass.get b| ≤ 1 / 2 ∧
      |((bins.map o.grid.mass.get).sum + outs.length) - o.grid.mass.sum| ≤ 1 / 2 := by
  -- the Poisson draws are not used: replace them by zeros
  have hsame : o.sample r pr false false interp = o.sample r ⟨0, fun _ => 0⟩ false false interp := rfl
  obtain ⟨nOut, outs, hn, ho, hn0, hl, -⟩ := outliers_spec hs hinit hedges hthr hm r hr
    ⟨0, fun _ => 0⟩ (fun _ => rfl) false false interp hi
  obtain ⟨-, -, -, -, -, e6, -⟩ := SampleOutliers.init_ok hinit
  have hsumO : o.massOuts.sum
      = ∑ b ∈ validIdx o.grid.mass.shape with o.grid.mass.get b ≤ thr, o.grid.mass.get b := by
    rw [e6, Finset.sum_filter]
    refine Finset.sum_congr rfl fun b _ => ?_
    simp only [NDArr.map]
    by_cases h : thr < o.grid.mass.get b
    · rw [if_pos h, if_neg (not_le.mpr h)]
    · rw [if_neg h, if_pos (not_lt.mp h)]
  have hround : |(outs.length : ℝ) - o.massOuts.sum| ≤ 1 / 2 := by
    have : ((outs.length : ℤ) : ℝ) = ((npAround o.massOuts.sum : ℤ) : ℝ) := by
      rw [hl, hn]; simp
    rw [Int.cast_natCast] at this
    rw [this]; exact npAround_abs _
  have hsumI : ((interiorBins o.grid.mass thr).map o.grid.mass.get).sum
      = ∑ b ∈ validIdx o.grid.mass.shape with ¬ o.grid.mass.get b ≤ thr, o.grid.mass.get b := by
    rw [← List.sum_toFinset _ (interiorBins_nodup _ _)]
    refine Finset.sum_congr ?_ fun _ _ => rfl
    ext b
    rw [List.mem_toFinset, mem_interiorBins hthr, Finset.mem_filter, mem_validIdx, not_le]
  have htot : o.grid.mass.sum = ((interiorBins o.grid.mass thr).map o.grid.mass.get).sum
      + o.massOuts.sum := by
    rw [hsumI, hsumO, add_comm, NDArr.sum, Finset.sum_filter_add_sum_filter_not]
  refine ⟨(interiorBins o.grid.mass thr).length + nOut, interiorBins o.grid.mass thr,
    (interiorBins o.grid.mass thr).map fun b i => centroid edges dens b i, outs, ?_, by simp,
    interiorBins_nodup _ _, fun b => mem_interiorBins hthr b, by rw [hl], by rw [← hsumO]; exact hround, ?_⟩
  · rw [hsame, ho]
    congr 3
    rw [List.zip_map', ]
    rfl
  · rw [htot]
    have : ((interiorBins o.grid.mass thr).map o.grid.mass.get).sum + (outs.length : ℝ)
        - (((interiorBins o.grid.mass thr).map o.grid.mass.get).sum + o.massOuts.sum)
        = (outs.length : ℝ) - o.massOuts.sum := by ring
    rw [this]; exact hround

/-- **C51.** With or without Poisson noise: the result consists of one sample per interior bin (mass
above the threshold), which is the centroid of the bin and, for nonnegative densities and increasing
edges, inside it; and of samples of weight 1, each in a bin of positive mass not above the threshold. -/
theorem C51_outliers_where {srt : List ℝ → List ℕ} (hs : ∀ l, IsArgsort (srt l) l)
    {edges : List (List ℝ)} {dens : NDArr d ℝ} {thr : ℝ} {mass : Option (NDArr d ℝ)}
    {o : SampleOutliers d} (hinit : SampleOutliers.init srt edges dens thr mass = .ok o)
    (hedges : ∀ e ∈ edges, e.Pairwise (· < ·)) (hthr : 0 ≤ thr)
    (hdens : ∀ idx, ValidIdx dens.shape idx → 0 ≤ dens.get idx)
    (hm : ∀ b, ValidIdx o.grid.mass.shape b → 0 ≤ o.grid.mass.get b)
    (r : Rand d) (hr : r.InRange) (pr : PoissonRand)
    (hpr : ∑ b ∈ validIdx o.grid.mass.shape, (if thr < o.grid.mass.get b then 0 else o.grid.mass.get b) = 0
      → pr.outside = 0) (pin pout interp : Bool)
    (hi : interp = true → dens.sum ≠ 0) :
    ∃ (nsamp : ℤ) (bins : List (Fin d → ℕ)) (weights : List ℝ) (outs : List (Fin d → ℝ)),
      o.sample r pr pin pout interp = .ok (nsamp,
        (bins.map fun b i => centroid edges dens b i).zip weights ++ outs.map fun x => (x, 1)) ∧
      weights.length = bins.length ∧ nsamp = bins.length + outs.length ∧
      bins.Nodup ∧ (∀ b, b ∈ bins ↔ ValidIdx o.grid.mass.shape b ∧ thr < o.grid.mass.get b) ∧
      (∀ b ∈ bins, Spec.InBinInterior edges b fun i => centroid edges dens b i) ∧
      ∀ x ∈ outs, ∃ b, (∀ i, b i + 1 < dens.shape i) ∧ 0 < o.grid.mass.get b ∧
        o.grid.mass.get b ≤ thr ∧ Spec.InBin edges b x := by
  obtain ⟨-, -, -, e4, -, e6, -⟩ := SampleOutliers.init_ok hinit
  obtain ⟨f1, f2, -⟩ := initMasses_ok e4
  obtain ⟨nOut, outs, hn, ho, hn0, hl, hx, -⟩ := outliers_spec hs hinit
    (fun e he => (hedges e he).imp fun h => h.le) hthr hm r hr pr
    (by intro h; rw [e6] at h; exact hpr h) pin pout interp hi
  refine ⟨_, interiorBins o.grid.mass thr, (interiorBins o.grid.mass thr).map fun b =>
    if pin then (pr.inside (ravelIdx o.grid.mass.shape b) : ℝ) else o.grid.mass.get b, outs,
    by rw [ho, List.zip_map'], by simp, by rw [hl], interiorBins_nodup _ _,
    fun b => mem_interiorBins hthr b, ?_, hx⟩
  intro b hb i
  have hv := (mem_interiorBins hthr b).mp hb
  have hb' : ∀ i, b i + 1 < dens.shape i := fun i => by rw [f2]; have := hv.1 i; omega
  refine C41_centroid_inside edges dens b hb' hdens i ?_
  have hlen := f1.2 i
  have hi' : (i : ℕ) < edges.length := by rw [f1.1]; exact i.2
  have hp := hedges (edges.getD i []) (by
    rw [List.getD_eq_getElem _ _ hi']; exact List.getElem_mem hi')
  have := hb' i
  rw [edgeAt, edgeAt, List.getD_eq_getElem _ _ (by omega : b i + 1 < (edges.getD i []).length),
    List.getD_eq_getElem _ _ (by omega : b i < (edges.getD i []).length)]
  exact List.pairwise_iff_getElem.mp hp _ _ _ _ (Nat.lt_succ_self _)

/-- `sample_outliers` refuses a number of samples. -/
theorem C50_nsamp_refused {srt : List ℝ → List ℕ} {edges : List (List ℝ)} {dens : NDArr d ℝ}
    {thr x : ℝ} {mass : Option (NDArr d ℝ)} (r : Rand d) (pr : PoissonRand) (pin pout interp : Bool) :
    ∀ out, sampleOutliersFn srt r pr edges dens thr (some x) mass pin pout interp ≠ .ok out := by
  intro out h
  unfold sampleOutliersFn at h
  cases hi : SampleOutliers.init srt edges dens thr mass with
  | error e => rw [hi] at h; cases h
  | ok o => rw [hi] at h; simp at h

/-- The densities `1, 0, 0` with threshold 1/4: one interior bin of mass 1/2, one empty bin. -/
example : ∃ (srt : List ℝ → List ℕ) (o : SampleOutliers 1), (∀ l, IsArgsort (srt l) l) ∧
    SampleOutliers.init srt [[0, 1, 2]] exDens1 (1 / 4) = .ok o ∧
    (∀ e ∈ [[(0 : ℝ), 1, 2]], e.Pairwise (· < ·)) ∧
    (∀ idx, ValidIdx exDens1.shape idx → 0 ≤ exDens1.get idx) ∧
    (∀ b, ValidIdx o.grid.mass.shape b → 0 ≤ o.grid.mass.get b) ∧
    (fun _ => 0) ∈ interiorBins o.grid.mass (1 / 4) := by
  obtain ⟨srt, hs⟩ := exists_argsort
  obtain ⟨M, hM, hsh, hm0, hm1⟩ := exDens1_mass
  have hinc : ∀ e ∈ [[(0 : ℝ), 1, 2]], e.Pairwise (· < ·) := by
    intro e he; simp only [List.mem_singleton] at he; subst he; norm_num
  have hd : ∀ idx, ValidIdx exDens1.shape idx → 0 ≤ exDens1.get idx := by
    intro idx _; simp only [exDens1]; split <;> norm_num
  have hlen : (M.map fun x : ℝ => if 1 / 4 < x then (0 : ℝ) else x).flat.length = 2 := by
    rw [NDArr.flat_length, NDArr.size]; simp [NDArr.map, hsh]
  have hperm := (hs (M.map fun x : ℝ => if 1 / 4 < x then (0 : ℝ) else x).flat).1
  have hcum : ∃ p, dataToCumulative srt (M.map fun x : ℝ => if 1 / 4 < x then (0 : ℝ) else x).flat = .ok p := by
    unfold dataToCumulative
    simp only [npCumsum_getLast?]
    have : srt (M.map fun x : ℝ => if 1 / 4 < x then (0 : ℝ) else x).flat ≠ [] := by
      intro h0
      have := hperm.length_eq
      rw [h0, List.length_range, hlen] at this
      simp at this
    simp only [List.map_eq_nil_iff, if_neg this]
    exact ⟨_, rfl⟩
  obtain ⟨⟨idx, csum⟩, hp⟩ := hcum
  have hi : initMasses [[(0 : ℝ), 1, 2]] exDens1 none none none = .ok (M, none) := by
    unfold initMasses
    rw [if_pos ⟨exDens1_match, by intro m h; cases h⟩]
    simp only [massArg, hM, scalarMassArg]; rfl
  have hinit : ∃ o, SampleOutliers.init srt [[(0 : ℝ), 1, 2]] exDens1 (1 / 4) = .ok o ∧ o.grid.mass = M := by
    unfold SampleOutliers.init
    rw [hi]
    change ∃ o, (dataToCumulative srt (M.map fun x : ℝ => if 1 / 4 < x then (0 : ℝ) else x).flat >>= _) = _ ∧ _
    rw [hp]
    exact ⟨_, rfl, rfl⟩
  obtain ⟨o, ho, rfl⟩ := hinit
  refine ⟨srt, o, hs, ho, hinc, hd,
    C38_mass_nonneg hM hd (fun e he => (hinc e he).imp fun h => h.le), ?_⟩
  rw [mem_interiorBins (by norm_num)]
  exact ⟨fun i => by rw [hsh]; norm_num, by rw [hm0]; norm_num⟩

end Kalepy
