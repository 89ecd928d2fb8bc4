import Mathlib.Tactic.Linarith
import Mathlib.Tactic.NormNum
import Mathlib.Data.Fin.VecNotation
import Mathlib.Data.List.GetD
import Verif.Model.Corner
import Verif.Proofs.Np
import Verif.Props.CornerLimits

/-!
# C60, C70, C74, C75, C69: targets, legend, origin, weights and default dictionaries of corner plots
-/

namespace Kalepy

variable {n : ℕ}

/-! ### targets -/

namespace Spec

/-- What should be drawn for a parameter with target `t`, upper limit `u` and lower limit `l` on an axis with limits
`lim`: a line at the target, the band from the lower end of the axis to the upper limit, and the band from the lower limit
to the upper end of the axis. -/
def marks (o : Orient) (t u l : Option ℝ) (lim : ℝ × ℝ) : List (PlotCmd ℝ) :=
  (t.map (PlotCmd.line o)).toList ++ (u.map fun u => PlotCmd.span o lim.1 u).toList ++
    (l.map fun l => PlotCmd.span o l lim.2).toList

/-- The drawing in each panel: on the diagonal for its parameter (on the y-axis if it is the rotated last panel), below it for
the row parameter on the y-axis and the column parameter on the x-axis. -/
def targets (rotate : Bool) (t u l : Fin n → Option ℝ) (lim : Fin n → ℝ × ℝ) (ii jj : Fin n) : List (PlotCmd ℝ) :=
  if ii = jj then
    marks (if rotate = true ∧ (jj : ℕ) = n - 1 then .horiz else .vert) (t jj) (u jj) (l jj) (lim jj)
  else if jj < ii then
    marks .horiz (t ii) (u ii) (l ii) (lim ii) ++ marks .vert (t jj) (u jj) (l jj) (lim jj)
  else []

end Spec

/-- **C60 (full statement, not true of the code).** `target` draws the marks of `Spec.targets` in every panel. -/
def C60_Claim : Prop :=
  ∀ (n : ℕ) (c : Corner n) (lim : Fin n → ℝ × ℝ) (_ : ∀ i, c.limits i = some (lim i))
    (t u l : Fin n → Option ℝ),
    c.target (List.ofFn t) (some (List.ofFn u)) (some (List.ofFn l)) = .ok (Spec.targets c.rotate t u l lim)

lemma ofFn_getD (f : Fin n → Option ℝ) (k : Fin n) : (List.ofFn f).getD k none = f k := by
  simp [List.getD_eq_getElem?_getD]

lemma targetCmds_eq (t u l : Option ℝ) (p : ℝ × ℝ) (line : ℝ → PlotCmd ℝ) (up lo : ℝ → ℝ × ℝ → PlotCmd ℝ) :
    targetCmds t u l (some p) line up lo =
      .ok ((t.map line).toList ++ (u.map fun u => up u p).toList ++ (l.map fun l => lo l p).toList) := by
  cases t <;> cases u <;> cases l <;> simp [targetCmds, withLimits]

/-- What is drawn by the code, with limits known. -/
lemma target_eq (c : Corner n) (lim : Fin n → ℝ × ℝ) (hl : ∀ i, c.limits i = some (lim i))
    (t u l : Fin n → Option ℝ) :
    c.target (List.ofFn t) (some (List.ofFn u)) (some (List.ofFn l)) = .ok fun ii jj =>
      if ii = jj then
        Spec.marks (if c.rotate = true ∧ (jj : ℕ) = n - 1 then .horiz else .vert) (t jj) (u jj) (l jj) (lim jj)
      else if jj < ii then
        Spec.marks .horiz (t ii) (u ii) (l ii) ((lim ii).1, (lim ii).1) ++
          Spec.marks .vert (t jj) (u jj) (l jj) ((lim jj).1, (lim jj).1)
      else [] := by
  unfold Corner.target
  simp only [Option.getD_some, List.length_ofFn, ne_eq, not_true_eq_false, if_false]
  rw [finSeq_ok]
  intro ii
  rw [finSeq_ok]
  intro jj
  simp only [ofFn_getD]
  by_cases h : ii = jj
  · simp only [h, if_true, target1d, hl, targetCmds_eq, Spec.marks, Bool.and_eq_true, decide_eq_true_eq]
  · by_cases h2 : jj < ii
    · simp only [h, h2, if_true, if_false, target2d, hl, targetCmds_eq, Spec.marks]
    · simp only [h, h2, if_false]

/-- **C60 (partial).** Once the limits are known, `target` draws exactly what is specified: in all panels if no lower
limits are given, and in the panels of the diagonal in any case.  Missing: lower limits in the panels below the diagonal
(see `C60_refuted`). -/
theorem C60_target_partial (c : Corner n) (lim : Fin n → ℝ × ℝ) (hl : ∀ i, c.limits i = some (lim i))
    (t u l : Fin n → Option ℝ) :
    c.target (List.ofFn t) (some (List.ofFn u)) none = .ok (Spec.targets c.rotate t u (fun _ => none) lim) ∧
    ∃ d, c.target (List.ofFn t) (some (List.ofFn u)) (some (List.ofFn l)) = .ok d ∧
      (∀ i, d i i = Spec.targets c.rotate t u l lim i i) ∧ ∀ i j, i < j → d i j = [] := by
  constructor
  · have : c.target (List.ofFn t) (some (List.ofFn u)) none =
        c.target (List.ofFn t) (some (List.ofFn u)) (some (List.ofFn fun _ : Fin n => none)) := by
      simp [Corner.target, List.ofFn_const]
    rw [this, target_eq c lim hl]
    congr 1
  · refine ⟨_, target_eq c lim hl t u l, fun i => ?_, fun i j hij => ?_⟩
    · simp [Spec.targets]
    · simp [hij.ne, not_lt.mpr hij.le]

/-- **C60**, what is drawn below the diagonal: the panel of row `i` and column `j` shows what is specified if none of the two parameters
has a lower limit.  In general the lines at the targets and the bands of the upper limits are drawn as specified and in the specified
order, and the band of each lower limit reaches from the limit to the lower end of the axis. -/
theorem C60_below (c : Corner n) (lim : Fin n → ℝ × ℝ) (hl : ∀ i, c.limits i = some (lim i)) (t u l : Fin n → Option ℝ) :
    ∃ d, c.target (List.ofFn t) (some (List.ofFn u)) (some (List.ofFn l)) = .ok d ∧ ∀ i j, j < i →
      (l i = none → l j = none → d i j = Spec.targets c.rotate t u l lim i j) ∧
      d i j = Spec.marks .horiz (t i) (u i) none (lim i) ++ ((l i).map fun x => PlotCmd.span .horiz x (lim i).1).toList ++
        (Spec.marks .vert (t j) (u j) none (lim j) ++ ((l j).map fun x => PlotCmd.span .vert x (lim j).1).toList) := by
  refine ⟨_, target_eq c lim hl t u l, fun i j hij => ⟨fun h1 h2 => ?_, ?_⟩⟩
  · simp [Spec.targets, Spec.marks, hij, hij.ne', h1, h2]
  · simp [Spec.marks, hij, hij.ne']

/-- **C60 fails**: below the diagonal the band of a lower limit ends at the lower end of the axis instead of the upper
one.  Witness: two parameters with limits 0 to 10, and the lower limit 3 for the first. -/
theorem C60_refuted : ¬ C60_Claim := by
  intro h
  have h1 := h 2 ⟨fun _ => some (0, 10), true, true, fun _ _ => ⟨none, none, true⟩⟩ (fun _ => (0, 10)) (fun _ => rfl)
    (fun _ => none) (fun _ => none) ![some 3, none]
  rw [target_eq _ (fun _ => (0, 10)) (fun _ => rfl)] at h1
  injection h1 with h1
  have h2 := congrFun (congrFun h1 1) 0
  simp [Spec.targets, Spec.marks] at h2

/-- **C60.** Numbers of targets or limits other than the number of parameters are refused. -/
theorem C60_lengths (c : Corner n) (t : List (Option ℝ)) (u l : Option (List (Option ℝ)))
    (h : t.length ≠ n ∨ (∃ x, u = some x ∧ x.length ≠ n) ∨ ∃ x, l = some x ∧ x.length ≠ n) :
    c.target t u l = .error .valueError := by
  unfold Corner.target
  rcases h with h | ⟨x, rfl, h⟩ | ⟨x, rfl, h⟩
  · simp [h]
  · simp only [Option.getD_some]
    split_ifs <;> rfl
  · simp only [Option.getD_some]
    split_ifs <;> rfl

/-! ### legend and origin -/

/-- **C70.** The default position of the legend is a panel of the plot; with more than one parameter it is above
the diagonal, so one of the invisible panels. -/
theorem C70_legend (size : ℕ) (h : 1 ≤ size) (limits : Option (Fin size → ℝ × ℝ)) (rotate : Bool)
    (calls : List (CornerCall size)) (c : Corner size) (hc : (Corner.new limits rotate).calls calls = .ok c) :
    ∃ i j : Fin size, npIndex size (legendIndex size).1 = .ok i ∧ npIndex size (legendIndex size).2 = .ok j ∧
      (2 ≤ size → (c.axes i j).visible = false) := by
  obtain ⟨ht, -, -⟩ := calls_triangle calls hc (new_triangle limits rotate)
  have key : ∃ i j : ℕ, npIndex size (legendIndex size).1 = .ok i ∧ npIndex size (legendIndex size).2 = .ok j ∧
      i < size ∧ j < size ∧ (2 ≤ size → i < j) := by
    unfold legendIndex
    split_ifs with h1 h2 h3
    · refine ⟨0, size - 1, ?_, ?_, by omega, by omega, by omega⟩
      · rw [npIndex, if_pos (by omega)]; rfl
      · rw [npIndex, if_neg (by omega), if_pos (by omega)]
        congr 1; omega
    · refine ⟨0, 0, ?_, ?_, by omega, by omega, by omega⟩ <;>
      · rw [npIndex, if_pos (by omega)]; rfl
    · refine ⟨1, size / 2, ?_, ?_, by omega, by omega, by omega⟩
      · rw [npIndex, if_pos (by omega)]; rfl
      · rw [npIndex, if_pos (by omega)]
        congr 1
    · refine ⟨size - (size / 2 + 1) - 1, size / 2 + 1, ?_, ?_, by omega, by omega, by omega⟩
      · rw [npIndex, if_pos (by omega)]
        congr 1; omega
      · rw [npIndex, if_pos (by omega)]
        congr 1
  obtain ⟨i, j, e1, e2, hi, hj, hij⟩ := key
  refine ⟨⟨i, hi⟩, ⟨j, hj⟩, e1, e2, fun h2 => ?_⟩
  have := ht ⟨i, hi⟩ ⟨j, hj⟩
  have hlt := hij h2
  rw [← Bool.not_eq_true, this]
  simpa using hlt

/-- **C75.** `origin` names the corner of the figure in which the labelled row (the last) and the labelled column (the
first) meet: the panel of row `last` and column `first` is in that corner, for every number of parameters; and
different panels are in different cells. -/
theorem C75_origin (v h : Char) (o : Bool × Bool) (ho : parseOrigin [v, h] = .ok o) (m : ℕ) :
    ((cellOf o (Fin.last m) 0).1 = (if v.toLower = 't' then 0 else Fin.last m)) ∧
    ((cellOf o (Fin.last m) (0 : Fin (m + 1))).2 = (if h.toLower = 'l' then 0 else Fin.last m)) ∧
    Function.Injective (fun p : Fin (m + 1) × Fin (m + 1) => cellOf o p.1 p.2) := by
  unfold parseOrigin at ho
  simp only [List.map_cons, List.map_nil] at ho
  refine ⟨?_, ?_, ?_⟩
  · by_cases hv : v.toLower = 't'
    · simp only [hv, if_true] at ho ⊢
      split at ho
      · rename_i a b h1 h2; cases ho; cases h1; simp [cellOf]
      · cases ho
    · by_cases hv' : v.toLower = 'b'
      · simp only [hv', if_true] at ho ⊢
        split at ho
        · rename_i a b h1 h2
          cases ho
          rw [if_neg (by decide)] at h1
          cases h1; simp [cellOf]
        · cases ho
      · simp [hv, hv'] at ho
  · by_cases hh : h.toLower = 'l'
    · simp only [hh, if_true] at ho ⊢
      split at ho
      · rename_i a b h1 h2
        cases ho
        rw [if_neg (by decide)] at h2
        cases h2; simp [cellOf]
      · cases ho
    · by_cases hh' : h.toLower = 'r'
      · simp only [hh', if_true] at ho ⊢
        split at ho
        · rename_i a b h1 h2
          cases ho
          cases h2; simp [cellOf]
        · cases ho
      · simp only [hh, hh', if_false] at ho
        split at ho
        · rename_i a b h1 h2; cases h2
        · cases ho
  · rintro ⟨a, b⟩ ⟨a', b'⟩ e
    obtain ⟨o1, o2⟩ := o
    cases o1 <;> cases o2 <;> simpa [cellOf, Fin.rev_inj] using e

/-- The default origin, `'tl'`: the last row is at the top. -/
example : parseOrigin ['t', 'l'] = .ok (true, false) := by decide

/-! ### weights -/

section weights

variable {D W : Type*}

/-- **C74 (full statement, not true of the code).** The histograms drawn by `Corner.hist` and `Corner.plot_data` use the weights:
those given with the data, or those given when the plot was constructed with the data. -/
def C74_Claim : Prop :=
  ∀ (d w : ℕ) (c c' : CornerData ℕ ℕ), cornerInit none none = .ok c → cornerInit (some (.data d)) (some w) = .ok c' →
    histInput c (some (.data d)) (some w) = .ok (d, some w) ∧ histInput c' none none = .ok (d, some w) ∧
    plotDataInput c (some (.data d)) (some w) = .ok (d, some w) ∧ plotDataInput c' none none = .ok (d, some w)

/-- **C74 fails**: `hist` does not pass the weights on. -/
theorem C74_refuted : ¬ C74_Claim := by
  intro h
  obtain ⟨h1, -⟩ := h 0 1 ⟨none, none⟩ ⟨some (0, some 1), some 0⟩ rfl rfl
  simp [histInput, parseKdeData, plotDataInput] at h1

/-- **C74 fails** also for `plot_data` on a plot constructed with data and weights. -/
theorem C74_refuted_stored : ∃ (d w : ℕ) (c : CornerData ℕ ℕ), cornerInit (some (.data d)) (some w) = .ok c ∧
    plotDataInput c none none = .ok (d, none) :=
  ⟨0, 1, ⟨some (0, some 1), some 0⟩, rfl, rfl⟩

/-- **C74 (partial).** `plot`, `clean`, `plot_kde` draw with the weights given with the data, those of a given KDE or, without
arguments, those given at construction; so does `plot_data` for data or a KDE given in the call.  Missing: `hist`, and
`plot_data` without arguments, drop the weights. -/
theorem C74_weights_partial (c : CornerData D W) (d : D) (w kw : Option W) :
    plotInput c (some (.data d)) w = .ok (d, w) ∧ plotInput c (some (.kde d kw)) none = .ok (d, kw) ∧
    plotKdeInput c (some (.data d)) w = .ok (d, w) ∧ plotKdeInput c (some (.kde d kw)) none = .ok (d, kw) ∧
    plotDataInput c (some (.data d)) w = .ok (d, w) ∧ plotDataInput c (some (.kde d kw)) none = .ok (d, kw) ∧
    (∀ c', cornerInit (some (.data d)) w = .ok c' →
      plotInput c' none none = .ok (d, w) ∧ plotKdeInput c' none none = .ok (d, w)) ∧
    (∀ c', cornerInit (some (.kde d kw)) none = .ok c' →
      plotInput c' none none = .ok (d, kw) ∧ plotKdeInput c' none none = .ok (d, kw)) := by
  refine ⟨rfl, rfl, rfl, rfl, rfl, rfl, fun c' h => ?_, fun c' h => ?_⟩ <;> cases h <;> exact ⟨rfl, rfl⟩

/-- **C74.** Weights given beside a KDE are refused by all methods; without any data there is an error. -/
theorem C74_errors (c : CornerData D W) (d : D) (w : W) (kw : Option W) :
    plotInput c (some (.kde d kw)) (some w) = .error .valueError ∧
    plotKdeInput c (some (.kde d kw)) (some w) = .error .valueError ∧
    plotDataInput c (some (.kde d kw)) (some w) = .error .valueError ∧
    histInput c (some (.kde d kw)) (some w) = .error .valueError ∧
    (∀ c' w', cornerInit (D := D) (W := W) none w' = .ok c' → plotInput c' none none = .error .valueError ∧
      plotKdeInput c' none none = .error .valueError ∧ plotDataInput c' none none = .error .valueError ∧
      histInput c' none none = .error .valueError) := by
  refine ⟨rfl, rfl, rfl, rfl, fun c' w' h => ?_⟩
  cases h
  exact ⟨rfl, rfl, rfl, rfl⟩

end weights

/-! ### default dictionaries -/

section kwargs

variable {V : Type*}

/-- The empty dictionaries at import. -/
def KwStore.empty : KwStore V := fun _ => (fun _ => none, fun _ => none)

/-- **C69 (full statement, not true of the code).** In every program the quantiles and the line style given to a plot call are
the ones used in its panels, if the call does not give dictionaries of its own. -/
def C69_Claim : Prop :=
  ∀ (calls : List (KwCall ℕ)) (k : ℕ) (c : KwCall ℕ) (ds : KwDict ℕ × KwDict ℕ),
    calls[k]? = some c → (kwRun 1 0 KwStore.empty calls)[k]? = some ds → c.dist1d = none → c.dist2d = none →
    ds.1 "quantiles" = some c.quantiles ∧ ds.2 "quantiles" = some c.quantiles ∧
    ds.1 "ls" = some c.ls ∧ ds.2 "ls" = some c.ls

/-- **C69 fails**: the dictionaries are default arguments changed in place, so the quantiles of the first call of a method are used
by all later calls (also on other plots). -/
theorem C69_refuted : ¬ C69_Claim := by
  intro h
  have := (h [⟨.plot, 5, 7, none, none⟩, ⟨.plot, 6, 8, none, none⟩] 1 ⟨.plot, 6, 8, none, none⟩ _ rfl rfl rfl rfl).1
  simp [kwStep, KwStore.empty, KwDict.setdefault, CornerMethod.set1d] at this

lemma set1d_other (yes no : V) (m : CornerMethod) (d : KwDict V) {k : String} (hk : k = "quantiles" ∨ k = "ls") :
    m.set1d yes no d k = d k := by
  rcases hk with rfl | rfl <;> cases m <;> simp [CornerMethod.set1d, KwDict.setdefault]

lemma set2d_other (yes no : V) (m : CornerMethod) (d : KwDict V) {k : String} (hk : k = "quantiles" ∨ k = "ls") :
    m.set2d yes no d k = d k := by
  rcases hk with rfl | rfl <;> cases m <;> simp [CornerMethod.set2d, KwDict.setdefault]

lemma kwStep_vals (yes no : V) (st : KwStore V) (c : KwCall V) :
    (kwStep yes no st c).1.1 "quantiles" = some (((c.dist1d.getD (st c.method).1) "quantiles").getD c.quantiles) ∧
    (kwStep yes no st c).1.2 "quantiles" = some (((c.dist2d.getD (st c.method).2) "quantiles").getD c.quantiles) ∧
    (kwStep yes no st c).1.1 "ls" = some (((c.dist1d.getD (st c.method).1) "ls").getD c.ls) ∧
    (kwStep yes no st c).1.2 "ls" = some (((c.dist2d.getD (st c.method).2) "ls").getD c.ls) := by
  simp [kwStep, KwDict.setdefault, set1d_other, set2d_other]

lemma kwStep_store (yes no : V) (st : KwStore V) (c : KwCall V) (m : CornerMethod)
    (h : m = c.method → c.dist1d ≠ none ∧ c.dist2d ≠ none) : (kwStep yes no st c).2 m = st m := by
  simp only [kwStep]
  by_cases hm : m = c.method
  · obtain ⟨h1, h2⟩ := h hm
    rw [if_pos hm]
    cases e1 : c.dist1d <;> cases e2 : c.dist2d <;> simp_all
  · rw [if_neg hm]

/-- **C69 (partial).** The quantiles and line style of a call are used if it is the first call of this method in the
program without dictionaries (all earlier calls of the method gave both), or if it gives dictionaries that do not set
them.  Missing: any later call without dictionaries. -/
theorem C69_partial (yes no : V) (calls : List (KwCall V)) (k : ℕ) (c : KwCall V) (ds : KwDict V × KwDict V)
    (hc : calls[k]? = some c) (hd : (kwRun yes no KwStore.empty calls)[k]? = some ds)
    (h : (∀ j < k, ∀ c', calls[j]? = some c' → c'.method = c.method → c'.dist1d ≠ none ∧ c'.dist2d ≠ none) ∧
        c.dist1d = none ∧ c.dist2d = none ∨
      ∃ d1 d2, c.dist1d = some d1 ∧ c.dist2d = some d2 ∧ d1 "quantiles" = none ∧ d1 "ls" = none ∧
        d2 "quantiles" = none ∧ d2 "ls" = none) :
    ds.1 "quantiles" = some c.quantiles ∧ ds.2 "quantiles" = some c.quantiles ∧
    ds.1 "ls" = some c.ls ∧ ds.2 "ls" = some c.ls := by
  have key : ∀ (calls : List (KwCall V)) (st : KwStore V) (k : ℕ), calls[k]? = some c →
      (kwRun yes no st calls)[k]? = some ds →
      ((∀ j < k, ∀ c', calls[j]? = some c' → c'.method = c.method → c'.dist1d ≠ none ∧ c'.dist2d ≠ none) ∧
        c.dist1d = none ∧ c.dist2d = none ∧ st c.method = (fun _ => none, fun _ => none) ∨
      ∃ d1 d2, c.dist1d = some d1 ∧ c.dist2d = some d2 ∧ d1 "quantiles" = none ∧ d1 "ls" = none ∧
        d2 "quantiles" = none ∧ d2 "ls" = none) →
      ds.1 "quantiles" = some c.quantiles ∧ ds.2 "quantiles" = some c.quantiles ∧
      ds.1 "ls" = some c.ls ∧ ds.2 "ls" = some c.ls := by
    intro calls
    induction calls with
    | nil => intro st k hk; simp at hk
    | cons a as ih =>
      intro st k hk hd h
      cases k with
      | zero =>
        simp only [List.getElem?_cons_zero, Option.some.injEq] at hk
        subst hk
        simp only [kwRun, List.getElem?_cons_zero, Option.some.injEq] at hd
        subst hd
        obtain ⟨v1, v2, v3, v4⟩ := kwStep_vals yes no st a
        rw [v1, v2, v3, v4]
        rcases h with ⟨-, e1, e2, e3⟩ | ⟨d1, d2, e1, e2, q1, q2, q3, q4⟩
        · simp [e1, e2, e3]
        · simp [e1, e2, q1, q2, q3, q4]
      | succ k =>
        simp only [List.getElem?_cons_succ] at hk
        simp only [kwRun, List.getElem?_cons_succ] at hd
        refine ih _ k hk hd ?_
        rcases h with ⟨e0, e1, e2, e3⟩ | h
        · refine Or.inl ⟨fun j hj c' hc' hm => e0 (j + 1) (by omega) c' (by simpa using hc') hm, e1, e2, ?_⟩
          rw [kwStep_store, e3]
          intro hm
          exact e0 0 (by omega) a rfl hm.symm
        · exact Or.inr h
  refine key calls KwStore.empty k hc hd ?_
  rcases h with ⟨h1, h2, h3⟩ | h
  · exact Or.inl ⟨h1, h2, h3, rfl⟩
  · exact Or.inr h

/-- A first call of `plot` and one of `clean` use their own quantiles. -/
example : ∀ ds, (kwRun 1 0 KwStore.empty [⟨.plot, 5, 7, none, none⟩, ⟨.clean, 6, 8, none, none⟩])[1]? = some ds →
    ds.1 "quantiles" = some 6 := by
  intro ds h
  refine (C69_partial 1 0 [⟨.plot, 5, 7, none, none⟩, ⟨.clean, 6, 8, none, none⟩] 1 ⟨.clean, 6, 8, none, none⟩ ds rfl h
    (Or.inl ⟨?_, rfl, rfl⟩)).1
  intro j hj c' hc' hm
  interval_cases j
  simp at hc'
  subst hc'
  cases hm

end kwargs

end Kalepy
