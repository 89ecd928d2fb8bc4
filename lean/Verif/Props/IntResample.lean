import Verif.Model.IntResample
import Verif.Props.IntData
import Verif.Props.Missing
import Verif.Props.ReflectLaw

/-!
# C164: resampling integer data
-/

namespace Kalepy

open Matrix MeasureTheory

variable {d : ℕ}

/-- **C164 (full statement, not true of the code).** How samples are distributed does not depend on whether the array of
integer data has an integer or a float element type. -/
def C164_Claim : Prop :=
  ∀ (d : ℕ) (E : Ext) (a : KDEArgs d) (k : KDE d), KDE.init E a = .ok k → Spec.IntegerData a.dataset →
    ∀ (keep : KeepArg) (reflect : Reflect) (squeeze : Bool) (Ω : Type) [MeasurableSpace Ω] (μ : Measure Ω)
      (rnd : Ω → ℕ → ℕ → Draw d), Spec.RandomNumbers μ rnd →
      ∀ (size : ℕ) (A : Fin size → Set (Fin d → ℝ)), (∀ j, MeasurableSet (A j)) →
        μ {ω | Spec.SamplesIn (k.resampleT .int (some size) keep reflect squeeze (rnd ω)) A}
          = μ {ω | Spec.SamplesIn (k.resampleT .float (some size) keep reflect squeeze (rnd ω)) A}

/-- Specification: the data (by number) that are nearer than 1/2 to a boundary which is farther from zero than they are, once
for each such boundary. -/
noncomputable def Spec.nearBoundary (rows : List ReflRow) (data : List (Fin d → ℝ)) : List ℕ :=
  (List.finRange d).flatMap fun i : Fin d => (Spec.bounds (rows.getD i none)).flatMap fun b =>
    (List.range data.length).filter fun j => decide (|data.getD j 0 i - b| < 1 / 2 ∧ |data.getD j 0 i| < |b|)

/-- Specification: the KDE with the data of the given numbers repeated (same kernel, same bandwidth). -/
def Spec.withCopies (k : KDE d) (js : List ℕ) : KDE d :=
  { k with
    dataset := k.dataset ++ js.map fun j => k.dataset.getD j 0
    weights := k.weights.map fun w => w ++ js.map fun j => w.getD j 0 }

/-! ## The element type float -/

lemma mirrorDimT_float (old : List (Fin d → ℝ)) (i : Fin d) (r : ReflRow) : mirrorDimT .float old i r = mirrorDim old i r := by
  rcases r with _ | ⟨lo, hi⟩
  · rfl
  · cases lo <;> cases hi <;> rfl

lemma reflectDataT_float (data : List (Fin d → ℝ)) (rows : List ReflRow) : reflectDataT .float data rows = reflectData data rows := by
  simp only [reflectDataT, reflectData, mirrorDimT_float]

lemma resampleReflectT_congr {dt : DType} {k : Kernel d} {data : List (Fin d → ℝ)} {size : ℕ} {rows : List ReflRow}
    {w : Option (List ℝ)} {keep : KeepArg} {rnd : ℕ → ℕ → Draw d} {data' : List (Fin d → ℝ)} {w' : Option (List ℝ)}
    (h1 : drawDataT dt data rows = drawData data' rows) (h2 : drawWeightsT dt data w rows = drawWeights data' w' rows) :
    resampleReflectT dt k data size rows w keep rnd = resampleReflect k data' size rows w' keep rnd := by
  unfold resampleReflectT resampleReflect
  rw [h1, h2]
  rfl

/-- For float data this is the other model. -/
lemma resampleT_float (k : KDE d) (size : Option ℕ) (keep : KeepArg) (reflect : Reflect) (squeeze : Bool) (rnd : ℕ → ℕ → Draw d) :
    k.resampleT .float size keep reflect squeeze rnd = k.resample size keep reflect squeeze rnd := by
  have hk : ∀ r, k.kernel.resampleT .float k.dataset k.weights size keep r squeeze rnd
      = k.kernel.resample k.dataset k.weights size keep r squeeze rnd := by
    intro r
    unfold Kernel.resampleT Kernel.resample
    have : ∀ rows, resampleReflectT .float k.kernel k.dataset (size.getD k.dataset.length) rows k.weights keep rnd
        = resampleReflect k.kernel k.dataset (size.getD k.dataset.length) rows k.weights keep rnd := fun rows =>
      resampleReflectT_congr (by simp only [drawDataT, drawData, reflectDataT_float])
        (by simp only [drawWeightsT, drawWeights, reflectDataT_float])
    simp only [this]
    rfl
  cases reflect with
  | none => exact hk _
  | «false» => exact hk .none
  | «true» => exact hk _
  | rows l => exact hk _

lemma resampleT_eq {E : Ext} {a : KDEArgs d} {k : KDE d} (h : KDE.init E a = .ok k) (dt : DType) (size : Option ℕ)
    (keep : KeepArg) (reflect : Reflect) (squeeze : Bool) (rnd : ℕ → ℕ → Draw d) :
    k.resampleT dt size keep reflect squeeze rnd =
      (Spec.boundaries k reflect).bind fun b =>
        (match b with
        | none => resampleClear k.kernel.dist k.dataset (size.getD k.dataset.length) k.weights k.kernel.matrix keep
            (rnd 0)
        | some rows => (resampleReflectT dt k.kernel k.dataset (size.getD k.dataset.length) rows k.weights keep
            rnd).map Prod.fst).map (squeezeSamples squeeze) := by
  have key : ∀ r c, checkReflect k.dataset r = c → k.kernel.resampleT dt k.dataset k.weights size keep r squeeze rnd =
      c.bind fun b =>
        (match b with
        | none => resampleClear k.kernel.dist k.dataset (size.getD k.dataset.length) k.weights k.kernel.matrix keep
            (rnd 0)
        | some rows => (resampleReflectT dt k.kernel k.dataset (size.getD k.dataset.length) rows k.weights keep
            rnd).map Prod.fst).map (squeezeSamples squeeze) := by
    rintro r c rfl
    unfold Kernel.resampleT
    cases checkReflect k.dataset r with
    | error e => rfl
    | ok o =>
      cases o with
      | none => rfl
      | some rows =>
        simp only [Except.bind]
        cases resampleReflectT dt k.kernel k.dataset (size.getD k.dataset.length) rows k.weights keep rnd <;> rfl
  cases reflect with
  | none => exact key _ _ (checkReflect_stored h)
  | «false» => exact key .none _ rfl
  | «true» => exact key _ _ rfl
  | rows l => exact key _ _ rfl

/-! ## Blocks of mirror images -/

/-- The places where mirror images are made. -/
noncomputable def mirrorPlaces (d : ℕ) (rows : List ReflRow) : List (Fin d × ℝ) :=
  (List.finRange d).flatMap fun i : Fin d => (Spec.bounds (rows.getD i none)).map fun b => (i, b)

/-- The mirror image as it is stored. -/
noncomputable def imageT (dt : DType) (p : Fin d × ℝ) (x : Fin d → ℝ) : Fin d → ℝ :=
  Function.update x p.1 (dt.store (p.2 - (x p.1 - p.2)))

lemma reflectDataT_blocks (dt : DType) (data : List (Fin d → ℝ)) (rows : List ReflRow) :
    reflectDataT dt data rows = data ++ (mirrorPlaces d rows).flatMap fun p => data.map (imageT dt p) := by
  unfold reflectDataT mirrorPlaces
  rw [List.flatMap_assoc]
  congr 1
  refine List.flatMap_congr fun i _ => ?_
  rcases rows.getD i none with _ | ⟨lo, hi⟩
  · rfl
  · cases lo <;> cases hi <;> simp [mirrorDimT, mirrorDataT, Spec.bounds, imageT] <;> rfl

lemma numMirrors_blocks (rows : List ReflRow) : numMirrors (d := d) rows = (mirrorPlaces d rows).length := by
  unfold numMirrors mirrorPlaces
  rw [List.length_flatMap]
  congr 1
  refine List.map_congr_left fun i _ => ?_
  rcases rows.getD i none with _ | ⟨lo, hi⟩
  · rfl
  · cases lo <;> cases hi <;> simp [Spec.bounds]

lemma filter_block {α β : Type} (data : List α) (a0 : α) (f : α → β) (p : β → Bool) :
    (data.map f).filter p = ((List.range data.length).filter fun j => p (f (data.getD j a0))).map fun j => f (data.getD j a0) := by
  have h : data = (List.range data.length).map fun j => data.getD j a0 := by
    refine List.ext_getElem (by simp) fun j h1 h2 => ?_
    simp [List.getElem?_eq_getElem h1]
  conv_lhs => rw [h]
  rw [List.map_map, List.filter_map]
  rfl

lemma zip_block {α β : Type} (data : List α) (a0 : α) (f : α → β) (p : β → Bool) (w : List ℝ) (hw : w.length = data.length) :
    (((data.map f).zip w).filter fun q => p q.1).map Prod.snd
      = ((List.range data.length).filter fun j => p (f (data.getD j a0))).map fun j => w.getD j 0 := by
  have h : (data.map f).zip w = (List.range data.length).map fun j => (f (data.getD j a0), w.getD j 0) := by
    refine List.ext_getElem (by simp [hw]) fun j h1 h2 => ?_
    have h3 : j < data.length := by simpa using h2
    simp [List.getElem?_eq_getElem h3, List.getElem?_eq_getElem (show j < w.length by omega)]
  rw [h, List.filter_map, List.map_map]
  rfl

lemma filter_blocks {α β γ : Type} (data : List α) (a0 : α) (f : γ → α → β) (p : β → Bool) (L : List γ) :
    (L.flatMap fun c => data.map (f c)).filter p
      = L.flatMap fun c => ((List.range data.length).filter fun j => p (f c (data.getD j a0))).map fun j => f c (data.getD j a0) := by
  induction L with
  | nil => rfl
  | cons c L ih => rw [List.flatMap_cons, List.filter_append, ih, List.flatMap_cons, filter_block]

lemma zip_blocks {α β γ : Type} (data : List α) (a0 : α) (f : γ → α → β) (p : β → Bool) (w : List ℝ)
    (hw : w.length = data.length) (L : List γ) :
    (((L.flatMap fun c => data.map (f c)).zip (List.replicate L.length w).flatten).filter fun q => p q.1).map Prod.snd
      = L.flatMap fun c => ((List.range data.length).filter fun j => p (f c (data.getD j a0))).map fun j => w.getD j 0 := by
  induction L with
  | nil => rfl
  | cons c L ih =>
    rw [List.flatMap_cons, List.length_cons, List.replicate_succ, List.flatten_cons, List.zip_append (by simp [hw]),
      List.filter_append, List.map_append, ih, List.flatMap_cons, zip_block data a0 (f c) p w hw]

/-! ## Truncated mirror images -/

lemma truncate_near (z : ℤ) {b : ℝ} (h1 : |(z : ℝ) - b| < 1 / 2) (h2 : |(z : ℝ)| < |b|) : Spec.truncate (b - (z - b)) = z := by
  rw [abs_lt] at h1
  rcases lt_or_ge 0 b with hb | hb
  · rw [abs_of_pos hb] at h2
    have hz := (abs_lt.mp h2).2
    have h0 : (-1 : ℝ) < z := by linarith
    have h0 : (0 : ℝ) ≤ z := by exact_mod_cast (by have : (-1 : ℤ) < z := by exact_mod_cast h0
                                                   omega : (0 : ℤ) ≤ z)
    rw [Spec.truncate, if_pos (by linarith)]
    have : ⌊b - (z - b)⌋ = z := by rw [Int.floor_eq_iff]; constructor <;> linarith
    rw [this]
  · rw [abs_of_nonpos hb] at h2
    have hz := (abs_lt.mp h2).1
    have h0 : (z : ℝ) < 1 := by linarith
    have h0 : (z : ℝ) ≤ 0 := by exact_mod_cast (by have : z < 1 := by exact_mod_cast h0
                                                   omega : z ≤ 0)
    rw [Spec.truncate, if_neg (by linarith)]
    have : ⌈b - (z - b)⌉ = z := by rw [Int.ceil_eq_iff]; constructor <;> linarith
    rw [this]

lemma truncate_lower (z : ℤ) {b : ℝ} (h : b < z) (h1 : b < Spec.truncate (b - (z - b))) :
    |(z : ℝ) - b| < 1 / 2 ∧ |(z : ℝ)| < |b| := by
  have h2 : ¬ (0 ≤ b - (z - b)) := by
    intro h0
    rw [Spec.truncate, if_pos h0] at h1
    have := Int.floor_le (b - (z - b))
    linarith
  rw [Spec.truncate, if_neg h2] at h1
  have hc : ⌈b - (z - b)⌉ ≤ 0 := by rw [Int.ceil_le]; push_cast; linarith
  have hb : b < 0 := by
    have : ((⌈b - (z - b)⌉ : ℤ) : ℝ) ≤ 0 := by exact_mod_cast hc
    linarith
  have hlt := Int.ceil_lt_add_one (b - (z - b))
  have hle := Int.le_ceil (b - (z - b))
  generalize ⌈b - (z - b)⌉ = y at *
  have hyz : z ≤ y := by
    by_contra hyz
    have : y + 1 ≤ z := by omega
    have : (y : ℝ) + 1 ≤ z := by exact_mod_cast this
    linarith
  have hzy : (z : ℝ) ≤ y := by exact_mod_cast hyz
  have hz0 : (z : ℝ) ≤ 0 := by
    have : z ≤ 0 := by omega
    exact_mod_cast this
  rw [abs_of_pos (by linarith), abs_of_nonpos hz0, abs_of_neg hb]
  constructor <;> linarith

lemma truncate_neg (t : ℝ) : Spec.truncate (-t) = -Spec.truncate t := by
  unfold Spec.truncate
  rcases lt_trichotomy t 0 with h | rfl | h
  · rw [if_pos (by linarith), if_neg (by linarith), Int.floor_neg]
    push_cast; rfl
  · simp
  · rw [if_neg (by linarith), if_pos (by linarith), Int.ceil_neg]
    push_cast; rfl

lemma truncate_upper (z : ℤ) {b : ℝ} (h : z < b) (h1 : Spec.truncate (b - (z - b)) < b) :
    |(z : ℝ) - b| < 1 / 2 ∧ |(z : ℝ)| < |b| := by
  have e : -b - (((-z : ℤ) : ℝ) - -b) = -(b - (z - b)) := by push_cast; ring
  have := truncate_lower (-z) (b := -b) (by push_cast; linarith) (by rw [e, truncate_neg]; linarith)
  push_cast at this
  rw [abs_neg, abs_neg] at this
  refine ⟨?_, this.2⟩
  have e2 : -(z : ℝ) - -b = -(z - b) := by ring
  rw [e2, abs_neg] at this
  exact this.1

/-- The mirror image of an integer point inside of the boundaries is stored outside of them, or it is the point itself. -/
lemma image_int {rows : List ReflRow} {x : Fin d → ℝ} (hx : ∀ i, ∃ z : ℤ, x i = z)
    (hin : ∀ i : Fin d, Spec.StrictlyInside (rows.getD i none) (x i)) {p : Fin d × ℝ} (hp : p ∈ mirrorPlaces d rows) :
    (insideBounds rows (imageT .int p x) = true ↔ |x p.1 - p.2| < 1 / 2 ∧ |x p.1| < |p.2|) ∧
    (|x p.1 - p.2| < 1 / 2 ∧ |x p.1| < |p.2| → imageT .int p x = x) := by
  obtain ⟨i, b⟩ := p
  obtain ⟨z, hz⟩ := hx i
  have himg : |x i - b| < 1 / 2 ∧ |x i| < |b| → imageT .int (i, b) x = x := by
    intro h
    rw [hz] at h
    simp only [imageT, store_int, hz, truncate_near z h.1 h.2]
    rw [← hz, Function.update_eq_self]
  refine ⟨⟨fun h => ?_, fun h => ?_⟩, himg⟩
  · have h1 := (insideBounds_iff rows _).mp h i
    simp only [imageT, Function.update_self, store_int] at h1
    have h2 := hin i
    simp only [mirrorPlaces, List.mem_flatMap, List.mem_finRange, true_and, List.mem_map, Prod.mk.injEq] at hp
    obtain ⟨i', b', hb', rfl, rfl⟩ := hp
    rcases hr : rows.getD i' none with _ | ⟨lo, hi⟩
    · rw [hr] at hb'; simp [Spec.bounds] at hb'
    · rw [hr] at hb'
      simp only [Spec.bounds, List.mem_append, Option.mem_toList] at hb'
      simp only
      rw [hz] at h1 h2 ⊢
      rcases hb' with hb' | hb'
      · exact truncate_lower z ((h2 lo hi hr).1 _ hb') ((h1 lo hi hr).1 _ hb')
      · exact truncate_upper z ((h2 lo hi hr).2 _ hb') ((h1 lo hi hr).2 _ hb')
  · rw [himg h]
    exact (insideBounds_iff rows x).mpr hin

lemma nearBoundary_blocks (rows : List ReflRow) (data : List (Fin d → ℝ)) :
    Spec.nearBoundary rows data = (mirrorPlaces d rows).flatMap fun p => (List.range data.length).filter fun j =>
      decide (|data.getD j 0 p.1 - p.2| < 1 / 2 ∧ |data.getD j 0 p.1| < |p.2|) := by
  unfold Spec.nearBoundary mirrorPlaces
  rw [List.flatMap_assoc]
  refine List.flatMap_congr fun i _ => ?_
  rw [List.flatMap_map]

section

variable {data : List (Fin d → ℝ)} {rows : List ReflRow}

lemma near_filter (hint : Spec.IntegerData data) (hin : ∀ x ∈ data, ∀ i : Fin d, Spec.StrictlyInside (rows.getD i none) (x i))
    {p : Fin d × ℝ} (hp : p ∈ mirrorPlaces d rows) :
    (List.range data.length).filter (fun j => insideBounds rows (imageT .int p (data.getD j 0)))
      = (List.range data.length).filter fun j => decide (|data.getD j 0 p.1 - p.2| < 1 / 2 ∧ |data.getD j 0 p.1| < |p.2|) := by
  refine List.filter_congr fun j hj => ?_
  have hj : j < data.length := List.mem_range.mp hj
  have hm : data.getD j 0 ∈ data := by rw [List.getD_eq_getElem _ _ hj]; exact List.getElem_mem hj
  have h := (image_int (hint _ hm) (hin _ hm) hp).1
  rw [Bool.eq_iff_iff, h, decide_eq_true_iff]

lemma drawDataT_int (hint : Spec.IntegerData data)
    (hin : ∀ x ∈ data, ∀ i : Fin d, Spec.StrictlyInside (rows.getD i none) (x i)) :
    drawDataT .int data rows = data ++ (Spec.nearBoundary rows data).map fun j => data.getD j 0 := by
  unfold drawDataT truncateData
  rw [reflectDataT_blocks, List.filter_append, filter_blocks data 0,
    List.filter_eq_self.mpr fun x hx => (insideBounds_iff rows x).mpr (hin x hx), nearBoundary_blocks, List.map_flatMap]
  congr 1
  refine List.flatMap_congr fun p hp => ?_
  rw [near_filter hint hin hp]
  refine List.map_congr_left fun j hj => ?_
  obtain ⟨hj, hc⟩ := List.mem_filter.mp hj
  have hj : j < data.length := List.mem_range.mp hj
  have hm : data.getD j 0 ∈ data := by rw [List.getD_eq_getElem _ _ hj]; exact List.getElem_mem hj
  exact (image_int (hint _ hm) (hin _ hm) hp).2 (of_decide_eq_true hc)

lemma sum_map_div (l : List ℝ) (c : ℝ) : (l.map (· / c)).sum = l.sum / c := by
  induction l with
  | nil => simp
  | cons x l ih => simp [ih, add_div]

lemma normalise_twice_int (l : List ℝ) {c : ℝ} (hc : c ≠ 0) :
    (l.map (· / c)).map (· / (l.map (· / c)).sum) = l.map (· / l.sum) := by
  rw [sum_map_div, List.map_map]
  refine List.map_congr_left fun x _ => ?_
  simp only [Function.comp_apply]
  rw [div_div_div_cancel_right₀ hc]

lemma mirror_total (d : ℕ) {w : List ℝ} (hw : 0 < w.sum) (rows : List ReflRow) :
    0 < (w ++ (List.replicate (numMirrors (d := d) rows) w).flatten).sum := by
  have hflat : ∀ n : ℕ, ((List.replicate n w).flatten).sum = n * w.sum := by
    intro n
    induction n with
    | zero => simp
    | succ n ih => rw [List.replicate_succ, List.flatten_cons, List.sum_append, ih]; push_cast; ring
  rw [List.sum_append, hflat]
  positivity

lemma drawWeightsT_int (hint : Spec.IntegerData data)
    (hin : ∀ x ∈ data, ∀ i : Fin d, Spec.StrictlyInside (rows.getD i none) (x i)) {w : List ℝ} (hl : w.length = data.length)
    (hw : 0 < w.sum) :
    drawWeightsT .int data (some w) rows
      = some ((w ++ (Spec.nearBoundary rows data).map fun j => w.getD j 0).map
        (· / (w ++ (Spec.nearBoundary rows data).map fun j => w.getD j 0).sum)) := by
  have hS := (mirror_total d hw rows).ne'
  simp only [drawWeightsT, Option.map_some, reflectWeights, truncateWeights]
  generalize (w ++ (List.replicate (numMirrors (d := d) rows) w).flatten).sum = S at hS
  have hz : (((reflectDataT .int data rows).zip
      ((w ++ (List.replicate (numMirrors (d := d) rows) w).flatten).map (· / S))).filter fun p =>
        insideBounds rows p.1).map Prod.snd = (w ++ (Spec.nearBoundary rows data).map fun j => w.getD j 0).map (· / S) := by
    rw [reflectDataT_blocks, List.map_append, List.zip_append (by simp [hl]), List.filter_append, List.map_append]
    have h1 : (data.zip (w.map (· / S))).filter (fun p => insideBounds rows p.1) = data.zip (w.map (· / S)) := by
      rw [List.filter_eq_self]
      intro p hp
      exact (insideBounds_iff rows p.1).mpr (hin _ (List.of_mem_zip hp).1)
    have h2 : (List.replicate (numMirrors (d := d) rows) w).flatten.map (· / S)
        = (List.replicate (mirrorPlaces d rows).length (w.map (· / S))).flatten := by
      rw [List.map_flatten, List.map_replicate, numMirrors_blocks]
    rw [h1, List.map_snd_zip (by simp [hl]), h2, zip_blocks data 0 (imageT .int) (insideBounds rows) _ (by simp [hl]), List.map_append,
      nearBoundary_blocks, List.map_flatMap, List.map_flatMap]
    congr 1
    refine List.flatMap_congr fun p hp => ?_
    rw [near_filter hint hin hp, List.map_map]
    refine List.map_congr_left fun j hj => ?_
    have hj : j < data.length := List.mem_range.mp (List.mem_filter.mp hj).1
    simp [List.getElem?_eq_getElem (show j < w.length by omega)]
  rw [hz, normalise_twice_int _ hS]

lemma drawWeights_exact (hin : ∀ x ∈ data, ∀ i : Fin d, Spec.StrictlyInside (rows.getD i none) (x i)) {w : List ℝ}
    (hl : w.length = data.length) (hw : 0 < w.sum) : drawWeights data (some w) rows = some (w.map (· / w.sum)) := by
  have hS := (mirror_total d hw rows).ne'
  simp only [drawWeights, Option.map_some, reflectWeights, truncateWeights]
  generalize (w ++ (List.replicate (numMirrors (d := d) rows) w).flatten).sum = S at hS
  rw [← normalise_twice_int w hS]
  have hz : (((reflectData data rows).zip
      ((w ++ (List.replicate (numMirrors (d := d) rows) w).flatten).map (· / S))).filter fun p =>
        insideBounds rows p.1).map Prod.snd = w.map (· / S) := by
    unfold reflectData
    rw [List.map_append, List.zip_append (by simp [hl]), List.filter_append, List.map_append]
    have h1 : (data.zip (w.map (· / S))).filter (fun p => insideBounds rows p.1) = data.zip (w.map (· / S)) := by
      rw [List.filter_eq_self]
      intro p hp
      exact (insideBounds_iff rows p.1).mpr (hin _ (List.of_mem_zip hp).1)
    rw [h1, List.map_snd_zip (by simp [hl]), List.filter_eq_nil_iff.mpr]
    · simp
    · intro p hp
      obtain ⟨i, _, hy⟩ := List.mem_flatMap.mp (List.of_mem_zip hp).1
      rw [mirrorDim_outside hin i p.1 hy]; simp
  rw [hz]

lemma nearBoundary_lt {j : ℕ} (hj : j ∈ Spec.nearBoundary rows data) : j < data.length := by
  simp only [Spec.nearBoundary, List.mem_flatMap, List.mem_filter, List.mem_range] at hj
  obtain ⟨_, _, _, _, h, _⟩ := hj
  exact h

end

lemma boundaries_checked {E : Ext} {a : KDEArgs d} {k : KDE d} (h : KDE.init E a = .ok k) {reflect : Reflect} {rows : List ReflRow}
    (hb : Spec.boundaries k reflect = .ok (some rows)) (data : List (Fin d → ℝ)) :
    checkReflect data (Reflect.ofChecked (some rows)) = .ok (some rows) := by
  have hne : k.dataset ≠ [] := by
    obtain ⟨_, _, _, _, _, _, _, _, _, hne, _, _, _, _, _, _, _, _, hk⟩ := init_inv h
    rw [hk]; exact hne
  have key : ∀ r, checkReflect k.dataset r = .ok (some rows) → checkReflect data (Reflect.ofChecked (some rows)) = .ok (some rows) := by
    intro r hr
    obtain ⟨h1, h2⟩ := C20_result k.dataset hne r rows hr
    rw [checkReflect_indep data k.dataset]
    exact checkReflect_ofChecked k.dataset hne rows h1 h2
  cases reflect with
  | none =>
    simp only [Spec.boundaries, Except.ok.injEq] at hb
    have := checkReflect_stored h
    rw [hb] at this
    exact key _ this
  | «false» => simp [Spec.boundaries] at hb
  | «true» => exact key .true hb
  | rows l => exact key (.rows l) hb

/-! ## C164 -/

/-- **C164**, what the code does: with all data strictly inside of the boundaries, samples of integer data are those of
float data in which the points nearer than 1/2 to a boundary that is farther from zero are repeated (their mirror images are
truncated towards zero, back to the points themselves), so that they are chosen twice as often. -/
theorem C164_repeated {E : Ext} {a : KDEArgs d} {k : KDE d} (h : KDE.init E a = .ok k) (hint : Spec.IntegerData a.dataset)
    (reflect : Reflect) (rows : List ReflRow) (hb : Spec.boundaries k reflect = .ok (some rows))
    (hin : ∀ x ∈ a.dataset, ∀ i : Fin d, Spec.StrictlyInside (rows.getD i none) (x i)) (size : Option ℕ) (keep : KeepArg)
    (squeeze : Bool) (rnd : ℕ → ℕ → Draw d) :
    k.resampleT .int size keep reflect squeeze rnd
      = (Spec.withCopies k (Spec.nearBoundary rows k.dataset)).resample (some (size.getD a.dataset.length)) keep
          (Reflect.ofChecked (some rows)) squeeze rnd := by
  have hdat : k.dataset = a.dataset := by
    obtain ⟨_, _, _, _, _, _, _, _, _, _, _, _, _, _, _, _, _, _, he⟩ := init_inv h; rw [he]
  rw [← hdat] at hint hin ⊢
  rw [resampleT_eq h, hb]
  have hin' : ∀ x ∈ (Spec.withCopies k (Spec.nearBoundary rows k.dataset)).dataset, ∀ i : Fin d,
      Spec.StrictlyInside (rows.getD i none) (x i) := by
    intro x hx
    simp only [Spec.withCopies, List.mem_append, List.mem_map] at hx
    rcases hx with hx | ⟨j, hj, rfl⟩
    · exact hin x hx
    · have hj := nearBoundary_lt hj
      refine hin _ ?_
      rw [List.getD_eq_getElem _ _ hj]; exact List.getElem_mem hj
  have hw : drawWeightsT .int k.dataset k.weights rows
      = drawWeights (Spec.withCopies k (Spec.nearBoundary rows k.dataset)).dataset
        (Spec.withCopies k (Spec.nearBoundary rows k.dataset)).weights rows := by
    cases hkw : k.weights with
    | none => simp [drawWeightsT, drawWeights, Spec.withCopies, hkw]
    | some w =>
      obtain ⟨v1, v2, v3⟩ := stored_weights h hkw
      rw [drawWeightsT_int hint hin v1 v3]
      have e : (Spec.withCopies k (Spec.nearBoundary rows k.dataset)).weights
          = some (w ++ (Spec.nearBoundary rows k.dataset).map fun j => w.getD j 0) := by simp [Spec.withCopies, hkw]
      rw [e, drawWeights_exact hin']
      · simp [Spec.withCopies, v1]
      · rw [List.sum_append]
        refine add_pos_of_pos_of_nonneg v3 (List.sum_nonneg ?_)
        intro x hx
        obtain ⟨j, hj, rfl⟩ := List.mem_map.mp hx
        have hj := nearBoundary_lt hj
        rw [List.getD_eq_getElem _ _ (by omega)]
        exact v2 _ (List.getElem_mem _)
  have hd : drawDataT .int k.dataset rows = drawData (Spec.withCopies k (Spec.nearBoundary rows k.dataset)).dataset rows := by
    rw [drawData_inside hin', drawDataT_int hint hin]
    rfl
  have hr : ∀ n, resampleReflectT .int k.kernel k.dataset n rows k.weights keep rnd
      = resampleReflect k.kernel (Spec.withCopies k (Spec.nearBoundary rows k.dataset)).dataset n rows
        (Spec.withCopies k (Spec.nearBoundary rows k.dataset)).weights keep rnd := fun n => resampleReflectT_congr hd hw
  simp only [Except.bind, hr]
  have hk' : (Spec.withCopies k (Spec.nearBoundary rows k.dataset)).kernel = k.kernel := rfl
  simp only [Reflect.ofChecked, KDE.resample, Kernel.resample, hk']
  have hck := boundaries_checked h hb (Spec.withCopies k (Spec.nearBoundary rows k.dataset)).dataset
  simp only [Reflect.ofChecked] at hck
  rw [hck]
  simp only [Option.getD_some]
  cases resampleReflect k.kernel (Spec.withCopies k (Spec.nearBoundary rows k.dataset)).dataset (size.getD k.dataset.length) rows
        (Spec.withCopies k (Spec.nearBoundary rows k.dataset)).weights keep rnd <;> rfl

/-- **C164**, the cases in which the claim holds (with the same random numbers, the same samples): without boundaries; if every
boundary is an integer or half way between two integers; or if all data are strictly inside of the boundaries and none of them is nearer
than 1/2 to a boundary that is farther from zero.  What is missing of the claim: the other cases, in which it is false. -/
theorem C164_partial {E : Ext} {a : KDEArgs d} {k : KDE d} (h : KDE.init E a = .ok k) (hint : Spec.IntegerData a.dataset)
    (reflect : Reflect)
    (hb : ∀ rows, Spec.boundaries k reflect = .ok (some rows) → Spec.HalfIntegers rows ∨
      ((∀ x ∈ a.dataset, ∀ i : Fin d, Spec.StrictlyInside (rows.getD i none) (x i)) ∧
        ∀ x ∈ a.dataset, ∀ i : Fin d, ∀ b ∈ Spec.bounds (rows.getD i none), |x i - b| < 1 / 2 → |b| ≤ |x i|))
    (size : Option ℕ) (keep : KeepArg) (squeeze : Bool) (rnd : ℕ → ℕ → Draw d) :
    k.resampleT .int size keep reflect squeeze rnd = k.resampleT .float size keep reflect squeeze rnd := by
  have hdat : k.dataset = a.dataset := by
    obtain ⟨_, _, _, _, _, _, _, _, _, _, _, _, _, _, _, _, _, _, he⟩ := init_inv h; rw [he]
  rw [resampleT_eq h, resampleT_eq h]
  cases hbd : Spec.boundaries k reflect with
  | error e => simp only [Except.bind]
  | ok o =>
    cases o with
    | none => simp only [Except.bind]
    | some rows =>
      simp only [Except.bind]
      have key : drawDataT .int k.dataset rows = drawDataT .float k.dataset rows ∧
          drawWeightsT .int k.dataset k.weights rows = drawWeightsT .float k.dataset k.weights rows := by
        rcases hb rows hbd with hh | ⟨hin, hfar⟩
        · have he : reflectDataT .int k.dataset rows = reflectDataT .float k.dataset rows := by
            rw [reflectDataT_blocks, reflectDataT_blocks]
            congr 1
            refine List.flatMap_congr fun p hp => List.map_congr_left fun x hx => ?_
            simp only [mirrorPlaces, List.mem_flatMap, List.mem_finRange, true_and, List.mem_map] at hp
            obtain ⟨i, b, hbm, rfl⟩ := hp
            have hr : rows.getD i none ∈ rows := by
              by_cases hi : (i : ℕ) < rows.length
              · rw [List.getD_eq_getElem _ _ hi]; exact List.getElem_mem hi
              · rw [List.getD_eq_default _ _ (by omega)] at hbm
                simp [Spec.bounds] at hbm
            obtain ⟨z, hz⟩ := hh _ hr b hbm
            obtain ⟨y, hy⟩ := hint x (hdat ▸ hx) i
            have e : b - (x i - b) = ((z - y : ℤ) : ℝ) := by rw [hy]; push_cast; linarith
            have e1 : imageT .int (i, b) x = Function.update x i ((z - y : ℤ) : ℝ) := by
              simp only [imageT, store_int, e, truncate_int]
            have e2 : imageT .float (i, b) x = Function.update x i ((z - y : ℤ) : ℝ) := by
              simp only [imageT, DType.store, e]
            rw [e1, e2]
          exact ⟨by simp only [drawDataT, he], by simp only [drawWeightsT, he]⟩
        · have hnil : Spec.nearBoundary rows k.dataset = [] := by
            rw [List.eq_nil_iff_forall_not_mem]
            intro j hj
            simp only [Spec.nearBoundary, List.mem_flatMap, List.mem_filter, List.mem_range, decide_eq_true_eq] at hj
            obtain ⟨i, _, b, hbm, hj, h1, h2⟩ := hj
            have hm : k.dataset.getD j 0 ∈ a.dataset := by
              rw [List.getD_eq_getElem _ _ hj, ← hdat]; exact List.getElem_mem hj
            exact absurd (hfar _ hm i b hbm h1) (not_le.mpr h2)
          rw [← hdat] at hint hin
          have hf : drawDataT .float k.dataset rows = drawData k.dataset rows := by
            simp only [drawDataT, drawData, reflectDataT_float]
          have hfw : drawWeightsT .float k.dataset k.weights rows = drawWeights k.dataset k.weights rows := by
            simp only [drawWeightsT, drawWeights, reflectDataT_float]
          refine ⟨by rw [drawDataT_int hint hin, hnil, hf, drawData_inside hin]; simp, ?_⟩
          rw [hfw]
          cases hkw : k.weights with
          | none => simp [drawWeightsT, drawWeights]
          | some w =>
            obtain ⟨v1, v2, v3⟩ := stored_weights h hkw
            rw [drawWeightsT_int hint hin v1 v3, hnil, drawWeights_exact hin v1 v3]
            simp
      have hr : resampleReflectT .int k.kernel k.dataset (size.getD k.dataset.length) rows k.weights keep rnd
          = resampleReflectT .float k.kernel k.dataset (size.getD k.dataset.length) rows k.weights keep rnd := by
        unfold resampleReflectT
        rw [key.1, key.2]
      rw [hr]

/-! ## The claim is false -/

lemma pick_law_int {Ω : Type} [MeasurableSpace Ω] {μ : Measure Ω} {rnd : Ω → ℕ → ℕ → Draw d} (hrnd : Spec.RandomNumbers μ rnd)
    (m n : ℕ) : ProbabilityTheory.HasLaw (fun ω => (rnd ω m n).pick) Spec.unitLaw μ := by
  have h : MeasurePreserving (fun t : DrawTuple d => t.2.2.2.2) (Spec.drawLaw d) Spec.unitLaw := by
    unfold Spec.drawLaw
    exact measurePreserving_snd.comp (measurePreserving_snd.comp (measurePreserving_snd.comp measurePreserving_snd))
  exact h.hasLaw.comp (hrnd.law m n)

lemma sym_ae_int {Ω : Type} [MeasurableSpace Ω] {μ : Measure Ω} {rnd : Ω → ℕ → ℕ → Draw d} (hrnd : Spec.RandomNumbers μ rnd)
    (m n : ℕ) (i : Fin d) : ∀ᵐ ω ∂μ, -1 ≤ (rnd ω m n).sym i ∧ (rnd ω m n).sym i ≤ 1 := by
  have h : MeasurePreserving (fun t : DrawTuple d => t.2.2.1 i) (Spec.drawLaw d) Spec.symLaw := by
    unfold Spec.drawLaw
    exact (measurePreserving_eval _ i).comp (measurePreserving_fst.comp (measurePreserving_snd.comp measurePreserving_snd))
  have h2 := h.hasLaw.comp (hrnd.law m n)
  have h3 : ∀ᵐ x ∂Spec.symLaw, -1 ≤ x ∧ x ≤ 1 := by
    unfold Spec.symLaw
    refine Measure.ae_smul_measure ?_ _
    filter_upwards [ae_restrict_mem measurableSet_Ico] with x hx
    exact ⟨hx.1, hx.2.le⟩
  rw [← h2.map_eq] at h3
  exact ae_of_ae_map h2.aemeasurable h3

/-- One sample of a box kernel of half width 1/10, with the lower boundary -1/4 which no candidate reaches. -/
lemma sample_one_int {k : Kernel 1} (hD : k.dist = .box) (hc : k.chunk = 100000) {U : Matrix (Fin 1) (Fin 1) ℝ}
    (hU : cholesky k.matrix = some U) (hU2 : U 0 0 * U 0 0 = 1 / 100) {data : List (Fin 1 → ℝ)} (h0 : ∀ x ∈ data, 0 ≤ x 0)
    {rnd : ℕ → ℕ → Draw 1} (hs : -1 ≤ (rnd 0 0).sym 0 ∧ (rnd 0 0).sym 0 ≤ 1) {x : Fin 1 → ℝ}
    (hx : data[⌊(rnd 0 0).pick * data.length⌋₊]? = some x) :
    ∃ y : Fin 1 → ℝ, |y 0 - x 0| ≤ 1 / 10 ∧ ∃ l,
      resampleReflect k data 1 [some (some (-(1 / 4)), none)] none .none rnd = .ok ([y], l) := by
  have hmem : x ∈ data := List.mem_of_getElem? hx
  have hne : data ≠ [] := List.ne_nil_of_mem hmem
  have hin : ∀ x ∈ data, ∀ i : Fin 1,
      Spec.StrictlyInside (([some (some (-(1 / 4)), none)] : List ReflRow).getD i none) (x i) := by
    intro x hx i
    obtain rfl := Subsingleton.elim i 0
    intro lo hi e
    simp only [List.getD_cons_zero, Fin.val_zero, Option.some.injEq, Prod.mk.injEq] at e
    obtain ⟨rfl, rfl⟩ := e
    exact ⟨by rintro l ⟨⟩; have := h0 x hx; linarith, by rintro l ⟨⟩⟩
  obtain ⟨y, hy⟩ : ∃ y, y = x + Uᵀ *ᵥ (rnd 0 0).sym := ⟨_, rfl⟩
  have hyx : |y 0 - x 0| ≤ 1 / 10 := by
    have e : y 0 - x 0 = U 0 0 * (rnd 0 0).sym 0 := by
      rw [hy]
      simp [Matrix.mulVec, dotProduct]
    rw [e]
    refine abs_le_of_sq_le_sq ?_ (by norm_num)
    have h1 : (rnd 0 0).sym 0 ^ 2 ≤ 1 := by nlinarith
    nlinarith
  refine ⟨y, hyx, ?_⟩
  have hclear : resampleClear .box data 1 none k.matrix .none (rnd 0) = .ok [y] := by
    have hz : zeroDims ([] : List (Fin 1)) (Uᵀ *ᵥ (rnd 0 0).sym) = Uᵀ *ᵥ (rnd 0 0).sym := by
      funext i
      simp [zeroDims]
    have h1 : listSeq (fun n => Dist.sample .box (rnd 0 n)) (List.range 1) = .ok [(rnd 0 0).sym] := by
      simp [listSeq, Dist.sample]
    have h2 : listSeq (fun n => choiceDatum data none (rnd 0 n).pick) (List.range 1) = .ok [x] := by
      simp [listSeq, choiceDatum, choiceIndex, hx]
    simp only [resampleClear, h1, h2, addCov, hU, keepDims]
    rw [if_pos (by simp [choiceOk, hne])]
    simp [hz, hy]
  have hyin : insideBounds [some (some (-(1 / 4)), none)] y = true := by
    rw [insideBounds_iff]
    intro i
    obtain rfl := Subsingleton.elim i 0
    intro lo hi e
    simp only [List.getD_cons_zero, Fin.val_zero, Option.some.injEq, Prod.mk.injEq] at e
    obtain ⟨rfl, rfl⟩ := e
    refine ⟨?_, by rintro l ⟨⟩⟩
    rintro l ⟨⟩
    have := h0 x hmem
    have := (abs_le.mp hyx).1
    linarith
  refine ⟨[1], ?_⟩
  simp only [resampleReflect, covKeepVars, drawData_inside hin, if_neg hne, hc, hD]
  simp only [drawWeights, Option.map_none, chunking]
  rw [if_neg (by norm_num), if_neg (by norm_num)]
  simp only [mul_one]
  rw [rejectLoop]
  simp only [List.length_nil, Nat.not_ofNat_le_one, List.append_nil, List.nil_append]
  rw [if_neg (by norm_num), hclear]
  simp only [List.filter_cons, hyin, if_true, List.filter_nil, Nat.sub_zero, List.take_succ_cons, List.take_nil]
  rw [rejectLoop]
  simp

/-- **C164, refuted.** The data 0 and 1 with the lower boundary -1/4. The mirror image of 0 is -1/2; in an integer array it is
stored as 0, inside of the boundary. So 0 is chosen with probability 2/3 instead of 1/2. -/
theorem C164_refuted : ¬ C164_Claim := by
  intro hC
  let E : Ext := ⟨fun A => A, id⟩
  obtain ⟨rows, hrows⟩ : ∃ rows : List ReflRow, rows = [some (some (-(1 / 4)), none)] := ⟨_, rfl⟩
  obtain ⟨C, hCd⟩ : ∃ C : Matrix (Fin 1) (Fin 1) ℝ, C = !![1 / 100] := ⟨_, rfl⟩
  obtain ⟨k, hk, hw, hD, hM, hr, hc, hdat⟩ := cov_init_reflect E ([![0], ![1]] : List (Fin 1 → ℝ)) (by simp) .box rfl C
    (by intro i; fin_cases i; simp [hCd]) rows (by simp [hrows]) (by simp [hrows]) ⟨(some (-(1 / 4)), none), by simp [hrows]⟩
  have hK : k.kernel.matrix = C := by rw [(C18_matrix hk).1, hM]
  have hpd : C.PosDef := by
    have : C = (1 / 100 : ℝ) • (1 : Matrix (Fin 1) (Fin 1) ℝ) := by
      rw [hCd]; ext i j; fin_cases i; fin_cases j; simp
    rw [this]
    exact PosDef.one.smul (by norm_num)
  obtain ⟨U, hU⟩ := cholesky_of_posDef hpd
  have hU2 : U 0 0 * U 0 0 = 1 / 100 := by
    have := congrFun (congrFun (cholesky_mul hpd.isHermitian hU) 0) 0
    simpa [hCd, Matrix.mul_apply] using this
  rw [← hK] at hU
  have hint : Spec.IntegerData ([![0], ![1]] : List (Fin 1 → ℝ)) := by
    intro x hx i
    fin_cases i
    simp only [List.mem_cons, List.not_mem_nil, or_false] at hx
    rcases hx with rfl | rfl
    · exact ⟨0, by simp⟩
    · exact ⟨1, by simp⟩
  have hb : Spec.boundaries k .none = .ok (some rows) := by simp [Spec.boundaries, hr]
  have hin : ∀ x ∈ ([![0], ![1]] : List (Fin 1 → ℝ)), ∀ i : Fin 1, Spec.StrictlyInside (rows.getD i none) (x i) := by
    intro x hx i
    obtain rfl := Subsingleton.elim i 0
    intro lo hi e
    simp only [hrows, List.getD_cons_zero, Fin.val_zero, Option.some.injEq, Prod.mk.injEq] at e
    obtain ⟨rfl, rfl⟩ := e
    simp only [List.mem_cons, List.not_mem_nil, or_false] at hx
    rcases hx with rfl | rfl
    · exact ⟨by rintro l ⟨⟩; norm_num, by rintro l ⟨⟩⟩
    · exact ⟨by rintro l ⟨⟩; norm_num, by rintro l ⟨⟩⟩
  have hnear : Spec.nearBoundary rows ([![0], ![1]] : List (Fin 1 → ℝ)) = [0] := by
    have h0 : List.finRange 1 = [0] := rfl
    simp only [Spec.nearBoundary, hrows, h0, List.flatMap_cons, List.flatMap_nil, List.append_nil, Spec.bounds, Fin.val_zero,
      List.getD_cons_zero, Option.toList_some, Option.toList_none]
    simp [List.range_succ]
    norm_num
  have hin3 : ∀ x ∈ ([![0], ![1], ![0]] : List (Fin 1 → ℝ)), ∀ i : Fin 1, Spec.StrictlyInside (rows.getD i none) (x i) := by
    intro x hx
    refine hin x ?_
    simp only [List.mem_cons, List.not_mem_nil, or_false] at hx ⊢
    tauto
  have hI : ∀ r, k.resampleT .int (some 1) .none .none true r
      = ((resampleReflect k.kernel [![0], ![1], ![0]] 1 rows none .none r).map Prod.fst).map (squeezeSamples true) := by
    intro r
    rw [resampleT_eq hk, hb]
    simp only [Except.bind, Option.getD_some, hdat, hw]
    rw [resampleReflectT_congr (data' := [![0], ![1], ![0]]) (w' := none)
      (by rw [drawDataT_int hint hin, hnear, drawData_inside hin3]; rfl) (by simp [drawWeightsT, drawWeights])]
  have hF : ∀ r, k.resampleT .float (some 1) .none .none true r
      = ((resampleReflect k.kernel [![0], ![1]] 1 rows none .none r).map Prod.fst).map (squeezeSamples true) := by
    intro r
    rw [resampleT_float, resample_eq hk, hb]
    simp only [Except.bind, Option.getD_some, hdat, hw]
  obtain ⟨Ω, mΩ, μ, rnd, hrnd⟩ : ∃ (Ω : Type) (_ : MeasurableSpace Ω) (μ : Measure Ω) (rnd : Ω → ℕ → ℕ → Draw 1),
    Spec.RandomNumbers μ rnd := ⟨_, _, _, _, exists_randomNumbers 1⟩
  obtain ⟨A, hA⟩ : ∃ A : Set (Fin 1 → ℝ), A = {x | x 0 < 1 / 2} := ⟨_, rfl⟩
  have hAm : MeasurableSet A := by
    rw [hA]; exact measurableSet_lt (measurable_pi_apply 0) measurable_const
  have h := hC 1 E _ k hk hint .none .none true Ω μ rnd hrnd 1 (fun _ => A) fun _ => hAm
  have hpick : ∀ᵐ ω ∂μ, 0 ≤ (rnd ω 0 0).pick ∧ (rnd ω 0 0).pick < 1 := by
    have h1 : ∀ᵐ x ∂Spec.unitLaw, 0 ≤ x ∧ x < 1 := by
      filter_upwards [ae_restrict_mem measurableSet_Ico] with x hx using hx
    rw [← (pick_law_int hrnd 0 0).map_eq] at h1
    exact ae_of_ae_map (pick_law_int hrnd 0 0).aemeasurable h1
  have hev : ∀ (data : List (Fin 1 → ℝ)) (r : ℕ → ℕ → Draw 1) (x : Fin 1 → ℝ), (∀ x ∈ data, 0 ≤ x 0) →
      (-1 ≤ (r 0 0).sym 0 ∧ (r 0 0).sym 0 ≤ 1) → data[⌊(r 0 0).pick * data.length⌋₊]? = some x → (x 0 = 0 ∨ x 0 = 1) →
      (Spec.SamplesIn (n := 1) (((resampleReflect k.kernel data 1 rows none .none r).map Prod.fst).map (squeezeSamples true))
        (fun _ => A) ↔ x 0 = 0) := by
    intro data r x h0 hs hx hx01
    obtain ⟨y, hy, l, hl⟩ := sample_one_int hD hc hU hU2 h0 hs hx
    rw [hrows, hl]
    have hyA : y ∈ A ↔ x 0 = 0 := by
      rw [hA]
      show y 0 < 1 / 2 ↔ _
      have := abs_le.mp hy
      rcases hx01 with e | e <;> rw [e] at this ⊢
      · simp; linarith
      · simp; linarith
    rw [← hyA]
    constructor
    · rintro ⟨s, X, e, hX, hXA⟩
      have e := Except.ok.inj e
      rw [← e, squeezeSamples_points] at hX
      simp only [List.ofFn_succ, List.ofFn_zero, List.cons.injEq, and_true] at hX
      rw [hX]; exact hXA 0
    · intro hA
      exact ⟨_, fun _ => y, rfl, by rw [squeezeSamples_points]; simp, fun _ => hA⟩
  have hintA : {ω | Spec.SamplesIn (n := 1) (k.resampleT .int (some 1) .none .none true (rnd ω)) fun _ => A}
      =ᵐ[μ] (fun ω => (rnd ω 0 0).pick) ⁻¹' (Set.Ico (1 / 3) (2 / 3))ᶜ := by
    filter_upwards [hpick, sym_ae_int hrnd 0 0 0] with ω hp hs
    apply propext
    show Spec.SamplesIn _ _ ↔ (rnd ω 0 0).pick ∉ Set.Ico (1 / 3 : ℝ) (2 / 3)
    rw [hI]
    have h0 : ∀ x ∈ ([![0], ![1], ![0]] : List (Fin 1 → ℝ)), 0 ≤ x 0 := by simp
    rcases lt_or_ge (rnd ω 0 0).pick (1 / 3) with h1 | h1
    · rw [hev _ _ ![0] h0 hs (by
        have : ⌊(rnd ω 0 0).pick * ([![0], ![1], ![0]] : List (Fin 1 → ℝ)).length⌋₊ = 0 := by
          rw [Nat.floor_eq_zero]; simp; linarith
        rw [this]; rfl) (Or.inl rfl)]
      simp only [Set.mem_Ico, not_and, not_lt]
      exact ⟨fun _ h => by linarith, fun _ => rfl⟩
    rcases lt_or_ge (rnd ω 0 0).pick (2 / 3) with h2 | h2
    · rw [hev _ _ ![1] h0 hs (by
        have : ⌊(rnd ω 0 0).pick * ([![0], ![1], ![0]] : List (Fin 1 → ℝ)).length⌋₊ = 1 := by
          rw [Nat.floor_eq_iff (by simp; linarith)]; simp; constructor <;> linarith
        rw [this]; rfl) (Or.inr rfl)]
      simp only [Set.mem_Ico, not_and, not_lt]
      refine ⟨fun h => by simp at h, fun h => by linarith [h h1]⟩
    · rw [hev _ _ ![0] h0 hs (by
        have : ⌊(rnd ω 0 0).pick * ([![0], ![1], ![0]] : List (Fin 1 → ℝ)).length⌋₊ = 2 := by
          rw [Nat.floor_eq_iff (by simp; linarith)]; simp; constructor <;> linarith
        rw [this]; rfl) (Or.inl rfl)]
      simp only [Set.mem_Ico, not_and, not_lt]
      exact ⟨fun _ _ => h2, fun _ => rfl⟩
  have hfloA : {ω | Spec.SamplesIn (n := 1) (k.resampleT .float (some 1) .none .none true (rnd ω)) fun _ => A}
      =ᵐ[μ] (fun ω => (rnd ω 0 0).pick) ⁻¹' (Set.Ico (1 / 2) 1)ᶜ := by
    filter_upwards [hpick, sym_ae_int hrnd 0 0 0] with ω hp hs
    apply propext
    show Spec.SamplesIn _ _ ↔ (rnd ω 0 0).pick ∉ Set.Ico (1 / 2 : ℝ) 1
    rw [hF]
    have h0 : ∀ x ∈ ([![0], ![1]] : List (Fin 1 → ℝ)), 0 ≤ x 0 := by simp
    rcases lt_or_ge (rnd ω 0 0).pick (1 / 2) with h1 | h1
    · rw [hev _ _ ![0] h0 hs (by
        have : ⌊(rnd ω 0 0).pick * ([![0], ![1]] : List (Fin 1 → ℝ)).length⌋₊ = 0 := by
          rw [Nat.floor_eq_zero]; simp; linarith
        rw [this]; rfl) (Or.inl rfl)]
      simp only [Set.mem_Ico, not_and, not_lt]
      exact ⟨fun _ h => by linarith, fun _ => rfl⟩
    · rw [hev _ _ ![1] h0 hs (by
        have : ⌊(rnd ω 0 0).pick * ([![0], ![1]] : List (Fin 1 → ℝ)).length⌋₊ = 1 := by
          rw [Nat.floor_eq_iff (by simp; linarith)]; simp; constructor <;> linarith
        rw [this]; rfl) (Or.inr rfl)]
      simp only [Set.mem_Ico, not_and, not_lt]
      refine ⟨fun h => by simp at h, fun h => by linarith [h h1, hp.2]⟩
  have hval : ∀ B : Set ℝ, MeasurableSet B → μ ((fun ω => (rnd ω 0 0).pick) ⁻¹' Bᶜ) = 1 - Spec.unitLaw B := by
    intro B hB
    rw [← Measure.map_apply_of_aemeasurable (pick_law_int hrnd 0 0).aemeasurable hB.compl, (pick_law_int hrnd 0 0).map_eq, prob_compl_eq_one_sub hB]
  rw [measure_congr hintA, measure_congr hfloA, hval _ measurableSet_Ico, hval _ measurableSet_Ico] at h
  have v1 : Spec.unitLaw (Set.Ico (1 / 3) (2 / 3)) = ENNReal.ofReal (1 / 3) := by
    rw [Spec.unitLaw, Measure.restrict_apply measurableSet_Ico, Set.inter_eq_left.mpr, Real.volume_Ico]
    · norm_num
    · intro x hx; exact ⟨by linarith [hx.1], by linarith [hx.2]⟩
  have v2 : Spec.unitLaw (Set.Ico (1 / 2) 1) = ENNReal.ofReal (1 / 2) := by
    rw [Spec.unitLaw, Measure.restrict_apply measurableSet_Ico, Set.inter_eq_left.mpr, Real.volume_Ico]
    · norm_num
    · intro x hx; exact ⟨by linarith [hx.1], by linarith [hx.2]⟩
  rw [v1, v2, ← ENNReal.ofReal_one, ← ENNReal.ofReal_sub _ (by norm_num), ← ENNReal.ofReal_sub _ (by norm_num),
    ENNReal.ofReal_eq_ofReal_iff (by norm_num) (by norm_num)] at h
  norm_num at h

/-- Concrete case of the hypotheses of `C164_repeated`: the counts 0, 1, 3 with the lower boundary -1/4, where 0 is repeated. -/
example : ∃ (E : Ext) (a : KDEArgs 1) (k : KDE 1) (rows : List ReflRow), KDE.init E a = .ok k ∧ Spec.IntegerData a.dataset ∧
    Spec.boundaries k .none = .ok (some rows) ∧
    (∀ x ∈ a.dataset, ∀ i : Fin 1, Spec.StrictlyInside (rows.getD i none) (x i)) ∧ Spec.nearBoundary rows a.dataset = [0] := by
  obtain ⟨k, hk, hw, hD, hM, hr, _, hdat⟩ := unit_init_reflect ⟨fun A => A, id⟩ ([![0], ![1], ![3]] : List (Fin 1 → ℝ)) (by simp)
    .box rfl [some (some (-(1 / 4)), none)] rfl (by simp) ⟨(some (-(1 / 4)), none), by simp⟩
  refine ⟨_, _, k, _, hk, ?_, by simp [Spec.boundaries, hr]; rfl, ?_, ?_⟩
  · intro x hx i
    fin_cases i
    simp only [List.mem_cons, List.not_mem_nil, or_false] at hx
    rcases hx with rfl | rfl | rfl
    · exact ⟨0, by simp⟩
    · exact ⟨1, by simp⟩
    · exact ⟨3, by simp⟩
  · intro x hx i
    obtain rfl := Subsingleton.elim i 0
    intro lo hi e
    simp only [List.getD_cons_zero, Fin.val_zero, Option.some.injEq, Prod.mk.injEq] at e
    obtain ⟨rfl, rfl⟩ := e
    simp only [List.mem_cons, List.not_mem_nil, or_false] at hx
    rcases hx with rfl | rfl | rfl <;> exact ⟨by rintro l ⟨⟩; norm_num, by rintro l ⟨⟩⟩
  · have h0 : List.finRange 1 = [0] := rfl
    simp only [Spec.nearBoundary, h0, List.flatMap_cons, List.flatMap_nil, List.append_nil, Spec.bounds, Fin.val_zero,
      List.getD_cons_zero, Option.toList_some, Option.toList_none]
    simp [List.range_succ]
    norm_num

/-- Concrete case of the hypotheses of `C164_partial`: the counts 0, 1, 3 with the boundary -1/2, where the mirror images are
integers; and the data 2, 5 with the lower boundary 1.7, which is nearer to zero than they are. -/
example : (∃ (E : Ext) (a : KDEArgs 1) (k : KDE 1) (rows : List ReflRow), KDE.init E a = .ok k ∧ Spec.IntegerData a.dataset ∧
      Spec.boundaries k .none = .ok (some rows) ∧ Spec.HalfIntegers rows) ∧
    ∃ (E : Ext) (a : KDEArgs 1) (k : KDE 1) (rows : List ReflRow), KDE.init E a = .ok k ∧ Spec.IntegerData a.dataset ∧
      Spec.boundaries k .none = .ok (some rows) ∧
      (∀ x ∈ a.dataset, ∀ i : Fin 1, Spec.StrictlyInside (rows.getD i none) (x i)) ∧
      (∀ x ∈ a.dataset, ∀ i : Fin 1, ∀ b ∈ Spec.bounds (rows.getD i none), |x i - b| < 1 / 2 → |b| ≤ |x i|) := by
  constructor
  · obtain ⟨k, hk, hw, hD, hM, hr, _, hdat⟩ := unit_init_reflect ⟨fun A => A, id⟩ ([![0], ![1], ![3]] : List (Fin 1 → ℝ)) (by simp)
      .box rfl [some (some (-(1 / 2)), none)] rfl (by simp) ⟨(some (-(1 / 2)), none), by simp⟩
    refine ⟨_, _, k, _, hk, ?_, by simp [Spec.boundaries, hr]; rfl, ?_⟩
    · intro x hx i
      fin_cases i
      simp only [List.mem_cons, List.not_mem_nil, or_false] at hx
      rcases hx with rfl | rfl | rfl
      · exact ⟨0, by simp⟩
      · exact ⟨1, by simp⟩
      · exact ⟨3, by simp⟩
    · intro r hr b hb
      simp only [List.mem_singleton] at hr
      subst hr
      simp only [Spec.bounds, Option.toList_some, Option.toList_none, List.append_nil, List.mem_singleton] at hb
      exact ⟨-1, by rw [hb]; norm_num⟩
  · obtain ⟨k, hk, hw, hD, hM, hr, _, hdat⟩ := unit_init_reflect ⟨fun A => A, id⟩ ([![2], ![5]] : List (Fin 1 → ℝ)) (by simp)
      .box rfl [some (some (17 / 10), none)] rfl (by simp) ⟨(some (17 / 10), none), by simp⟩
    refine ⟨_, _, k, _, hk, ?_, by simp [Spec.boundaries, hr]; rfl, ?_, ?_⟩
    · intro x hx i
      fin_cases i
      simp only [List.mem_cons, List.not_mem_nil, or_false] at hx
      rcases hx with rfl | rfl
      · exact ⟨2, by simp⟩
      · exact ⟨5, by simp⟩
    · intro x hx i
      obtain rfl := Subsingleton.elim i 0
      intro lo hi e
      simp only [List.getD_cons_zero, Fin.val_zero, Option.some.injEq, Prod.mk.injEq] at e
      obtain ⟨rfl, rfl⟩ := e
      simp only [List.mem_cons, List.not_mem_nil, or_false] at hx
      rcases hx with rfl | rfl <;> exact ⟨by rintro l ⟨⟩; norm_num, by rintro l ⟨⟩⟩
    · intro x hx i b hb _
      obtain rfl := Subsingleton.elim i 0
      simp only [List.getD_cons_zero, Fin.val_zero, Spec.bounds, Option.toList_some, Option.toList_none, List.append_nil,
        List.mem_singleton] at hb
      subst hb
      simp only [List.mem_cons, List.not_mem_nil, or_false] at hx
      rcases hx with rfl | rfl <;> norm_num [abs_of_pos]

end Kalepy
