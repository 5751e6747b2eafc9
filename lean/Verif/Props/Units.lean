import Verif.Proofs.Units
import Verif.Props.PipelineExample

/-!
C90: the result of the tracking in another unit. C91: adding a constant to the data.
-/
namespace Trackeddy
open Spec
open Cntr (Vertex SameShape arrGrid)

/-! ### C90 -/

/-- **C90** Data and levels given in another unit (multiplied by `a > 0`): the run gives the same eddies with the same
identifiers in the same order, or raises the same exception; only the columns `level` and `maxima` are multiplied by `a`. With the
Gaussian fit, if the solver is not affected by the unit. -/
theorem C90_unit {a : ℝ} (ha : 0 < a) {prunes : Bool} {nn : List (ℝ × ℝ) → ℝ × ℝ → Nat} {c : Criteria ℝ} {L : Libs}
    (hc : c.skipGauss = true ∨ L.ScaleFree a) {field : Int → Fields} {levels : List ℝ} {t0 : Int} {tf : Option Int} {T : Nat}
    {ntimes : Int} {online : Bool} {regs : Regs Cols} (h : ∀ t ∈ trackTimes t0 tf T, (field t).Ok) (hr : StoreEmpty regs) :
    (trackFields (colsEnv prunes nn) c L (fun t => (field t).scale a) (levels.map (a * ·)) t0 tf T ntimes online regs).2 =
      (trackFields (colsEnv prunes nn) c L field levels t0 tf T ntimes online regs).2.map (LoopState.mapV (unitCols a)) := by
  rw [(trackFields_pure _ c L (fun t ht => (h t ht).scale a) hr).1, (trackFields_pure _ c L h hr).1]
  exact timeTracking_mapV (colsEnv_unit prunes nn a)
    (fun t ht => pureSnapshot_scale ha (colsEnv_unit prunes nn a) hc (h t ht) levels) ntimes online

/-- what the change does to the columns of a row -/
theorem C90_columns (a : ℝ) (row : Cols) :
    (unitCols a row).map Prod.fst = row.map Prod.fst ∧
    (∀ name v, name ≠ "level" → name ≠ "maxima" → ((name, v) ∈ unitCols a row ↔ (name, v) ∈ row)) ∧
    (∀ name v, name = "level" ∨ name = "maxima" → (name, some v) ∈ row → (name, some (a * v)) ∈ unitCols a row) := by
  refine ⟨by simp [unitCols], ?_, ?_⟩
  · intro name v h1 h2
    unfold unitCols
    rw [List.mem_map]
    constructor
    · rintro ⟨p, hp, hq⟩
      obtain ⟨n, w⟩ := p
      simp only [Prod.mk.injEq] at hq
      obtain ⟨rfl, rfl⟩ := hq
      simpa [h1, h2] using hp
    · intro hp
      exact ⟨(name, v), hp, by simp [h1, h2]⟩
  · intro name v h1 h2
    unfold unitCols
    rw [List.mem_map]
    exact ⟨(name, some v), h2, by simp [h1]⟩

/-- the example in centimetres: a table with rows -/
example : ∃ (nn : List (ℝ × ℝ) → ℝ × ℝ → Nat) (s : LoopState Cols),
    (trackFields (colsEnv true nn) exCriteria exLibs (fun _ => exField.scale 100) [100 * (1 / 2)] 0 none 1 1 true Regs.empty).2 = .ok s ∧
      s.table.rows ≠ [] := by
  obtain ⟨nn, s, _, h2, _, h4, h5⟩ := exPipeline
  refine ⟨nn, s.mapV (unitCols 100), ?_, ?_⟩
  · have := C90_unit (a := 100) (by norm_num) (prunes := true) (nn := nn) (c := exCriteria) (L := exLibs) (Or.inl rfl)
      (field := fun _ => exField) (levels := [1 / 2]) (t0 := 0) (tf := none) (T := 1) (ntimes := 1) (online := true)
      (regs := Regs.empty) (fun t ht => (h2 t ht).1) ⟨rfl, rfl⟩
    rw [h4] at this
    exact this
  · intro h
    exact h5 ((rows_mapV_nil _ _).1 h)

/-- a solver that does not depend on the unit exists: one that minimises the sum of squares relative to the amplitude, say by
returning its initial guess -/
example : (⟨0, fun _ _ => Cntr.exMem, fun _ _ _ => 0, fun P => .ok P.guess⟩ : Libs).ScaleFree 2 := fun _ => rfl

/-- a negative factor is a different matter: high and low exchange their roles, for the sign of the eddies too -/
theorem C90_negative (data : Nat → Nat → Option ℝ) (h w : Nat) (inside : Nat → Nat → Bool) :
    maskData h w (fun r c => (data r c).map (-1 * ·)) inside =
      (maskData h w data inside).map fun e => ⟨-e.sign, -e.maxima, e.row, e.col⟩ := by
  have hflat : flatInside h w (fun r c => (data r c).map (-1 * ·)) inside = (flatInside h w data inside).map (Option.map (-1 * ·)) := by
    unfold flatInside
    rw [List.map_flatMap]
    congr 1
    funext r
    rw [List.map_map]
    congr 1
    funext c
    simp only [Function.comp_apply]
    split <;> rfl
  unfold maskData
  simp only [hflat]
  generalize flatInside h w data inside = flat
  have hf : (flat.map (Option.map (-1 * ·))).filterMap id = (flat.filterMap id).map (-1 * ·) := by
    rw [List.filterMap_map, List.map_filterMap]
    congr 1
  rw [hf]
  cases flat.filterMap id with
  | nil => rfl
  | cons v vs =>
    simp only [List.map_cons, Except.map]
    have hs : (-1 * v :: vs.map (-1 * ·)).sum = -1 * (v :: vs).sum := by
      rw [← List.map_cons (f := (-1 * ·)), List.sum_map_mul_left, List.map_id']
    have hl : (-1 * v :: vs.map (-1 * ·)).length = (v :: vs).length := by simp
    have hsg : ∀ x : ℝ, sgn (-1 * x) = -sgn x := by
      intro x
      unfold sgn
      rcases lt_trichotomy x 0 with hx | hx | hx
      · simp [hx, hx.not_gt]
      · simp [hx]
      · simp [hx, hx.not_gt]
    rw [hs, hl, mul_div_assoc, hsg]
    generalize sgn ((v :: vs).sum / ((v :: vs).length : ℝ)) = s
    have h1 : (vs.map (-1 * ·)).map (-s * ·) = vs.map (s * ·) := by
      rw [List.map_map]
      congr 1
      funext x
      simp only [Function.comp_apply]
      ring
    have h2 : (flat.map (Option.map (-1 * ·))).map (Option.map (-s * ·)) = flat.map (Option.map (s * ·)) := by
      rw [List.map_map]
      congr 1
      funext o
      simp only [Function.comp_apply, Option.map_map]
      congr 1
      funext x
      simp only [Function.comp_apply]
      ring
    rw [h1, h2, show -s * (-1 * v) = s * v by ring]
    congr 2
    ring

/-! ### C91 -/

/-- the data with a constant added -/
def Fields.shift (b : ℝ) (S : Fields) : Fields := ⟨S.X, S.Y, ⟨S.data.rows, S.data.cols, fun r c => (S.data.get r c).map (· + b)⟩⟩

/-- **C91 refuted**: with a constant added to data and levels the same eddy is not found: its level may become zero, which is
left out. -/
theorem C91_refuted : ∃ (nn : List (ℝ × ℝ) → ℝ × ℝ → Nat) (S : Fields) (b : ℝ) (levels : List ℝ) (s s' : LoopState Cols),
    S.Ok ∧ S.Rectilinear ∧ exLibs.Nearest ∧ IsNN haversine nn ∧
    (trackFields (colsEnv true nn) exCriteria exLibs (fun _ => S) levels 0 none 1 1 true Regs.empty).2 = .ok s ∧
    (trackFields (colsEnv true nn) exCriteria exLibs (fun _ => S.shift b) (levels.map (· + b)) 0 none 1 1 true Regs.empty).2 = .ok s' ∧
    s.table.rows ≠ [] ∧ s'.table.rows = [] := by
  obtain ⟨nn, s, h1, h2, h3, h4, h5⟩ := exPipeline
  refine ⟨nn, exField, -(1 / 2), [1 / 2], s, ⟨⟨[], []⟩, [0], []⟩, exField_ok, exField_rect, h3, h1, h4, ?_, h5, rfl⟩
  have ht : trackTimes 0 none 1 = [0] := by decide
  unfold trackFields snapshotOf
  rw [ht]
  have hl : (([1 / 2] : List ℝ).map (· + -(1 / 2))).filter (· ≠ 0) = [] := by norm_num
  rw [hl]
  rfl

/-- the part of an eddy that does not depend on the zero of the data -/
def EddyObj.shape (e : EddyObj) : List (ℝ × ℝ) × ℝ × ℝ × (ℝ × ℝ × Option ℝ) × Option ℝ × Option ℝ × (ℝ × ℝ) :=
  (e.contour, e.area, e.radius, e.ellipse, e.ellipseError, e.eccen, e.center)

theorem contourList_shift (L : Libs) {S : Fields} (h : S.Ok) (b level : ℝ) :
    contourList L (S.shift b) (level + b) = contourList L S level := by
  have key := Cntr.C80_affine_data h level one_pos b (L.mem (S.shift b).data (level + b))
    (L.mem S.data level) (fuel := 4 * (S.data.cols * S.data.rows) + 2) (fuel' := 4 * (S.data.cols * S.data.rows) + 2) le_rfl le_rfl
  have e1 : Cntr.NdArr.affine 1 b S.data = (S.shift b).data := by
    unfold Cntr.NdArr.affine Fields.shift
    congr 1
    funext r c
    congr 1
    funext x
    ring
  rw [e1, one_mul] at key
  unfold contourList contoursOf
  have hr : (S.shift b).data.rows = S.data.rows := rfl
  have hc : (S.shift b).data.cols = S.data.cols := rfl
  have hX : (S.shift b).X = S.X := rfl
  have hY : (S.shift b).Y = S.Y := rfl
  rw [hr, hc, hX, hY, key]

/-- two results for the same contour that differ at most in level, sign and extremum, or in that the extremum is zero -/
def SameUpToZero : Except PyErr Outcome → Except PyErr Outcome → Prop
  | .error e, .error e' => e = e'
  | .ok .skipped, .ok .skipped => True
  | .ok (.discarded r), .ok (.discarded r') => r = r'
  | .ok (.stored e), .ok (.stored e') => e.shape = e'.shape
  | .ok (.stored _), .ok (.discarded r) => r = .island
  | .ok (.discarded r), .ok (.stored _) => r = .island
  | _, _ => False

theorem flatInside_shift (h w : Nat) (data : Nat → Nat → Option ℝ) (inside : Nat → Nat → Bool) (b : ℝ) :
    flatInside h w (fun r c => (data r c).map (· + b)) inside = (flatInside h w data inside).map (Option.map (· + b)) := by
  unfold flatInside
  rw [List.map_flatMap]
  congr 1
  funext r
  rw [List.map_map]
  congr 1
  funext c
  simp only [Function.comp_apply]
  split <;> rfl

theorem filterMap_shift (l : List (Option ℝ)) (b : ℝ) : (l.map (Option.map (· + b))).filterMap id = (l.filterMap id).map (· + b) := by
  rw [List.filterMap_map, List.map_filterMap]
  congr 1

/-- the same data are inside: there is an extremum in both cases or in neither -/
theorem maskData_shift (h w : Nat) (data : Nat → Nat → Option ℝ) (inside : Nat → Nat → Bool) (b : ℝ) :
    (maskData h w (fun r c => (data r c).map (· + b)) inside).map (fun _ => ()) = (maskData h w data inside).map fun _ => () := by
  unfold maskData
  simp only [flatInside_shift, filterMap_shift]
  generalize flatInside h w data inside = flat
  cases flat.filterMap id <;> rfl

theorem inWindow_shift (b : ℝ) (S : Fields) (F : InContour → InContour) (hF : ∀ i, (F i).window = i.window) (w : Window)
    (hm : maskDataInContour (cut w S.data).rows (cut w S.data).cols w.rel.toFinset (fun r c => ((cut w S.data).get r c).map (· + b)) =
      (maskDataInContour (cut w S.data).rows (cut w S.data).cols w.rel.toFinset (cut w S.data).get).map fun e => (F ⟨w, e⟩).ext) :
    (if w.rel.all fun q => decide (0 ≤ q.1 ∧ q.1 < (cut w (S.shift b).data).rows ∧ 0 ≤ q.2 ∧ q.2 < (cut w (S.shift b).data).cols) then
      (maskDataInContour (cut w (S.shift b).data).rows (cut w (S.shift b).data).cols w.rel.toFinset (cut w (S.shift b).data).get).bind
        fun e => .ok ⟨w, e⟩
    else .error .indexError : Except PyErr InContour) =
    (if w.rel.all fun q => decide (0 ≤ q.1 ∧ q.1 < (cut w S.data).rows ∧ 0 ≤ q.2 ∧ q.2 < (cut w S.data).cols) then
      (maskDataInContour (cut w S.data).rows (cut w S.data).cols w.rel.toFinset (cut w S.data).get).bind
        fun e => .ok ⟨w, e⟩
    else .error .indexError : Except PyErr InContour).map F := by
  have h1 : (cut w (S.shift b).data).rows = (cut w S.data).rows := rfl
  have h2 : (cut w (S.shift b).data).cols = (cut w S.data).cols := rfl
  have h3 : (cut w (S.shift b).data).get = fun r c => ((cut w S.data).get r c).map (· + b) := rfl
  rw [h1, h2, h3, hm]
  by_cases hq : (w.rel.all fun q => decide (0 ≤ q.1 ∧ q.1 < (cut w S.data).rows ∧ 0 ≤ q.2 ∧ q.2 < (cut w S.data).cols)) = true
  · simp only [hq, if_true]
    generalize maskDataInContour (K := ℝ) _ _ _ _ = v
    cases v with
    | error e => rfl
    | ok e =>
      simp only [Except.bind, Except.map]
      congr 1
      have := hF ⟨w, e⟩
      generalize F ⟨w, e⟩ = j at this ⊢
      cases j
      simp only at this
      rw [this]
  · simp only [hq]
    rfl

theorem dataInContour_shift {b : ℝ} {S : Fields} {F : InContour → InContour} (hF : ∀ i, (F i).window = i.window)
    (hm : ∀ w : Window, maskDataInContour (cut w S.data).rows (cut w S.data).cols w.rel.toFinset
        (fun r c => ((cut w S.data).get r c).map (· + b)) =
      (maskDataInContour (cut w S.data).rows (cut w S.data).cols w.rel.toFinset (cut w S.data).get).map fun e => (F ⟨w, e⟩).ext)
    (L : Libs) (pts : List (ℝ × ℝ)) :
    dataInContour L (S.shift b) pts = (dataInContour L S pts).map F := by
  unfold dataInContour
  simp only [Fields.shift]
  by_cases hk : masked S.data.rows S.data.cols ((⟨S.data.rows, S.data.cols, S.X.get, S.Y.get⟩ : Grid ℝ).mask (meanPt pts)) = []
  · simp only [hk, if_true, bind, Except.bind]
    rfl
  simp only [hk, if_false, bind, Except.bind, pure, Except.pure]
  generalize List.mapM (m := Except PyErr) _ pts = u
  cases u with
  | error e => rfl
  | ok ind =>
    simp only
    cases List.map (fun p : ℕ × ℕ => ((p.1 : Int), (p.2 : Int))) ind with
    | nil => rfl
    | cons p ps =>
      have := inWindow_shift b S F hF (getWindow S.data.rows S.data.cols p ps .auto) (hm _)
      simp only [Fields.shift, cut, Except.bind] at this ⊢
      exact this

/-- some function gives the extremum of the shifted data from that of the data -/
theorem exists_shift (S : Fields) (b : ℝ) : ∃ G : Window → Extremum ℝ → Extremum ℝ, ∀ w : Window,
    maskDataInContour (cut w S.data).rows (cut w S.data).cols w.rel.toFinset (fun r c => ((cut w S.data).get r c).map (· + b)) =
      (maskDataInContour (cut w S.data).rows (cut w S.data).cols w.rel.toFinset (cut w S.data).get).map (G w) := by
  have : ∀ w : Window, ∃ g : Extremum ℝ → Extremum ℝ,
      maskDataInContour (cut w S.data).rows (cut w S.data).cols w.rel.toFinset (fun r c => ((cut w S.data).get r c).map (· + b)) =
      (maskDataInContour (cut w S.data).rows (cut w S.data).cols w.rel.toFinset (cut w S.data).get).map g := by
    intro w
    unfold maskDataInContour
    have := maskData_shift (cut w S.data).rows (cut w S.data).cols (cut w S.data).get
      (fun r c => decide (((r : Int), (c : Int)) ∈ fillHoles (cut w S.data).rows (cut w S.data).cols w.rel.toFinset)) b
    revert this
    generalize maskData (K := ℝ) _ _ (fun r c => ((cut w S.data).get r c).map (· + b)) _ = u
    generalize maskData (K := ℝ) _ _ (cut w S.data).get _ = v
    intro this
    cases u with
    | error e =>
      cases v with
      | error e' => exact ⟨id, by simpa [Except.map] using this⟩
      | ok v => cases this
    | ok u =>
      cases v with
      | error e => cases this
      | ok v => exact ⟨fun _ => u, rfl⟩
  choose G hG using this
  exact ⟨G, hG⟩

theorem examine_shift {c : Criteria ℝ} (hc : c.skipGauss = true) (L : Libs) (S : Fields) (b l : ℝ) (vs : List (Vertex ℝ)) :
    SameUpToZero (examine c L S l vs) (examine c L (S.shift b) (l + b) vs) := by
  classical
  unfold examine
  by_cases hsk : Cntr.skipsContour vs = true
  · simp only [hsk, if_true]; trivial
  simp only [hsk]
  cases allPoints vs with
  | none => rfl
  | some pts =>
  obtain ⟨G, hG⟩ := exists_shift S b
  have hd := dataInContour_shift (F := fun i => ⟨i.window, G i.window i.ext⟩) (fun _ => rfl) hG L pts
  show SameUpToZero (examinePoints c L S l pts) (examinePoints c L (S.shift b) (l + b) pts)
  unfold examinePoints
  simp only [bind, Except.bind, pure, Except.pure]
  by_cases h1 : Real.sqrt (areaPolygon pts / Real.pi) > c.maxArea * approxRD (meanPt pts).2
  · simp only [h1, if_true]; rfl
  simp only [h1, if_false]
  cases hf : fitEllipse pts with
  | error e => rfl
  | ok fit =>
  by_cases hfin : FiniteEllipse pts ∧ isclose (areaPolygon pts) (areaPolygon fit.1) (1 / 10 * c.ellipseFit) = true
  swap
  · simp only [hfin, not_false_eq_true, if_true]; rfl
  simp only [hfin, not_true_eq_false, if_false, and_self]
  by_cases h2 : gtNan (eccentricity fit.2.1 fit.2.2.1) c.eccen
  · simp only [h2, if_true]; rfl
  simp only [h2, if_false]
  cases hs : liftFr (similarity L.limit pts fit.1) with
  | error e => rfl
  | ok sim =>
  simp only
  by_cases h3 : gtNan sim c.ellipseFit
  · simp only [h3, if_true]; rfl
  simp only [h3, if_false, hd]
  cases dataInContour L S pts with
  | error e => rfl
  | ok i =>
  simp only [Except.map, hc, if_true]
  by_cases h4 : i.ext.maxima = 0 <;> by_cases h5 : (G i.window i.ext).maxima = 0 <;> simp only [h4, h5, if_true, if_false] <;> rfl

/-- **C91** partial: adding a constant to data and levels, other levels than zero before and after, gives the same contours, and each
is treated in the same way except for the discarding of contours whose extremum is zero; the eddies have the same contour, area,
radius, ellipse, scores and centre. What is missing: level, sign and extremum, the Gaussian fit, and levels and extrema that are
zero. -/
theorem C91_partial {c : Criteria ℝ} (hc : c.skipGauss = true) (L : Libs) {S : Fields} (h : S.Ok) (b l : ℝ) :
    contourList L (S.shift b) (l + b) = contourList L S l ∧
    ∀ vs ∈ contourList L S l, SameUpToZero (examine c L S l vs) (examine c L (S.shift b) (l + b) vs) :=
  ⟨contourList_shift L h b l, fun vs _ => examine_shift hc L S b l vs⟩

/-! #### data of one sign -/

/-- all data are positive before and after the change, or negative before and after -/
def OneSign (S : Fields) (b : ℝ) : Prop :=
  (∀ r c v, S.data.get r c = some v → 0 < v ∧ 0 < v + b) ∨ (∀ r c v, S.data.get r c = some v → v < 0 ∧ v + b < 0)

theorem mem_flatInside {h w : Nat} {data : Nat → Nat → Option ℝ} {inside : Nat → Nat → Bool} {v : ℝ}
    (hv : v ∈ (flatInside h w data inside).filterMap id) : ∃ r c, data r c = some v := by
  unfold flatInside at hv
  simp only [List.mem_filterMap, List.mem_flatMap, List.mem_map, id] at hv
  obtain ⟨o, ⟨r, _, c, _, ho⟩, rfl⟩ := hv
  split at ho
  · exact ⟨r, c, ho⟩
  · cases ho

theorem foldl_max_shift (l : List ℝ) (x b : ℝ) : (l.map (· + b)).foldl max (x + b) = l.foldl max x + b := by
  induction l generalizing x with
  | nil => rfl
  | cons y l ih => rw [List.map_cons, List.foldl_cons, List.foldl_cons, ← ih, max_add_add_right]

theorem nanArgmax_shift (b : ℝ) (l : List (Option ℝ)) : nanArgmax (l.map (Option.map (· + b))) = nanArgmax l := by
  unfold nanArgmax
  rw [List.findIdx_map]
  congr 1
  funext o
  cases o with
  | none => rfl
  | some x =>
    simp only [Function.comp_apply, Option.map_some, List.all_map]
    congr 1
    funext o'
    cases o' with
    | none => rfl
    | some y => simp

theorem maskData_oneSign {s b : ℝ} (hs : s = 1 ∨ s = -1) (h w : Nat) (data : Nat → Nat → Option ℝ) (inside : Nat → Nat → Bool)
    (hd : ∀ r c v, data r c = some v → 0 < s * v ∧ 0 < s * (v + b)) :
    maskData h w (fun r c => (data r c).map (· + b)) inside =
      (maskData h w data inside).map fun e => ⟨e.sign, e.maxima + b, e.row, e.col⟩ := by
  unfold maskData
  simp only [flatInside_shift, filterMap_shift]
  have hm : ∀ v ∈ (flatInside h w data inside).filterMap id, 0 < s * v ∧ 0 < s * (v + b) := by
    intro v hv
    obtain ⟨r, c, hrc⟩ := mem_flatInside hv
    exact hd r c v hrc
  revert hm
  generalize flatInside h w data inside = flat
  cases flat.filterMap id with
  | nil => intro _; rfl
  | cons v vs =>
    intro hm
    simp only [List.map_cons, Except.map]
    have hl : ((v + b) :: vs.map (· + b)).length = (v :: vs).length := by simp
    have hpos : (0 : ℝ) < ((v :: vs).length : ℝ) := by exact_mod_cast Nat.succ_pos _
    have sums : ∀ l : List ℝ, (∀ x ∈ l, 0 < s * x) → 0 ≤ s * l.sum := by
      intro l
      induction l with
      | nil => intro _; simp
      | cons x l ih =>
        intro hx
        rw [List.sum_cons, mul_add]
        have := ih (fun y hy => hx y (List.mem_cons_of_mem _ hy))
        have := hx x List.mem_cons_self
        linarith
    have hsg : ∀ x : ℝ, 0 < s * x → sgn x = s := by
      intro x hx
      unfold sgn
      rcases hs with rfl | rfl
      · have : 0 < x := by linarith
        simp [this]
      · have : x < 0 := by linarith
        simp [this, this.not_gt]
    have h1 : sgn ((v :: vs).sum / ((v :: vs).length : ℝ)) = s := by
      apply hsg
      rw [← mul_div_assoc]
      apply div_pos _ hpos
      rw [List.sum_cons, mul_add]
      have := sums vs (fun y hy => (hm y (List.mem_cons_of_mem _ hy)).1)
      have := (hm v List.mem_cons_self).1
      linarith
    have h2 : sgn (((v + b) :: vs.map (· + b)).sum / (((v + b) :: vs.map (· + b)).length : ℝ)) = s := by
      apply hsg
      rw [hl, ← mul_div_assoc]
      apply div_pos _ hpos
      rw [List.sum_cons, mul_add]
      have := sums (vs.map (· + b)) (by
        intro y hy
        obtain ⟨z, hz, rfl⟩ := List.mem_map.1 hy
        exact (hm z (List.mem_cons_of_mem _ hz)).2)
      have := (hm v List.mem_cons_self).2
      linarith
    rw [h1, h2]
    have h3 : (vs.map (· + b)).map (s * ·) = (vs.map (s * ·)).map (· + s * b) := by
      rw [List.map_map, List.map_map]
      congr 1
      funext x
      simp only [Function.comp_apply]
      ring
    have h4 : (flat.map (Option.map (· + b))).map (Option.map (s * ·)) = (flat.map (Option.map (s * ·))).map (Option.map (· + s * b)) := by
      rw [List.map_map, List.map_map]
      congr 1
      funext o
      simp only [Function.comp_apply, Option.map_map]
      congr 1
      funext x
      simp only [Function.comp_apply]
      ring
    rw [h3, h4, nanArgmax_shift, show s * (v + b) = s * v + s * b by ring, foldl_max_shift]
    congr 2
    have : s * s = 1 := by rcases hs with rfl | rfl <;> norm_num
    linear_combination b * this

/-- the extremum inside, shifted -/
def InContour.shift (b : ℝ) (i : InContour) : InContour := ⟨i.window, ⟨i.ext.sign, i.ext.maxima + b, i.ext.row, i.ext.col⟩⟩

theorem dataInContour_oneSign {S : Fields} {b : ℝ} (h : OneSign S b) (L : Libs) (pts : List (ℝ × ℝ)) :
    dataInContour L (S.shift b) pts = (dataInContour L S pts).map (InContour.shift b) := by
  apply dataInContour_shift (F := InContour.shift b) (fun _ => rfl)
  intro w
  unfold maskDataInContour
  rcases h with h | h
  · exact maskData_oneSign (s := 1) (Or.inl rfl) _ _ _ _ (fun r c v hv => by
      have := h _ _ v hv
      exact ⟨by linarith [this.1], by linarith [this.2]⟩)
  · exact maskData_oneSign (s := -1) (Or.inr rfl) _ _ _ _ (fun r c v hv => by
      have := h _ _ v hv
      exact ⟨by linarith [this.1], by linarith [this.2]⟩)

/-- the columns with the zero of the data -/
def shiftCols (b : ℝ) (row : Cols) : Cols :=
  row.map fun p => (p.1, if p.1 = "level" ∨ p.1 = "maxima" then p.2.map (· + b) else p.2)

/-- an eddy with another zero of the data -/
def EddyObj.shift (b : ℝ) (e : EddyObj) : EddyObj :=
  { e with level := e.level + b, maxima := (e.maxima.1 + b, e.maxima.2) }

/-- an outcome with another zero of the data -/
def Outcome.shift (b : ℝ) : Outcome → Outcome
  | .stored e => .stored (e.shift b)
  | o => o

/-- an extremum of data of one sign is not zero -/
theorem extremum_ne_zero {s b : ℝ} (hs : s = 1 ∨ s = -1) {h w : Nat} {data : Nat → Nat → Option ℝ} {inside : Nat → Nat → Bool}
    (hd : ∀ r c v, data r c = some v → 0 < s * v ∧ 0 < s * (v + b)) {e : Extremum ℝ} (he : maskData h w data inside = .ok e) :
    e.maxima ≠ 0 ∧ e.maxima + b ≠ 0 := by
  unfold maskData at he
  have hm : ∀ v ∈ (flatInside h w data inside).filterMap id, 0 < s * v ∧ 0 < s * (v + b) := by
    intro v hv
    obtain ⟨r, c, hrc⟩ := mem_flatInside hv
    exact hd r c v hrc
  cases hf : (flatInside h w data inside).filterMap id with
  | nil => simp only [hf] at he; cases he
  | cons v vs =>
    simp only [hf] at he
    rw [hf] at hm
    injection he with he
    subst he
    have hpos : (0 : ℝ) < ((v :: vs).length : ℝ) := by exact_mod_cast Nat.succ_pos _
    have sums : ∀ l : List ℝ, (∀ x ∈ l, 0 < s * x) → 0 ≤ s * l.sum := by
      intro l
      induction l with
      | nil => intro _; simp
      | cons x l ih =>
        intro hx
        rw [List.sum_cons, mul_add]
        have := ih (fun y hy => hx y (List.mem_cons_of_mem _ hy))
        have := hx x List.mem_cons_self
        linarith
    have h1 : sgn ((v :: vs).sum / ((v :: vs).length : ℝ)) = s := by
      have hx : 0 < s * ((v :: vs).sum / ((v :: vs).length : ℝ)) := by
        rw [← mul_div_assoc]
        apply div_pos _ hpos
        rw [List.sum_cons, mul_add]
        have := sums vs (fun y hy => (hm y (List.mem_cons_of_mem _ hy)).1)
        have := (hm v List.mem_cons_self).1
        linarith
      unfold sgn
      rcases hs with rfl | rfl
      · have : 0 < (v :: vs).sum / ((v :: vs).length : ℝ) := by linarith
        simp only [this, if_true]
      · have : (v :: vs).sum / ((v :: vs).length : ℝ) < 0 := by linarith
        simp only [this, this.not_gt, if_true, if_false]
    simp only [h1]
    have hge : ∀ (l : List ℝ) (x : ℝ), x ≤ l.foldl max x := by
      intro l
      induction l with
      | nil => intro x; exact le_rfl
      | cons y l ih => intro x; exact (le_max_left x y).trans (ih _)
    have h2 := hge (vs.map (s * ·)) (s * v)
    have h3 := hm v List.mem_cons_self
    have h4 : s * s = 1 := by rcases hs with rfl | rfl <;> norm_num
    constructor
    · intro h0
      have : s * (s * (vs.map (s * ·)).foldl max (s * v)) = 0 := by rw [h0, mul_zero]
      rw [← mul_assoc, h4, one_mul] at this
      linarith [h3.1]
    · intro h0
      have : s * (s * (vs.map (s * ·)).foldl max (s * v) + b) = 0 := by rw [h0, mul_zero]
      rw [mul_add, ← mul_assoc, h4, one_mul] at this
      have h5 := h3.2
      rw [mul_add] at h5
      linarith

theorem dataInContour_ne_zero {S : Fields} {b : ℝ} (h : OneSign S b) {L : Libs} {pts : List (ℝ × ℝ)} {i : InContour}
    (hi : dataInContour L S pts = .ok i) : i.ext.maxima ≠ 0 ∧ i.ext.maxima + b ≠ 0 := by
  obtain ⟨_, _, _, _, _, _, _, hm⟩ := dataInContour_ok hi
  unfold maskDataInContour at hm
  rcases h with h | h
  · exact extremum_ne_zero (s := 1) (Or.inl rfl) (fun r c v hv => by
      have := h _ _ v hv
      exact ⟨by linarith [this.1], by linarith [this.2]⟩) hm
  · exact extremum_ne_zero (s := -1) (Or.inr rfl) (fun r c v hv => by
      have := h _ _ v hv
      exact ⟨by linarith [this.1], by linarith [this.2]⟩) hm

theorem examinePoints_oneSign {c : Criteria ℝ} (hc : c.skipGauss = true) (L : Libs) {S : Fields} {b : ℝ} (h : OneSign S b) (level : ℝ)
    (pts : List (ℝ × ℝ)) :
    examinePoints c L (S.shift b) (level + b) pts = (examinePoints c L S level pts).map (Outcome.shift b) := by
  classical
  unfold examinePoints
  simp only [bind, Except.bind, pure, Except.pure]
  by_cases h1 : Real.sqrt (areaPolygon pts / Real.pi) > c.maxArea * approxRD (meanPt pts).2
  · simp only [h1, if_true]; rfl
  simp only [h1, if_false]
  cases hf : fitEllipse pts with
  | error e => rfl
  | ok fit =>
  by_cases hfin : FiniteEllipse pts ∧ isclose (areaPolygon pts) (areaPolygon fit.1) (1 / 10 * c.ellipseFit) = true
  swap
  · simp only [hfin, not_false_eq_true, if_true]; rfl
  simp only [hfin, not_true_eq_false, if_false, and_self]
  by_cases h2 : gtNan (eccentricity fit.2.1 fit.2.2.1) c.eccen
  · simp only [h2, if_true]; rfl
  simp only [h2, if_false]
  cases hs : liftFr (similarity L.limit pts fit.1) with
  | error e => rfl
  | ok sim =>
  simp only
  by_cases h3 : gtNan sim c.ellipseFit
  · simp only [h3, if_true]; rfl
  simp only [h3, if_false, dataInContour_oneSign h]
  cases hd : dataInContour L S pts with
  | error e => rfl
  | ok i =>
  obtain ⟨hn1, hn2⟩ := dataInContour_ne_zero h hd
  have hn3 : (i.shift b).ext.maxima ≠ 0 := hn2
  simp only [Except.map, hn1, hn3, if_false, hc, if_true]
  rfl

theorem examine_oneSign {c : Criteria ℝ} (hc : c.skipGauss = true) (L : Libs) {S : Fields} {b : ℝ} (h : OneSign S b) (level : ℝ)
    (vs : List (Vertex ℝ)) :
    examine c L (S.shift b) (level + b) vs = (examine c L S level vs).map (Outcome.shift b) := by
  unfold examine
  split
  · rfl
  · cases allPoints vs with
    | none => rfl
    | some pts => exact examinePoints_oneSign hc L h level pts

theorem rows_shift (b : ℝ) (e : EddyObj) : (e.shift b).rows = e.rows.map (shiftCols b) := by
  unfold EddyObj.rows
  have hc : (e.shift b).data.contour = e.data.contour := rfl
  rw [hc, List.map_map]
  apply List.map_congr_left
  intro p _
  simp only [Function.comp_apply]
  unfold columns EddyObj.shift EddyObj.data shiftCols
  cases e.gauss <;> simp

theorem levelMeasures_shift {c : Criteria ℝ} (hc : c.skipGauss = true) (L : Libs) {S : Fields} {b : ℝ} (h : S.Ok) (hb : OneSign S b)
    (level : ℝ) :
    List.Forall₂ (SameVerdict (shiftCols b) c) (levelMeasures c L S level) (levelMeasures c L (S.shift b) (level + b)) := by
  unfold levelMeasures
  rw [contourList_shift L h, List.forall₂_map_left_iff, List.forall₂_map_right_iff, List.forall₂_same]
  intro vs hvs
  have hne := contourList_ne L h level vs hvs
  have hx := examine_oneSign hc L hb level vs
  have hv : verdict c (measures c L (S.shift b) (level + b) vs) = verdict c (measures c L S level vs) := by
    rw [verdict_measures, verdict_measures, hx]
    cases examine c L S level vs with
    | error e => rfl
    | ok o => cases o <;> rfl
  refine ⟨hv, ?_⟩
  intro hst
  rw [verdict_measures] at hst
  cases ho : examine c L S level vs with
  | error e => rw [ho] at hst; cases hst
  | ok o =>
    rw [ho] at hst
    cases o with
    | skipped => cases hst
    | discarded r => cases hst
    | stored e =>
      rw [ho] at hx
      have h1 := measures_points hne ho
      have h2 := measures_points hne hx
      unfold points at h1 h2
      rw [h1, h2, rows_shift]

theorem column_shift {name : String} (h : ¬ (name = "level" ∨ name = "maxima")) (b : ℝ) (row : Cols) :
    column name (shiftCols b row) = column name row := by
  unfold column shiftCols
  have : ((row.map fun p => (p.1, if p.1 = "level" ∨ p.1 = "maxima" then p.2.map (· + b) else p.2)).find? fun p => p.1 = name) =
      row.find? fun p => p.1 = name := by
    induction row with
    | nil => rfl
    | cons p row ih =>
      rw [List.map_cons, List.find?_cons, List.find?_cons, ih]
      by_cases hp : p.1 = name
      · simp only [hp, decide_true, h, if_false]
        rw [← hp]
      · simp only [hp, decide_false]
  rw [this]

theorem score_shift {name : String} (h : ¬ (name = "level" ∨ name = "maxima")) (b : ℝ) (row : Cols) :
    score name (shiftCols b row) = score name row := by
  unfold score shiftCols
  have : ((row.map fun p => (p.1, if p.1 = "level" ∨ p.1 = "maxima" then p.2.map (· + b) else p.2)).find? fun p => p.1 = name) =
      row.find? fun p => p.1 = name := by
    induction row with
    | nil => rfl
    | cons p row ih =>
      rw [List.map_cons, List.find?_cons, List.find?_cons, ih]
      by_cases hp : p.1 = name
      · simp only [hp, decide_true, h, if_false]
        rw [← hp]
      · simp only [hp, decide_false]
  rw [this]

theorem colsEnv_shift (prunes : Bool) (nn : List (ℝ × ℝ) → ℝ × ℝ → Nat) (b : ℝ) :
    SameEnv (shiftCols b) (colsEnv prunes nn) (colsEnv prunes nn) where
  prunes := rfl
  pos row := by
    simp only [colsEnv, realEnv]
    rw [column_shift (by decide), column_shift (by decide)]
  radius row := column_shift (by decide) b row
  ellErr row := score_shift (by decide) b row
  gauErr row := score_shift (by decide) b row
  dist := rfl
  nn := rfl

theorem pureSnapshot_shift {Pt : Type} {E E' : Env Cols ℝ Pt} {b : ℝ} (hE : SameEnv (shiftCols b) E E') {c : Criteria ℝ}
    (hc : c.skipGauss = true) (L : Libs) {S : Fields} (h : S.Ok) (hb : OneSign S b) {levels : List ℝ}
    (hl : ∀ l ∈ levels, l ≠ 0 ∧ l + b ≠ 0) :
    pureSnapshot E' c L (S.shift b) (levels.map (· + b)) = (pureSnapshot E c L S levels).map (Tbl.mapV (shiftCols b)) := by
  unfold pureSnapshot detectSnapshot
  have hf1 : levels.filter (· ≠ 0) = levels := List.filter_eq_self.2 fun l h => decide_eq_true (hl l h).1
  have hf2 : (levels.map (· + b)).filter (· ≠ 0) = levels.map (· + b) := List.filter_eq_self.2 fun l h => by
    obtain ⟨m, hm, rfl⟩ := List.mem_map.1 h
    exact decide_eq_true (hl m hm).2
  rw [hf1, hf2, List.foldlM_map]
  exact foldlM_mapV (F := levelStep E fun l => pureLevel c (levelMeasures c L S l))
    (G := fun x l => levelStep E' (fun l => pureLevel c (levelMeasures c L (S.shift b) l)) x (l + b)) (b := Tbl.mapV (shiftCols b))
    (fun x l => levelStep_mapV (K' := ℝ) hE.merge (pureLevel_mapV (levelMeasures_shift hc L h hb l)) x) levels ⟨[], []⟩

/-- **C91** for data of one sign: if all data are positive (or all negative) before and after the change and no level is zero, the
run with a constant added to data and levels gives the same eddies with the same identifiers, or raises the same exception; only
the columns `level` and `maxima` differ, by the constant. -/
theorem C91_one_sign {b : ℝ} {prunes : Bool} {nn : List (ℝ × ℝ) → ℝ × ℝ → Nat} {c : Criteria ℝ} (hc : c.skipGauss = true) {L : Libs}
    {field : Int → Fields} {levels : List ℝ} {t0 : Int} {tf : Option Int} {T : Nat} {ntimes : Int} {online : Bool} {regs : Regs Cols}
    (h : ∀ t ∈ trackTimes t0 tf T, (field t).Ok ∧ OneSign (field t) b) (hl : ∀ l ∈ levels, l ≠ 0 ∧ l + b ≠ 0) (hr : StoreEmpty regs) :
    (trackFields (colsEnv prunes nn) c L (fun t => (field t).shift b) (levels.map (· + b)) t0 tf T ntimes online regs).2 =
      (trackFields (colsEnv prunes nn) c L field levels t0 tf T ntimes online regs).2.map (LoopState.mapV (shiftCols b)) := by
  have hs : ∀ t ∈ trackTimes t0 tf T, ((field t).shift b).Ok := fun t ht => ⟨(h t ht).1.1, (h t ht).1.2.1, by simp⟩
  rw [(trackFields_pure _ c L hs hr).1, (trackFields_pure _ c L (fun t ht => (h t ht).1) hr).1]
  exact timeTracking_mapV (colsEnv_shift prunes nn b)
    (fun t ht => pureSnapshot_shift (colsEnv_shift prunes nn b) hc L (h t ht).1 (h t ht).2 hl) ntimes online

/-- a field for which the hypotheses hold, with contour lines -/
example : OneSign (exField.shift 1) 2 ∧ (exField.shift 1).Ok ∧ contourList exLibs (exField.shift 1) (1 / 2 + 1) = [exPts.map some] := by
  refine ⟨Or.inl ?_, ⟨exField_ok.1, exField_ok.2.1, by simp⟩, ?_⟩
  · intro r c v hv
    simp only [Fields.shift, exField] at hv
    split_ifs at hv <;> simp at hv <;> subst hv <;> norm_num
  · rw [contourList_shift exLibs exField_ok, exField_contours]

end Trackeddy
