import Verif.Proofs.Natural
import Verif.Proofs.Detect
import Verif.Props.ContourSym

/-! The detection under a change of the unit of the data. -/
namespace Trackeddy
open Spec
open Cntr (Vertex SameShape arrGrid)

/-- the data in another unit -/
def Fields.scale (a : ℝ) (S : Fields) : Fields := ⟨S.X, S.Y, ⟨S.data.rows, S.data.cols, fun r c => (S.data.get r c).map (a * ·)⟩⟩

/-- the columns of the table that have the unit of the data -/
def unitCols (a : ℝ) (row : Cols) : Cols :=
  row.map fun p => (p.1, if p.1 = "level" ∨ p.1 = "maxima" then p.2.map (a * ·) else p.2)

/-- a fit problem in another unit -/
def FitProblem.scale (a : ℝ) (P : FitProblem) : FitProblem :=
  ⟨P.X, P.Y, ⟨P.data.rows, P.data.cols, fun r c => (P.data.get r c).map (a * ·)⟩, a * P.amplitude, P.guess⟩

/-! ### contours -/

theorem contoursOf_scale (L : Libs) {X Y : Cntr.NdArr ℝ} {Z : Cntr.NdArr (Option ℝ)} (h : SameShape X Y Z none) {a : ℝ} (ha : 0 < a)
    (level : ℝ) :
    contoursOf L X Y ⟨Z.rows, Z.cols, fun r c => (Z.get r c).map (a * ·)⟩ (a * level) = contoursOf L X Y Z level := by
  have key := Cntr.C80_affine_data h level ha 0 (L.mem ⟨Z.rows, Z.cols, fun r c => (Z.get r c).map (a * ·)⟩ (a * level))
    (L.mem Z level) (fuel := 4 * (Z.cols * Z.rows) + 2) (fuel' := 4 * (Z.cols * Z.rows) + 2) le_rfl le_rfl
  have e1 : Cntr.NdArr.affine a 0 Z = ⟨Z.rows, Z.cols, fun r c => (Z.get r c).map (a * ·)⟩ := by
    unfold Cntr.NdArr.affine
    congr 1
    funext r c
    simp
  rw [e1, add_zero] at key
  unfold contoursOf
  simp only
  rw [key]

theorem Fields.Ok.scale {S : Fields} (h : S.Ok) (a : ℝ) : (S.scale a).Ok := ⟨h.1, h.2.1, by simp⟩

theorem contourList_scale (L : Libs) {S : Fields} (h : S.Ok) {a : ℝ} (ha : 0 < a) (level : ℝ) :
    contourList L (S.scale a) (a * level) = contourList L S level := by
  unfold contourList
  have : contoursOf L (S.scale a).X (S.scale a).Y (S.scale a).data (a * level) = contoursOf L S.X S.Y S.data level :=
    contoursOf_scale L h ha level
  rw [this]

/-! ### extremum -/

theorem sgn_scale {a : ℝ} (ha : 0 < a) (x : ℝ) : sgn (a * x) = sgn x := by
  unfold sgn
  have h1 : 0 < a * x ↔ 0 < x := by rw [mul_pos_iff_of_pos_left ha]
  have h2 : a * x < 0 ↔ x < 0 := by
    constructor
    · intro h; by_contra hx; push Not at hx; nlinarith
    · intro h; nlinarith
  simp only [h1, h2]

theorem foldl_max_scale {a : ℝ} (ha : 0 < a) (l : List ℝ) (x : ℝ) : (l.map (a * ·)).foldl max (a * x) = a * l.foldl max x := by
  induction l generalizing x with
  | nil => rfl
  | cons y l ih =>
    rw [List.map_cons, List.foldl_cons, List.foldl_cons, ← ih, mul_max_of_nonneg _ _ ha.le]

theorem nanArgmax_scale {a : ℝ} (ha : 0 < a) (l : List (Option ℝ)) : nanArgmax (l.map (Option.map (a * ·))) = nanArgmax l := by
  unfold nanArgmax
  rw [List.findIdx_map]
  congr 1
  funext o
  cases o with
  | none => rfl
  | some x =>
    simp only [Function.comp_apply, Option.map_some, List.all_map]
    congr 1
    funext o'
    cases o' with
    | none => rfl
    | some y => simp [mul_le_mul_iff_right₀ ha]

theorem maskData_scale {a : ℝ} (ha : 0 < a) (h w : Nat) (data : Nat → Nat → Option ℝ) (inside : Nat → Nat → Bool) :
    maskData h w (fun r c => (data r c).map (a * ·)) inside =
      (maskData h w data inside).map fun e => ⟨e.sign, a * e.maxima, e.row, e.col⟩ := by
  have hflat : flatInside h w (fun r c => (data r c).map (a * ·)) inside = (flatInside h w data inside).map (Option.map (a * ·)) := by
    unfold flatInside
    rw [List.map_flatMap]
    congr 1
    funext r
    rw [List.map_map]
    congr 1
    funext c
    simp only [Function.comp_apply]
    split <;> rfl
  unfold maskData
  simp only [hflat]
  generalize flatInside h w data inside = flat
  have hf : (flat.map (Option.map (a * ·))).filterMap id = (flat.filterMap id).map (a * ·) := by
    rw [List.filterMap_map, List.map_filterMap]
    congr 1
  rw [hf]
  cases flat.filterMap id with
  | nil => rfl
  | cons v vs =>
    simp only [List.map_cons, Except.map]
    have hs : (a * v :: vs.map (a * ·)).sum = a * (v :: vs).sum := by
      rw [← List.map_cons (f := (a * ·)), List.sum_map_mul_left, List.map_id']
    have hl : (a * v :: vs.map (a * ·)).length = (v :: vs).length := by simp
    rw [hs, hl, mul_div_assoc, sgn_scale ha]
    generalize sgn ((v :: vs).sum / ((v :: vs).length : ℝ)) = s
    have h1 : (vs.map (a * ·)).map (s * ·) = (vs.map (s * ·)).map (a * ·) := by
      rw [List.map_map, List.map_map]
      congr 1
      funext x
      simp only [Function.comp_apply]
      ring
    have h2 : (flat.map (Option.map (a * ·))).map (Option.map (s * ·)) = (flat.map (Option.map (s * ·))).map (Option.map (a * ·)) := by
      rw [List.map_map, List.map_map]
      congr 1
      funext o
      simp only [Function.comp_apply, Option.map_map]
      congr 1
      funext x
      simp only [Function.comp_apply]
      ring
    rw [h1, h2, nanArgmax_scale ha, show s * (a * v) = a * (s * v) by ring, foldl_max_scale ha]
    congr 2
    ring

/-- the data inside a contour in another unit -/
def InContour.scale (a : ℝ) (i : InContour) : InContour := ⟨i.window, ⟨i.ext.sign, a * i.ext.maxima, i.ext.row, i.ext.col⟩⟩

theorem inWindow_scale {a : ℝ} (ha : 0 < a) (S : Fields) (w : Window) :
    (if w.rel.all fun q => decide (0 ≤ q.1 ∧ q.1 < (cut w (S.scale a).data).rows ∧ 0 ≤ q.2 ∧ q.2 < (cut w (S.scale a).data).cols) then
      (maskDataInContour (cut w (S.scale a).data).rows (cut w (S.scale a).data).cols w.rel.toFinset (cut w (S.scale a).data).get).bind
        fun e => .ok ⟨w, e⟩
    else .error .indexError : Except PyErr InContour) =
    (if w.rel.all fun q => decide (0 ≤ q.1 ∧ q.1 < (cut w S.data).rows ∧ 0 ≤ q.2 ∧ q.2 < (cut w S.data).cols) then
      (maskDataInContour (cut w S.data).rows (cut w S.data).cols w.rel.toFinset (cut w S.data).get).bind
        fun e => .ok ⟨w, e⟩
    else .error .indexError : Except PyErr InContour).map (InContour.scale a) := by
  have h1 : (cut w (S.scale a).data).rows = (cut w S.data).rows := rfl
  have h2 : (cut w (S.scale a).data).cols = (cut w S.data).cols := rfl
  have h3 : (cut w (S.scale a).data).get = fun r c => ((cut w S.data).get r c).map (a * ·) := rfl
  rw [h1, h2, h3]
  unfold maskDataInContour
  rw [maskData_scale ha]
  by_cases hq : (w.rel.all fun q => decide (0 ≤ q.1 ∧ q.1 < (cut w S.data).rows ∧ 0 ≤ q.2 ∧ q.2 < (cut w S.data).cols)) = true
  · simp only [hq, if_true]
    generalize maskData (K := ℝ) _ _ _ _ = v
    cases v <;> rfl
  · simp only [hq]
    rfl

theorem dataInContour_scale {a : ℝ} (ha : 0 < a) (L : Libs) (S : Fields) (pts : List (ℝ × ℝ)) :
    dataInContour L (S.scale a) pts = (dataInContour L S pts).map (InContour.scale a) := by
  unfold dataInContour
  simp only [Fields.scale]
  by_cases hm : masked S.data.rows S.data.cols ((⟨S.data.rows, S.data.cols, S.X.get, S.Y.get⟩ : Grid ℝ).mask (meanPt pts)) = []
  · simp only [hm, if_true, bind, Except.bind]
    rfl
  simp only [hm, if_false, bind, Except.bind, pure, Except.pure]
  generalize List.mapM (m := Except PyErr) _ pts = u
  cases u with
  | error e => rfl
  | ok ind =>
    simp only
    cases List.map (fun p : ℕ × ℕ => ((p.1 : Int), (p.2 : Int))) ind with
    | nil => rfl
    | cons p ps =>
      have := inWindow_scale ha S (getWindow S.data.rows S.data.cols p ps .auto)
      simp only [Fields.scale, cut, Except.bind] at this ⊢
      exact this

theorem maximaOf_scale (a : ℝ) (S : Fields) (i : InContour) :
    maximaOf (S.scale a) (i.scale a) = (a * (maximaOf S i).1, (maximaOf S i).2) := rfl

/-- the least squares solver gives the same parameters in another unit -/
def Libs.ScaleFree (L : Libs) (a : ℝ) : Prop := ∀ P, L.leastSquares (P.scale a) = L.leastSquares P

theorem maskedData_scale (a : ℝ) (S : Fields) (w : Window) :
    maskedData (S.scale a) w = ⟨(maskedData S w).rows, (maskedData S w).cols, fun r c => ((maskedData S w).get r c).map (a * ·)⟩ := by
  unfold maskedData
  simp only [cut, Fields.scale]
  congr 1
  funext r c
  by_cases hr : ((r : Int), (c : Int)) ∈ fillHoles (w.tr0 - w.bl0).toNat (w.tr1 - w.bl1).toNat w.rel.toFinset
  · simp only [hr, if_true]
  · simp only [hr, if_false, Option.map_none]

theorem gaussian_scale (a x y amp xo yo sx sy θ : ℝ) : gaussian x y (a * amp) xo yo sx sy θ = a * gaussian x y amp xo yo sx sy θ := by
  unfold gaussian
  ring

theorem fitSurface_scale {a : ℝ} {L : Libs} (hL : L.ScaleFree a) (S : Fields) (i : InContour) (prm : ℝ × ℝ × Option ℝ) :
    fitSurface L (S.scale a) (i.scale a) prm =
      (fitSurface L S i prm).map fun s => (⟨s.1.rows, s.1.cols, fun r c => (s.1.get r c).map (a * ·)⟩, s.2) := by
  unfold fitSurface
  cases prm.2.2 with
  | none => rfl
  | some θ =>
    simp only [maximaOf_scale, bind, Except.bind, pure, Except.pure]
    have := hL ⟨cut i.window S.X, cut i.window S.Y, maskedData S i.window, (maximaOf S i).1,
      ((maximaOf S i).2.2, (maximaOf S i).2.1, prm.1, prm.2.1, θ)⟩
    unfold FitProblem.scale at this
    simp only at this
    have hw : (i.scale a).window = i.window := rfl
    have hX : (S.scale a).X = S.X := rfl
    have hY : (S.scale a).Y = S.Y := rfl
    rw [hw, maskedData_scale, hX, hY, this]
    cases L.leastSquares _ with
    | error e => rfl
    | ok q => simp only [gaussian_scale, Except.map, Option.map_some]

/-! ### one contour -/

/-- an eddy in another unit -/
def EddyObj.scale (a : ℝ) (e : EddyObj) : EddyObj :=
  { e with level := a * e.level, maxima := (a * e.maxima.1, e.maxima.2) }

/-- an outcome in another unit -/
def Outcome.scale (a : ℝ) : Outcome → Outcome
  | .stored e => .stored (e.scale a)
  | o => o

theorem Outcome.kind_scale (a : ℝ) (o : Outcome) : (o.scale a).kind = o.kind := by cases o <;> rfl

theorem examinePoints_scale {a : ℝ} (ha : 0 < a) {c : Criteria ℝ} {L : Libs} (hc : c.skipGauss = true ∨ L.ScaleFree a) (S : Fields)
    (level : ℝ) (pts : List (ℝ × ℝ)) :
    examinePoints c L (S.scale a) (a * level) pts = (examinePoints c L S level pts).map (Outcome.scale a) := by
  classical
  unfold examinePoints
  simp only [bind, Except.bind, pure, Except.pure]
  by_cases h1 : Real.sqrt (areaPolygon pts / Real.pi) > c.maxArea * approxRD (meanPt pts).2
  · simp only [h1, if_true]; rfl
  simp only [h1, if_false]
  cases hf : fitEllipse pts with
  | error e => rfl
  | ok fit =>
  by_cases hfin : FiniteEllipse pts ∧ isclose (areaPolygon pts) (areaPolygon fit.1) (1 / 10 * c.ellipseFit) = true
  swap
  · simp only [hfin, not_false_eq_true, if_true]; rfl
  simp only [hfin, not_true_eq_false, if_false, and_self]
  by_cases h2 : gtNan (eccentricity fit.2.1 fit.2.2.1) c.eccen
  · simp only [h2, if_true]; rfl
  simp only [h2, if_false]
  cases hs : liftFr (similarity L.limit pts fit.1) with
  | error e => rfl
  | ok sim =>
  simp only
  by_cases h3 : gtNan sim c.ellipseFit
  · simp only [h3, if_true]; rfl
  simp only [h3, if_false, dataInContour_scale ha]
  cases hd : dataInContour L S pts with
  | error e => rfl
  | ok i =>
  have hmx : (i.scale a).ext.maxima = 0 ↔ i.ext.maxima = 0 := by
    simp [InContour.scale, ha.ne']
  simp only [Except.map, hmx]
  by_cases h4 : i.ext.maxima = 0
  · simp only [h4, if_true]; rfl
  simp only [h4, if_false, maximaOf_scale]
  cases h5 : c.skipGauss with
  | true => simp only [if_true]; rfl
  | false =>
  have hL : L.ScaleFree a := by
    rcases hc with hc | hc
    · rw [h5] at hc; cases hc
    · exact hc
  simp only [Bool.false_eq_true, if_false, fitSurface_scale hL]
  cases hsf : fitSurface L S i fit.2 with
  | error e => rfl
  | ok surf =>
  simp only [Except.map]
  have hsh : SameShape (cut i.window S.X) (cut i.window S.Y) surf.1 none := by
    unfold fitSurface at hsf
    cases ht : fit.2.2.2 with
    | none => rw [ht] at hsf; cases hsf
    | some θ =>
      rw [ht] at hsf
      simp only [bind, Except.bind, pure, Except.pure] at hsf
      cases hq : L.leastSquares ⟨cut i.window S.X, cut i.window S.Y, maskedData S i.window, (maximaOf S i).1,
        ((maximaOf S i).2.2, (maximaOf S i).2.1, fit.2.1, fit.2.2.1, θ)⟩ with
      | error e => simp only [hq] at hsf; cases hsf
      | ok q =>
        simp only [hq] at hsf
        injection hsf with hsf
        subst hsf
        exact ⟨rfl, rfl, by simp⟩
  have hg := contoursOf_scale L hsh ha level
  have hw : (i.scale a).window = i.window := rfl
  have hX : (S.scale a).X = S.X := rfl
  have hY : (S.scale a).Y = S.Y := rfl
  rw [hw, hX, hY, hg]
  cases contoursOf L (cut i.window S.X) (cut i.window S.Y) surf.1 level with
  | error e => rfl
  | ok gs =>
  simp only
  by_cases h6 : gs = []
  · simp only [h6, if_true]; rfl
  simp only [h6, if_false]
  cases hp : allPoints gs.flatten with
  | none => rfl
  | some gpts =>
  simp only
  cases hl : liftFr (similarity L.limit pts gpts) with
  | error e => rfl
  | ok gsim =>
  simp only
  by_cases h7 : ltNan gsim c.gaussFit
  · simp only [h7, if_true]; rfl
  · simp only [h7, if_false]; rfl

theorem examine_scale {a : ℝ} (ha : 0 < a) {c : Criteria ℝ} {L : Libs} (hc : c.skipGauss = true ∨ L.ScaleFree a) (S : Fields)
    (level : ℝ) (vs : List (Vertex ℝ)) :
    examine c L (S.scale a) (a * level) vs = (examine c L S level vs).map (Outcome.scale a) := by
  unfold examine
  split
  · rfl
  · cases allPoints vs with
    | none => rfl
    | some pts => exact examinePoints_scale ha hc S level pts

theorem rows_scale (a : ℝ) (e : EddyObj) : (e.scale a).rows = e.rows.map (unitCols a) := by
  unfold EddyObj.rows
  have hc : (e.scale a).data.contour = e.data.contour := rfl
  rw [hc, List.map_map]
  apply List.map_congr_left
  intro p _
  simp only [Function.comp_apply]
  unfold columns EddyObj.scale EddyObj.data unitCols
  cases e.gauss <;> simp

/-! ### one level -/

/-- registers with changed columns -/
def Regs.mapV {α β : Type} (f : α → β) (r : Regs α) : Regs β := ⟨r.sCalls, r.sTable.map fun e => (e.1, e.2.map f), r.dCalls, r.dTable⟩

/-- locals with changed columns -/
def Locals.mapV {α β : Type} (f : α → β) (l : Locals α) : Locals β := ⟨l.info.map fun t => t.map fun e => (e.1, e.2.map f), l.disc⟩

section
variable {α β K : Type} [Field K] [LinearOrder K]

/-- two contours with the same verdict whose rows differ by a change of the columns -/
def SameVerdict (f : α → β) (c : Criteria K) (m : Measures α K) (m' : Measures β K) : Prop :=
  verdict c m' = verdict c m ∧ (verdict c m = .ok .stored → m'.row0 :: m'.rows = (m.row0 :: m.rows).map f)

theorem contourLoop_mapV {f : α → β} {c : Criteria K} {ms : List (Measures α K)} {ms' : List (Measures β K)}
    (h : List.Forall₂ (SameVerdict f c) ms ms') (r : Regs α) (l : Locals α) :
    contourLoop c ms' (r.mapV f, l.mapV f) = ((contourLoop c ms (r, l)).1.mapV f, (contourLoop c ms (r, l)).2.map (Locals.mapV f)) := by
  induction h generalizing r l with
  | nil => rfl
  | @cons m m' ms ms' hm _ ih =>
    unfold contourLoop contourStep
    rw [hm.1]
    cases hv : verdict c m with
    | error e => rfl
    | ok v =>
      cases v with
      | skipped => exact ih r l
      | discarded d =>
        exact ih { r with dCalls := r.dCalls + 1, dTable := r.dTable ++ [(r.dCalls, d)] }
          { l with disc := some (r.dTable ++ [(r.dCalls, d)]) }
      | stored =>
        simp only
        rw [hm.2 hv, ← ih]
        simp only [Regs.mapV, Locals.mapV, List.map_append, List.map_cons, List.map_nil, Option.map_some]

theorem levelFrame_mapV (f : α → β) (t : List (Nat × List α)) :
    levelFrame (t.map fun e => (e.1, e.2.map f)) = (levelFrame t).mapV f := by
  unfold levelFrame
  rw [← resetSet_mapV]
  congr 1
  simp only [Tbl.mapV, List.flatMap_map, List.map_flatMap]
  congr 2
  funext e
  apply List.ext_getElem?
  intro j
  simp only [List.getElem?_mapIdx, List.getElem?_map, Option.map_map]
  rfl

theorem pureLevel_mapV {f : α → β} {c : Criteria K} {ms : List (Measures α K)} {ms' : List (Measures β K)}
    (h : List.Forall₂ (SameVerdict f c) ms ms') : pureLevel c ms' = (pureLevel c ms).map (Tbl.mapV f) := by
  unfold pureLevel detectOneLevel
  have := contourLoop_mapV h Regs.empty ⟨none, none⟩
  have e1 : (Regs.empty : Regs α).mapV f = Regs.empty := rfl
  have e2 : (⟨none, none⟩ : Locals α).mapV f = ⟨none, none⟩ := rfl
  rw [e1, e2] at this
  rw [this]
  cases contourLoop c ms (Regs.empty, ⟨none, none⟩) with
  | mk r x =>
    cases x with
    | error e => rfl
    | ok l =>
      simp only [Except.map]
      cases hl : l.info with
      | none => simp only [Locals.mapV, hl, Option.map_none]; rfl
      | some t =>
        simp only [Locals.mapV, hl, Option.map_some]
        rw [levelFrame_mapV]

end

theorem levelMeasures_scale {a : ℝ} (ha : 0 < a) {c : Criteria ℝ} {L : Libs} (hc : c.skipGauss = true ∨ L.ScaleFree a) {S : Fields}
    (h : S.Ok) (level : ℝ) :
    List.Forall₂ (SameVerdict (unitCols a) c) (levelMeasures c L S level) (levelMeasures c L (S.scale a) (a * level)) := by
  unfold levelMeasures
  rw [contourList_scale L h ha, List.forall₂_map_left_iff, List.forall₂_map_right_iff, List.forall₂_same]
  intro vs hvs
  have hne := contourList_ne L h level vs hvs
  have hx := examine_scale ha hc S level vs
  have hv : verdict c (measures c L (S.scale a) (a * level) vs) = verdict c (measures c L S level vs) := by
    rw [verdict_measures, verdict_measures, hx]
    cases examine c L S level vs with
    | error e => rfl
    | ok o => simp only [Except.map, Outcome.kind_scale]
  refine ⟨hv, ?_⟩
  intro hst
  rw [verdict_measures] at hst
  cases ho : examine c L S level vs with
  | error e => rw [ho] at hst; cases hst
  | ok o =>
    rw [ho] at hst
    cases o with
    | skipped => cases hst
    | discarded r => cases hst
    | stored e =>
      rw [ho] at hx
      have h1 := measures_points hne ho
      have h2 := measures_points hne hx
      unfold points at h1 h2
      rw [h1, h2, rows_scale]

/-! ### snapshots and times -/

theorem detectSnapshot_scale {Pt : Type} {E E' : Env Cols ℝ Pt} {a : ℝ} (ha : a ≠ 0) {f : Cols → Cols} (hE : SameEnv f E E')
    {detect detect' : ℝ → Except PyErr (Tbl Cols)} (hd : ∀ l, detect' (a * l) = (detect l).map (Tbl.mapV f)) (levels : List ℝ) :
    detectSnapshot E' detect' (levels.map (a * ·)) = (detectSnapshot E detect levels).map (Tbl.mapV f) := by
  unfold detectSnapshot
  have hfl : (levels.map (a * ·)).filter (· ≠ 0) = (levels.filter (· ≠ 0)).map (a * ·) := by
    rw [List.filter_map]
    congr 1
    apply List.filter_congr
    intro x _
    simp [ha]
  rw [hfl, List.foldlM_map]
  have := foldlM_mapV (F := levelStep E detect) (G := fun x l => levelStep E' detect' x (a * l)) (b := Tbl.mapV f)
    (fun x l => levelStep_mapV (K' := ℝ) hE.merge (hd l) x) (levels.filter (· ≠ 0)) ⟨[], []⟩
  exact this

theorem pureSnapshot_scale {Pt : Type} {E E' : Env Cols ℝ Pt} {a : ℝ} (ha : 0 < a) (hE : SameEnv (unitCols a) E E') {c : Criteria ℝ}
    {L : Libs} (hc : c.skipGauss = true ∨ L.ScaleFree a) {S : Fields} (h : S.Ok) (levels : List ℝ) :
    pureSnapshot E' c L (S.scale a) (levels.map (a * ·)) = (pureSnapshot E c L S levels).map (Tbl.mapV (unitCols a)) :=
  detectSnapshot_scale ha.ne' hE (fun l => pureLevel_mapV (levelMeasures_scale ha hc h l)) levels

theorem column_unit {name : String} (h : ¬ (name = "level" ∨ name = "maxima")) (a : ℝ) (row : Cols) :
    column name (unitCols a row) = column name row := by
  unfold column unitCols
  have : ((row.map fun p => (p.1, if p.1 = "level" ∨ p.1 = "maxima" then p.2.map (a * ·) else p.2)).find? fun p => p.1 = name) =
      row.find? fun p => p.1 = name := by
    induction row with
    | nil => rfl
    | cons p row ih =>
      rw [List.map_cons, List.find?_cons, List.find?_cons, ih]
      by_cases hp : p.1 = name
      · simp only [hp, decide_true, h, if_false]
        rw [← hp]
      · simp only [hp, decide_false]
  rw [this]

theorem score_unit {name : String} (h : ¬ (name = "level" ∨ name = "maxima")) (a : ℝ) (row : Cols) :
    score name (unitCols a row) = score name row := by
  unfold score unitCols
  have : ((row.map fun p => (p.1, if p.1 = "level" ∨ p.1 = "maxima" then p.2.map (a * ·) else p.2)).find? fun p => p.1 = name) =
      row.find? fun p => p.1 = name := by
    induction row with
    | nil => rfl
    | cons p row ih =>
      rw [List.map_cons, List.find?_cons, List.find?_cons, ih]
      by_cases hp : p.1 = name
      · simp only [hp, decide_true, h, if_false]
        rw [← hp]
      · simp only [hp, decide_false]
  rw [this]

theorem colsEnv_unit (prunes : Bool) (nn : List (ℝ × ℝ) → ℝ × ℝ → Nat) (a : ℝ) :
    SameEnv (unitCols a) (colsEnv prunes nn) (colsEnv prunes nn) where
  prunes := rfl
  pos row := by
    simp only [colsEnv, realEnv]
    rw [column_unit (by decide), column_unit (by decide)]
  radius row := column_unit (by decide) a row
  ellErr row := score_unit (by decide) a row
  gauErr row := score_unit (by decide) a row
  dist := rfl
  nn := rfl

end Trackeddy
