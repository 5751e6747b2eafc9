import Verif.Model.Pipeline
import Verif.Props.EddyTable
import Verif.Props.Level

/-! The detection of a level is that of Model/Level.lean, with the quantities of the contours filled in. -/
namespace Trackeddy
open Spec
open Cntr (Vertex)

/-- the data of a stored eddy -/
def EddyObj.data (e : EddyObj) : EddyData (Option ℝ) where
  contour := e.contour.map fun p => (some p.1, some p.2)
  level := some e.level
  area := some e.area
  radius := some e.radius
  ellipseA := some e.ellipse.1
  ellipseB := some e.ellipse.2.1
  ellipseTheta := e.ellipse.2.2
  ellipseError := e.ellipseError
  eccentricity := e.eccen
  centerX := some e.center.1
  centerY := some e.center.2
  sign := some e.sign
  maximum := some e.maxima.1
  maximumY := some e.maxima.2.1
  maximumX := some e.maxima.2.2
  gauss := match e.gauss with
    | none => .inl none
    | some q => .inr (some q.1, some q.2.1, some q.2.2.1, some q.2.2.2.1, some q.2.2.2.2)
  gaussError := e.gaussError

theorem EddyObj.holds (e : EddyObj) : Holds e.attr e.data := by
  refine ⟨⟨?_, ?_⟩, ⟨rfl, ?_⟩, ⟨rfl, ?_⟩, ⟨rfl, ?_⟩, ⟨rfl, ?_⟩, ⟨rfl, ?_⟩, ⟨rfl, ?_⟩, ⟨rfl, ?_⟩, ⟨rfl, ?_⟩,
    ⟨rfl, ?_⟩, ?_, ⟨rfl, ?_⟩⟩
  case refine_2 => simp [EddyObj.attr, EddyObj.data, List.flatMap_map]
  case refine_12 =>
    unfold EddyObj.attr EddyObj.data
    cases e.gauss with
    | none => exact ⟨rfl, by simp [NdArr.scalar]⟩
    | some q => exact ⟨rfl, rfl⟩
  all_goals simp [EddyObj.attr, EddyObj.data, NdArr.scalar]

/-- the rows of a stored eddy -/
def EddyObj.rows (e : EddyObj) : List Cols :=
  e.data.contour.map fun p => (columns e.data none p).filter fun q => q.1 ≠ "identifier"

theorem columns_filter (d : EddyData (Option ℝ)) (id id' : Option ℝ) (p : Option ℝ × Option ℝ) :
    (columns d id p).filter (fun q => q.1 ≠ "identifier") = (columns d id' p).filter fun q => q.1 ≠ "identifier" := by
  unfold columns
  simp

theorem storeEddy_ok {e : EddyObj} (h : 2 ≤ e.contour.length) (r : Regs Cols) :
    storeEddy r e = .ok { r with sCalls := r.sCalls + 1, sTable := r.sTable ++ [(r.sCalls, e.rows)] } := by
  unfold storeEddy
  rw [C50_store_table e.holds (by simpa [EddyObj.data] using h)]
  simp only [bind, Except.bind, pure, Except.pure]
  congr 5
  unfold EddyObj.rows
  apply List.ext_getElem?
  intro i
  simp only [List.getElem?_map, List.getElem?_mapIdx, Option.map_map]
  cases e.data.contour[i]? with
  | none => rfl
  | some p => simp only [Option.map_some, Function.comp_apply, columns_filter _ (some (r.sCalls : ℝ)) none]

/-! ### the quantities of a contour -/

/-- the rows stored for an outcome -/
def outcomeRows : Except PyErr Outcome → List Cols
  | .ok (.stored e) => e.rows
  | _ => []

/-- What is computed of a contour. NaN compared with a threshold is replaced by the threshold; where NaN makes the areas differ
they are replaced by 1 and 0. -/
noncomputable def measuresPts (c : Criteria ℝ) (L : Libs) (S : Fields) (level : ℝ) (pts : List (ℝ × ℝ)) :
    Measures Cols ℝ := open Classical in
  { degenerate := false
    radius := .ok (Real.sqrt (areaPolygon pts / Real.pi))
    area := if FiniteEllipse pts then areaPolygon pts else 1
    rd := approxRD (meanPt pts).2
    areaEllipse := do
      let fit ← fitEllipse pts
      return if FiniteEllipse pts then areaPolygon fit.1 else 0
    eccen := do
      let fit ← fitEllipse pts
      return (eccentricity fit.2.1 fit.2.2.1).getD c.eccen
    ellSim := do
      let fit ← fitEllipse pts
      let sim ← liftFr (similarity L.limit pts fit.1)
      return sim.getD c.ellipseFit
    maxima := do
      let i ← dataInContour L S pts
      return i.ext.maxima
    gauss := do
      let fit ← fitEllipse pts
      let i ← dataInContour L S pts
      let surf ← fitSurface L S i fit.2
      let gs ← contoursOf L (cut i.window S.X) (cut i.window S.Y) surf.1 level
      if gs = [] then return none
      let gsim ← match allPoints gs.flatten with
        | some gpts => liftFr (similarity L.limit pts gpts)
        | none => .error .valueError
      return some (gsim.getD c.gaussFit)
    row0 := (outcomeRows (examinePoints c L S level pts)).headD []
    rows := (outcomeRows (examinePoints c L S level pts)).tail }

/-- the same for any contour -/
noncomputable def measures (c : Criteria ℝ) (L : Libs) (S : Fields) (level : ℝ) (vs : List (Vertex ℝ)) :
    Measures Cols ℝ :=
  if Cntr.skipsContour vs then ⟨true, .ok 0, 1, 0, .ok 0, .ok 0, .ok 0, .ok 0, .ok none, [], []⟩
  else match allPoints vs with
    | none => ⟨false, .ok 0, 1, 0, .ok 0, .ok 0, .ok 0, .ok 0, .ok none, [], []⟩
    | some pts => measuresPts c L S level pts

/-- the kind of an outcome -/
def Outcome.kind : Outcome → Verdict
  | .skipped => .skipped
  | .discarded r => .discarded r
  | .stored _ => .stored

theorem gtNan_getD (x : Option ℝ) (t : ℝ) : (x.getD t > t) ↔ gtNan x t := by
  unfold gtNan
  cases x <;> simp

theorem ltNan_getD (x : Option ℝ) (t : ℝ) : (x.getD t < t) ↔ ltNan x t := by
  unfold ltNan
  cases x <;> simp

theorem isclose_one_zero (r : ℝ) : isclose (1 : ℝ) 0 r = false := by
  unfold isclose
  simp
  norm_num

theorem verdict_measuresPts (c : Criteria ℝ) (L : Libs) (S : Fields) (level : ℝ) (pts : List (ℝ × ℝ)) :
    verdict c (measuresPts c L S level pts) = (examinePoints c L S level pts).map Outcome.kind := by
  classical
  unfold verdict examinePoints
  simp only [measuresPts, Bool.false_eq_true, if_false, bind, Except.bind, pure, Except.pure]
  by_cases h1 : Real.sqrt (areaPolygon pts / Real.pi) > c.maxArea * approxRD (meanPt pts).2
  · simp only [h1, if_true]; rfl
  simp only [h1, if_false]
  cases hf : fitEllipse pts with
  | error e => rfl
  | ok fit =>
  by_cases hfin : FiniteEllipse pts
  swap
  · simp only [hfin, if_false, isclose_one_zero, Bool.not_false, if_true, false_and, not_false_eq_true]; rfl
  simp only [hfin, if_true, true_and]
  cases hic : isclose (areaPolygon pts) (areaPolygon fit.1) (1 / 10 * c.ellipseFit) with
  | false => simp only [Bool.not_false, if_true, Bool.false_eq_true, not_false_eq_true]; rfl
  | true =>
  simp only [Bool.not_true, Bool.false_eq_true, if_false, not_true_eq_false, gtNan_getD]
  by_cases h2 : gtNan (eccentricity fit.2.1 fit.2.2.1) c.eccen
  · simp only [h2, if_true]; rfl
  simp only [h2, if_false]
  cases hs : liftFr (similarity L.limit pts fit.1) with
  | error e => rfl
  | ok sim =>
  simp only [gtNan_getD]
  by_cases h3 : gtNan sim c.ellipseFit
  · simp only [h3, if_true]; rfl
  simp only [h3, if_false]
  cases hd : dataInContour L S pts with
  | error e => rfl
  | ok i =>
  simp only
  by_cases h4 : i.ext.maxima = 0
  · simp only [h4, if_true]; rfl
  simp only [h4, if_false]
  by_cases h5 : c.skipGauss = true
  · simp only [h5, if_true]; rfl
  simp only [h5, if_false]
  cases hsf : fitSurface L S i fit.2 with
  | error e => rfl
  | ok surf =>
  simp only
  cases hg : contoursOf L (cut i.window S.X) (cut i.window S.Y) surf.1 level with
  | error e => rfl
  | ok gs =>
  simp only
  by_cases h6 : gs = []
  · simp only [h6, if_true]; rfl
  simp only [h6, if_false]
  cases hp : allPoints gs.flatten with
  | none => rfl
  | some gpts =>
  simp only
  cases hl : liftFr (similarity L.limit pts gpts) with
  | error e => rfl
  | ok gsim =>
  simp only [ltNan_getD]
  by_cases h7 : ltNan gsim c.gaussFit
  · simp only [h7, if_true]; rfl
  · simp only [h7, if_false]; rfl

theorem verdict_measures (c : Criteria ℝ) (L : Libs) (S : Fields) (level : ℝ) (vs : List (Vertex ℝ)) :
    verdict c (measures c L S level vs) = (examine c L S level vs).map Outcome.kind := by
  unfold measures examine
  by_cases h : Cntr.skipsContour vs = true
  · simp only [h, if_true]; rfl
  simp only [h, if_false]
  cases allPoints vs with
  | none => simp [verdict, Except.map, Outcome.kind, bind, Except.bind, isclose_one_zero, pure, Except.pure]
  | some pts => exact verdict_measuresPts c L S level _

/-! ### the contour of a stored eddy -/

theorem allPoints_eq {vs : List (Vertex ℝ)} {pts : List (ℝ × ℝ)} : allPoints vs = some pts ↔ vs = pts.map some := by
  induction vs generalizing pts with
  | nil => cases pts <;> simp [allPoints]
  | cons v vs ih =>
    cases v with
    | none => cases pts <;> simp [allPoints]
    | some p =>
      simp only [allPoints, Option.map_eq_some_iff]
      constructor
      · rintro ⟨l, hl, rfl⟩
        rw [ih] at hl
        simp [hl]
      · intro h
        cases pts with
        | nil => simp at h
        | cons q l =>
          simp only [List.map_cons, List.cons.injEq, Option.some.injEq] at h
          exact ⟨l, ih.2 h.2, by rw [h.1]⟩

/-- a contour that is not skipped has two vertices -/
theorem two_of_not_skips {pts : List (ℝ × ℝ)} (hne : pts ≠ []) (h : Cntr.skipsContour (pts.map some) = false) :
    2 ≤ pts.length := by
  match pts, hne, h with
  | [p], _, h =>
    exfalso
    simp [Cntr.skipsContour, Cntr.meanOf, Cntr.closeNan] at h
    have h1 : (0 : ℝ) ≤ 1 / 100000000 + 1 / 100000 * |p.1| := by positivity
    have h2 : (0 : ℝ) ≤ 1 / 100000000 + 1 / 100000 * |p.2| := by positivity
    norm_num at h h1 h2
    linarith [h (by linarith)]
  | _ :: _ :: _, _, _ => simp

/-- what is known of a stored eddy -/
structure StoredAs (c : Criteria ℝ) (L : Libs) (S : Fields) (level : ℝ) (pts : List (ℝ × ℝ)) (e : EddyObj)
    (curve : List (ℝ × ℝ)) (i : InContour) : Prop where
  contour : e.contour = pts
  lev : e.level = level
  area : e.area = areaPolygon pts
  radius : e.radius = Real.sqrt (areaPolygon pts / Real.pi)
  center : e.center = meanPt pts
  size : e.radius ≤ c.maxArea * approxRD (meanPt pts).2
  fit : fitEllipse pts = .ok (curve, e.ellipse)
  finite : FiniteEllipse pts
  areas : isclose (areaPolygon pts) (areaPolygon curve) (1 / 10 * c.ellipseFit) = true
  eccen : e.eccen = eccentricity e.ellipse.1 e.ellipse.2.1
  eccen_le : ¬ gtNan e.eccen c.eccen
  sim : liftFr (similarity L.limit pts curve) = .ok e.ellipseError
  sim_le : ¬ gtNan e.ellipseError c.ellipseFit
  data : dataInContour L S pts = .ok i
  sign : e.sign = i.ext.sign
  maxima : e.maxima = maximaOf S i
  maxima_ne : i.ext.maxima ≠ 0
  gauss : c.skipGauss = true ∧ e.gauss = none ∧ e.gaussError = some 0 ∨
    c.skipGauss = false ∧ ∃ surf gs gpts, fitSurface L S i e.ellipse = .ok surf ∧ e.gauss = some surf.2 ∧
      contoursOf L (cut i.window S.X) (cut i.window S.Y) surf.1 level = .ok gs ∧ gs ≠ [] ∧
      allPoints gs.flatten = some gpts ∧ liftFr (similarity L.limit pts gpts) = .ok e.gaussError ∧
      ¬ ltNan e.gaussError c.gaussFit

theorem examinePoints_stored {c : Criteria ℝ} {L : Libs} {S : Fields} {level : ℝ} {pts : List (ℝ × ℝ)} {e : EddyObj} :
    examinePoints c L S level pts = .ok (.stored e) ↔ ∃ curve i, StoredAs c L S level pts e curve i := by
  classical
  constructor
  · intro h
    unfold examinePoints at h
    simp only [bind, Except.bind, pure, Except.pure] at h
    by_cases h1 : Real.sqrt (areaPolygon pts / Real.pi) > c.maxArea * approxRD (meanPt pts).2
    · simp only [h1, if_true] at h; cases h
    simp only [h1, if_false] at h
    cases hf : fitEllipse pts with
    | error e => simp only [hf] at h; cases h
    | ok fit =>
    simp only [hf] at h
    by_cases hfin : FiniteEllipse pts ∧ isclose (areaPolygon pts) (areaPolygon fit.1) (1 / 10 * c.ellipseFit) = true
    swap
    · simp only [hfin, not_false_eq_true, if_true] at h; cases h
    simp only [hfin, not_true_eq_false, if_false, and_self] at h
    by_cases h2 : gtNan (eccentricity fit.2.1 fit.2.2.1) c.eccen
    · simp only [h2, if_true] at h; cases h
    simp only [h2, if_false] at h
    cases hs : liftFr (similarity L.limit pts fit.1) with
    | error e => simp only [hs] at h; cases h
    | ok sim =>
    simp only [hs] at h
    by_cases h3 : gtNan sim c.ellipseFit
    · simp only [h3, if_true] at h; cases h
    simp only [h3, if_false] at h
    cases hd : dataInContour L S pts with
    | error e => simp only [hd] at h; cases h
    | ok i =>
    simp only [hd] at h
    by_cases h4 : i.ext.maxima = 0
    · simp only [h4, if_true] at h; cases h
    simp only [h4, if_false] at h
    cases h5 : c.skipGauss with
    | true =>
      simp only [h5, if_true] at h
      injection h with h
      injection h with h
      subst h
      exact ⟨fit.1, i, rfl, rfl, rfl, rfl, rfl, not_lt.1 h1, hf, hfin.1, hfin.2, rfl, h2, hs, h3, hd, rfl, rfl, h4,
        Or.inl ⟨h5, rfl, rfl⟩⟩
    | false =>
    simp only [h5, Bool.false_eq_true, if_false] at h
    cases hsf : fitSurface L S i fit.2 with
    | error e => simp only [hsf] at h; cases h
    | ok surf =>
    simp only [hsf] at h
    cases hg : contoursOf L (cut i.window S.X) (cut i.window S.Y) surf.1 level with
    | error e => simp only [hg] at h; cases h
    | ok gs =>
    simp only [hg] at h
    by_cases h6 : gs = []
    · simp only [h6, if_true] at h; cases h
    simp only [h6, if_false] at h
    cases hp : allPoints gs.flatten with
    | none => simp only [hp] at h; cases h
    | some gpts =>
    simp only [hp] at h
    cases hl : liftFr (similarity L.limit pts gpts) with
    | error e => simp only [hl] at h; cases h
    | ok gsim =>
    simp only [hl] at h
    by_cases h7 : ltNan gsim c.gaussFit
    · simp only [h7, if_true] at h; cases h
    simp only [h7, if_false] at h
    injection h with h
    injection h with h
    subst h
    exact ⟨fit.1, i, rfl, rfl, rfl, rfl, rfl, not_lt.1 h1, hf, hfin.1, hfin.2, rfl, h2, hs, h3, hd, rfl, rfl, h4,
      Or.inr ⟨h5, surf, gs, gpts, hsf, rfl, hg, h6, hp, hl, h7⟩⟩
  · rintro ⟨curve, i, h⟩
    obtain ⟨eco, ele, ear, era, eel, esi, eec, ece, esg, emx, ega, ege⟩ := e
    obtain ⟨q1, q2, q3, q4, q5, q6, q7, q8, q9, q10, q11, q12, q13, q14, q15, q16, q17, q18⟩ := h
    simp only at q1 q2 q3 q4 q5 q6 q7 q8 q9 q10 q11 q12 q13 q14 q15 q16 q17 q18
    subst q1 q2 q3 q4 q5 q10 q15 q16
    unfold examinePoints
    simp only [bind, Except.bind, pure, Except.pure, gt_iff_lt, not_lt.2 q6, if_false, q7, q8, q9, and_self,
      not_true_eq_false, q11, q12, q13, q14, q17]
    rcases q18 with ⟨a1, rfl, rfl⟩ | ⟨a1, surf, gs, gpts, a2, rfl, a4, a5, a6, a7, a8⟩
    · simp only [a1, if_true]
    · simp only [a1, Bool.false_eq_true, if_false, a2, a4, a5, a6, a7, a8]

theorem examine_stored {c : Criteria ℝ} {L : Libs} {S : Fields} {level : ℝ} {vs : List (Vertex ℝ)} {e : EddyObj} :
    examine c L S level vs = .ok (.stored e) ↔ Cntr.skipsContour vs = false ∧ vs = e.contour.map some ∧
      ∃ curve i, StoredAs c L S level e.contour e curve i := by
  unfold examine
  cases hs : Cntr.skipsContour vs with
  | true => simp
  | false =>
    simp only [Bool.false_eq_true, if_false, true_and]
    cases hp : allPoints vs with
    | none =>
      simp only [reduceCtorEq, Except.ok.injEq, false_iff, not_and]
      intro h
      rw [allPoints_eq.2 h] at hp
      cases hp
    | some pts =>
      simp only
      rw [examinePoints_stored]
      rw [allPoints_eq] at hp
      constructor
      · rintro ⟨curve, i, h⟩
        have := h.contour
        subst this
        exact ⟨hp, curve, i, h⟩
      · rintro ⟨h1, curve, i, h⟩
        have : pts = e.contour := by
          have := hp.symm.trans h1
          exact (List.map_injective_iff.2 (Option.some_injective _)) this
        subst this
        exact ⟨curve, i, h⟩

theorem skips_nil : Cntr.skipsContour ([] : List (Vertex ℝ)) = false := rfl

/-! ### the loop -/

theorem storedAs_two {c : Criteria ℝ} {L : Libs} {S : Fields} {level : ℝ} {vs : List (Vertex ℝ)} {e : EddyObj}
    (hne : vs ≠ []) (h : examine c L S level vs = .ok (.stored e)) : 2 ≤ e.contour.length := by
  obtain ⟨h1, h2, _⟩ := examine_stored.1 h
  subst h2
  exact two_of_not_skips (by simpa using hne) h1

theorem measures_points {c : Criteria ℝ} {L : Libs} {S : Fields} {level : ℝ} {vs : List (Vertex ℝ)} {e : EddyObj}
    (hne : vs ≠ []) (h : examine c L S level vs = .ok (.stored e)) : points (measures c L S level vs) = e.rows := by
  have h2 := storedAs_two hne h
  obtain ⟨h1, h3, curve, i, h4⟩ := examine_stored.1 h
  have h5 := examinePoints_stored.2 ⟨curve, i, h4⟩
  unfold measures
  rw [h1, allPoints_eq.2 h3]
  simp only [Bool.false_eq_true, if_false, points, measuresPts, h5, outcomeRows]
  cases hr : e.rows with
  | nil =>
    have : e.rows.length = e.contour.length := by simp [EddyObj.rows, EddyObj.data]
    rw [hr] at this
    simp only [List.length_nil] at this
    omega
  | cons a l => rfl

theorem outcomeStep_eq (c : Criteria ℝ) (L : Libs) (S : Fields) (level : ℝ) {vs : List (Vertex ℝ)} (hne : vs ≠ [])
    (st : Regs Cols × Locals Cols) :
    outcomeStep st (examine c L S level vs) = contourStep c st (measures c L S level vs) := by
  unfold outcomeStep contourStep
  rw [verdict_measures]
  cases h : examine c L S level vs with
  | error e => rfl
  | ok o =>
    cases o with
    | skipped => rfl
    | discarded r => rfl
    | stored e =>
      simp only [storeEddy_ok (storedAs_two hne h), Except.map, Outcome.kind]
      rw [← measures_points hne h]
      rfl

theorem examineLoop_eq (c : Criteria ℝ) (L : Libs) (S : Fields) (level : ℝ) {cs : List (List (Vertex ℝ))}
    (hne : ∀ vs ∈ cs, vs ≠ []) (st : Regs Cols × Locals Cols) :
    examineLoop (examine c L S level) cs st = contourLoop c (cs.map (measures c L S level)) st := by
  induction cs generalizing st with
  | nil => rfl
  | cons vs cs ih =>
    unfold examineLoop
    rw [List.map_cons]
    unfold contourLoop
    rw [outcomeStep_eq c L S level (hne vs List.mem_cons_self)]
    cases contourStep c st (measures c L S level vs) with
    | mk r x =>
      cases x with
      | error e => rfl
      | ok l => exact ih (fun v hv => hne v (List.mem_cons_of_mem _ hv)) _

theorem detectLevel_eq {c : Criteria ℝ} {L : Libs} {S : Fields} {level : ℝ} {cs : List (List (Vertex ℝ))}
    (h : contoursOf L S.X S.Y S.data level = .ok cs) (hne : ∀ vs ∈ cs, vs ≠ []) (regs : Regs Cols) :
    detectLevel c L S regs level = detectOneLevel c regs (cs.map (measures c L S level)) := by
  unfold detectLevel detectOneLevel
  rw [h]
  simp only [examineLoop_eq c L S level hne]
  cases contourLoop c (cs.map (measures c L S level)) (regs, ⟨none, none⟩) with
  | mk r x =>
    cases x with
    | error e => rfl
    | ok l =>
      simp only
      cases l.info <;> rfl

end Trackeddy
