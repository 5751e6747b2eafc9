import Verif.Model.Level
import Verif.Model.Window
import Verif.Model.Mask
import Verif.Model.Contours
import Verif.Model.Ellipse
import Verif.Model.Area
import Verif.Model.Similarity
import Verif.Model.Gauss
import Verif.Model.EddyTable
import Verif.Model.Misc
import Verif.Model.Distance

/-!
The detection of eddies from gridded data to the returned table: `_detect_one_level` with what it computes of each
contour (trackeddy/trackeddy.py:275-395), `_data_in_contour` (trackeddy.py:397-473), `_detect_snapshot`
(trackeddy.py:226-264) and `time_tracking` (trackeddy.py:181-224), composed of the models of the functions they call.

Numbers are reals. NaN is `none`: missing data, the vertices of a contour next to missing data, an undefined angle or
eccentricity, `None` among the columns. The libraries scikit-learn (nearest grid points) and scipy (`least_squares`)
are parameters. The filters of the data are modelled in Model/Filter.lean, the fields here are filtered ones.
-/
namespace Trackeddy
open Cntr (Vertex)

/-- `self.X`, `self.Y`, `self.data2track` -/
structure Fields where
  X : Cntr.NdArr ℝ
  Y : Cntr.NdArr ℝ
  data : Cntr.NdArr (Option ℝ)

/-- what `least_squares` is given (geometry.py:106-119): window, data inside the contour, amplitude and initial guess -/
structure FitProblem where
  X : Cntr.NdArr ℝ
  Y : Cntr.NdArr ℝ
  data : Cntr.NdArr (Option ℝ)
  amplitude : ℝ
  guess : ℝ × ℝ × ℝ × ℝ × ℝ

/-- answers of the libraries -/
structure Libs where
  /-- stack frames available to `frdist` -/
  limit : Nat
  /-- what memory allocated for the tracer contains -/
  mem : Cntr.NdArr (Option ℝ) → ℝ → Cntr.Memory
  /-- `BallTree(coords).query(v, k=1)`, the position of a grid point among those near the centre (trackeddy.py:432-433) -/
  ballTree : Grid ℝ → ℝ × ℝ → ℝ × ℝ → Nat
  /-- `least_squares(...).x` (geometry.py:109-114) -/
  leastSquares : FitProblem → Except PyErr (ℝ × ℝ × ℝ × ℝ × ℝ)

/-- exceptions of `frdist` -/
def liftFr {β : Type} : Except Frechet.FrErr β → Except PyErr β
  | .ok v => .ok v
  | .error .recursionError => .error .recursionError
  | .error .indexError => .error .indexError

/-- the vertices of an array of vertices -/
def vertsOf {K : Type} : Cntr.Item K → Option (List (Vertex K))
  | .points v => some v
  | .codes _ => none

/-- `contours, _ = extract_contours(X, Y, data, level)` (trackeddy.py:282, 360). A memory fault or an endless loop of the
tracer, which C73 excludes, is `crash`. -/
noncomputable def contoursOf (L : Libs) (X Y : Cntr.NdArr ℝ) (Z : Cntr.NdArr (Option ℝ)) (level : ℝ) :
    Except PyErr (List (List (Vertex ℝ))) :=
  match Cntr.extractContours X Y Z level (4 * (Z.cols * Z.rows) + 2) (L.mem Z level) with
  | .ok (segs, _) => .ok (segs.filterMap vertsOf)
  | .error .valueError => .error .valueError
  | .error (.crash _) => .error .crash

/-- all vertices, if none is missing -/
def allPoints : List (Vertex ℝ) → Option (List (ℝ × ℝ))
  | [] => some []
  | none :: _ => none
  | some p :: vs => (allPoints vs).map (p :: ·)

/-! ### the data inside a contour -/

/-- `a[BL[0]:TR[0], BL[1]:TR[1]]` (trackeddy.py:506-515) -/
def cut {β : Type} (w : Window) (a : Cntr.NdArr β) : Cntr.NdArr β :=
  ⟨(w.tr0 - w.bl0).toNat, (w.tr1 - w.bl1).toNat, fun r c => a.get (w.bl0.toNat + r) (w.bl1.toNat + c)⟩

/-- the attributes `_data_in_contour` sets and what it returns -/
structure InContour where
  window : Window
  ext : Extremum ℝ

/-- `_data_in_contour` (trackeddy.py:397-473). The ball tree of no points raises `ValueError` (line 432), an index outside
the window `IndexError` (utils.py:123). -/
noncomputable def dataInContour (L : Libs) (S : Fields) (pts : List (ℝ × ℝ)) : Except PyErr InContour := do
  let g : Grid ℝ := ⟨S.data.rows, S.data.cols, S.X.get, S.Y.get⟩
  let pt := meanPt pts
  let m := g.mask pt
  if masked g.ny g.nx m = [] then .error .valueError
  let ind ← pts.mapM fun v => codeIndex g.ny g.nx m (L.ballTree g pt v)
  match ind.map fun p => ((p.1 : Int), (p.2 : Int)) with
  | [] => .error .valueError
  | p :: ps =>
    let w := getWindow S.data.rows S.data.cols p ps .auto
    let near := cut w S.data
    if w.rel.all fun q => decide (0 ≤ q.1 ∧ q.1 < near.rows ∧ 0 ≤ q.2 ∧ q.2 < near.cols) then do
      let e ← maskDataInContour near.rows near.cols w.rel.toFinset near.get
      return ⟨w, e⟩
    else .error .indexError

/-- `masked_data_near_contour` (utils.py:126) -/
def maskedData (S : Fields) (w : Window) : Cntr.NdArr (Option ℝ) :=
  let near := cut w S.data
  ⟨near.rows, near.cols, fun r c =>
    if ((r : Int), (c : Int)) ∈ fillHoles near.rows near.cols w.rel.toFinset then near.get r c else none⟩

/-- `eddy_maxima` after `_data_in_contour` (trackeddy.py:462-465): extremum, its latitude and longitude -/
noncomputable def maximaOf (S : Fields) (i : InContour) : ℝ × ℝ × ℝ :=
  (i.ext.maxima, (cut i.window S.Y).get i.ext.row i.ext.col, (cut i.window S.X).get i.ext.row i.ext.col)

/-! ### the Gaussian -/

/-- `Fit_Surface(eddy, data, x, y)._fitting()` (geometry.py:45-119): the fitted surface and its parameters. An undefined
angle of the ellipse makes the initial guess infeasible: `least_squares` raises `ValueError`. -/
noncomputable def fitSurface (L : Libs) (S : Fields) (i : InContour) (prm : ℝ × ℝ × Option ℝ) :
    Except PyErr (Cntr.NdArr (Option ℝ) × (ℝ × ℝ × ℝ × ℝ × ℝ)) :=
  let X := cut i.window S.X
  let Y := cut i.window S.Y
  let mx := maximaOf S i
  match prm.2.2 with
  | none => .error .valueError
  | some θ => do
    let q ← L.leastSquares ⟨X, Y, maskedData S i.window, mx.1, (mx.2.2, mx.2.1, prm.1, prm.2.1, θ)⟩
    return (⟨X.rows, X.cols, fun r c =>
      some (gaussian (X.get r c) (Y.get r c) mx.1 q.1 q.2.1 q.2.2.1 q.2.2.2.1 q.2.2.2.2)⟩, q)

/-! ### one contour -/

/-- the attributes of an `Eddy` that is stored (eddy.py:20-39) -/
structure EddyObj where
  contour : List (ℝ × ℝ)
  level : ℝ
  area : ℝ
  radius : ℝ
  ellipse : ℝ × ℝ × Option ℝ
  ellipseError : Option ℝ
  eccen : Option ℝ
  center : ℝ × ℝ
  sign : ℝ
  /-- extremum, latitude, longitude -/
  maxima : ℝ × ℝ × ℝ
  gauss : Option (ℝ × ℝ × ℝ × ℝ × ℝ)
  gaussError : Option ℝ

/-- the attributes as arrays; `eddy_maxima` is a column (utils.py:144), `gaussian_params` may be `None` -/
def EddyObj.attr (e : EddyObj) : String → NdArr (Option ℝ)
  | "contour" => ⟨[e.contour.length, 2], e.contour.flatMap fun p => [some p.1, some p.2]⟩
  | "level" => .scalar (some e.level)
  | "area_eddy" => .scalar (some e.area)
  | "radius_eddy" => .scalar (some e.radius)
  | "ellipse_params" => ⟨[3], [some e.ellipse.1, some e.ellipse.2.1, e.ellipse.2.2]⟩
  | "contour_ellipse_error" => .scalar e.ellipseError
  | "ellipse_eccen" => .scalar e.eccen
  | "contour_center" => ⟨[2], [some e.center.1, some e.center.2]⟩
  | "eddy_sign" => .scalar (some e.sign)
  | "eddy_maxima" => ⟨[3, 1], [some e.maxima.1, some e.maxima.2.1, some e.maxima.2.2]⟩
  | "gaussian_params" => match e.gauss with
    | none => .scalar none
    | some q => ⟨[5], [some q.1, some q.2.1, some q.2.2.1, some q.2.2.2.1, some q.2.2.2.2]⟩
  | "contour_gaussian_error" => .scalar e.gaussError
  | _ => .scalar none

/-- outcome of the loop body -/
inductive Outcome
  | skipped
  | discarded (r : Reason)
  | stored (e : EddyObj)

/-- `x > t` for a number or NaN -/
def gtNan (x : Option ℝ) (t : ℝ) : Prop := ∃ v, x = some v ∧ v > t
/-- `x < t` for a number or NaN -/
def ltNan (x : Option ℝ) (t : ℝ) : Prop := ∃ v, x = some v ∧ v < t

/-- no division by zero in lines 259-263 of geometry.py: the points of the ellipse are finite -/
def FiniteEllipse (pts : List (ℝ × ℝ)) : Prop :=
  ∀ q, fitConic pts = .ok q → (rotateConic q (meanPt pts)).1.a ≠ 0 ∧ (rotateConic q (meanPt pts)).1.c ≠ 0

/-- The body of the loop for a contour without missing vertices that is not skipped (trackeddy.py:291-393). A fitted ellipse
that is not finite has area NaN, which is close to nothing. -/
noncomputable def examinePoints (c : Criteria ℝ) (L : Libs) (S : Fields) (level : ℝ) (pts : List (ℝ × ℝ)) :
    Except PyErr Outcome := open Classical in do
  let area := areaPolygon pts
  let radius := Real.sqrt (area / Real.pi)
  let center := meanPt pts
  if radius > c.maxArea * approxRD center.2 then return .discarded .area
  let fit ← fitEllipse pts
  if ¬ (FiniteEllipse pts ∧ isclose area (areaPolygon fit.1) (1 / 10 * c.ellipseFit) = true) then
    return .discarded .ellipseArea
  let ecc := eccentricity fit.2.1 fit.2.2.1
  if gtNan ecc c.eccen then return .discarded .eccentricity
  let sim ← liftFr (similarity L.limit pts fit.1)
  if gtNan sim c.ellipseFit then return .discarded .similarity
  let i ← dataInContour L S pts
  if i.ext.maxima = 0 then return .discarded .island
  if c.skipGauss then
    return .stored ⟨pts, level, area, radius, fit.2, sim, ecc, center, i.ext.sign, maximaOf S i, none, some 0⟩
  let surf ← fitSurface L S i fit.2
  let gs ← contoursOf L (cut i.window S.X) (cut i.window S.Y) surf.1 level
  if gs = [] then return .discarded .gaussFailed
  let gsim ← match allPoints gs.flatten with
    | some gpts => liftFr (similarity L.limit pts gpts)
    | none => .error .valueError
  if ltNan gsim c.gaussFit then return .discarded .gaussCheck
  return .stored ⟨pts, level, area, radius, fit.2, sim, ecc, center, i.ext.sign, maximaOf S i, some surf.2, gsim⟩

/-- The body of the loop over the contours (trackeddy.py:284-393). If a vertex is missing and the contour is not skipped,
the area and the radius are NaN and no larger than anything, the normal equations consist of NaN, which `solve` accepts, and
the area of the ellipse is NaN, which is not close to the area. -/
noncomputable def examine (c : Criteria ℝ) (L : Libs) (S : Fields) (level : ℝ) (vs : List (Vertex ℝ)) :
    Except PyErr Outcome :=
  if Cntr.skipsContour vs then .ok .skipped
  else match allPoints vs with
    | none => .ok (.discarded .ellipseArea)
    | some pts => examinePoints c L S level pts

/-! ### one level -/

/-- the columns of a row other than `identifier` and `index` -/
abbrev Cols := List (String × Option ℝ)

/-- `eddy.store()` (decorators.py:16-32, eddy.py:159-176): the registers with the table of the eddy -/
noncomputable def storeEddy (r : Regs Cols) (e : EddyObj) : Except PyErr (Regs Cols) := do
  let t ← storeTable e.attr (some (r.sCalls : ℝ))
  return { r with
    sCalls := r.sCalls + 1
    sTable := r.sTable ++ [(r.sCalls, t.map fun row => row.cols.filter fun p => p.1 ≠ "identifier")] }

/-- One pass of the loop, from the outcome for the contour: registers and locals, or an exception. -/
noncomputable def outcomeStep (st : Regs Cols × Locals Cols) (o : Except PyErr Outcome) :
    Regs Cols × Except PyErr (Locals Cols) :=
  match o with
  | .error e => (st.1, .error e)
  | .ok .skipped => (st.1, .ok st.2)
  | .ok (.stored e) =>
    match storeEddy st.1 e with
    | .error er => (st.1, .error er)
    | .ok r => (r, .ok { st.2 with info := some r.sTable })
  | .ok (.discarded r) =>
    let t := st.1.dTable ++ [(st.1.dCalls, r)]
    ({ st.1 with dCalls := st.1.dCalls + 1, dTable := t }, .ok { st.2 with disc := some t })

/-- the loop (trackeddy.py:284-393) -/
noncomputable def examineLoop (f : List (Vertex ℝ) → Except PyErr Outcome) :
    List (List (Vertex ℝ)) → Regs Cols × Locals Cols → Regs Cols × Except PyErr (Locals Cols)
  | [], st => (st.1, .ok st.2)
  | vs :: rest, st =>
    match outcomeStep st (f vs) with
    | (r, .error e) => (r, .error e)
    | (r, .ok l) => examineLoop f rest (r, l)

/-- `_detect_one_level(level)` with its decorator (trackeddy.py:274-395, decorators.py:72-90) -/
noncomputable def detectLevel (c : Criteria ℝ) (L : Libs) (S : Fields) (regs : Regs Cols) (level : ℝ) :
    Regs Cols × Except PyErr (List (Nat × List Cols) × List (Nat × Reason)) :=
  match contoursOf L S.X S.Y S.data level with
  | .error e => (regs, .error e)
  | .ok cs =>
    match examineLoop (examine c L S level) cs (regs, ⟨none, none⟩) with
    | (r, .error e) => (r, .error e)
    | (r, .ok l) =>
      match l.info with
      | some t => (Regs.empty, .ok (t, l.disc.getD []))
      | none => (r, .ok ([], l.disc.getD []))

/-! ### snapshots and times -/

/-- `_detect_snapshot` (trackeddy.py:226-264) on filtered data -/
noncomputable def snapshotOf {Pt : Type} (E : Env Cols ℝ Pt) (c : Criteria ℝ) (L : Libs) (S : Fields) (levels : List ℝ)
    (regs : Regs Cols) : Regs Cols × Except PyErr (Tbl Cols) :=
  (levels.filter (· ≠ 0)).foldl (fun st level =>
    match st with
    | (r, .error e) => (r, .error e)
    | (r, .ok joint) =>
      match detectLevel c L S r level with
      | (r', .error e) => (r', .error e)
      | (r', .ok x) => (r', levelStep E (fun _ => .ok (levelFrame x.1)) joint level))
    (regs, .ok ⟨[], []⟩)

/-- `time_tracking` (trackeddy.py:181-224); `field t` are the filtered data of time `t`, `T` the number of times. The
registers are those of the module. -/
noncomputable def trackFields {Pt : Type} (E : Env Cols ℝ Pt) (c : Criteria ℝ) (L : Libs) (field : Int → Fields)
    (levels : List ℝ) (t0 : Int) (tf : Option Int) (T : Nat) (ntimes : Int) (online : Bool) (regs : Regs Cols) :
    Regs Cols × Except PyErr (LoopState Cols) :=
  (trackTimes t0 tf T).foldl (fun st time =>
    match st with
    | (r, .error e) => (r, .error e)
    | (r, .ok s) =>
      match snapshotOf E c L (field time) levels r with
      | (r', cur) => (r', loopStep E (fun _ => cur) tf ntimes online s time))
    (regs, .ok ⟨⟨[], []⟩, [], []⟩)

/-! ### the columns by which eddies are compared -/

/-- a column of a row that is a number: positions and radii are never NaN -/
noncomputable def column (name : String) (row : Cols) : ℝ :=
  match row.find? fun p => p.1 = name with
  | some (_, some v) => v
  | _ => 0

/-- a column that may be NaN -/
noncomputable def score (name : String) (row : Cols) : Option ℝ := (row.find? fun p => p.1 = name).bind Prod.snd

/-- the columns that `_detect_nearest` and `_update_better_eddy` read (utils.py:45-115) -/
noncomputable def colsEnv (prunes : Bool) (nn : List (ℝ × ℝ) → ℝ × ℝ → Nat) : Env Cols ℝ (ℝ × ℝ) :=
  realEnv prunes (column "maxima_y") (column "maxima_x") (column "radius_eddy") (score "contour_ellipse_error")
    (score "contour_gaussian_error") nn

end Trackeddy
