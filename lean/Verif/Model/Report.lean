import Verif.Model.Pipeline

/-!
The table of discarded contours that `_detect_one_level` returns beside the eddies (trackeddy/trackeddy.py:275-395,
decorators.py:6-37 and 72-90, eddy.py:178-213), and the two plots made of the results: `plot_eddy_detection_in_level` and
`plot_eddy_detection_multilevel` (trackeddy.py:517-630).

Model/Pipeline.lean keeps only the reason of a discarded contour; here are the attributes that the `Eddy` has when it is
discarded. Of a plot the marks and lines are modelled, with their coordinates, colours and labels, not the image.
-/
namespace Trackeddy
open Cntr (Vertex)

/-- a cell of the table of discarded contours: a number, NaN for `none`, or a string -/
inductive Val
  | num (x : Option ℝ)
  | str (s : String)

/-- the string passed to `discarded` (trackeddy.py:303, 322, 328, 336, 343, 368, 388) -/
def Reason.name : Reason → String
  | .area => "area"
  | .ellipseArea => "ellipse_area"
  | .eccentricity => "eccentricity"
  | .similarity => "similarity"
  | .island => "eddy_is_island"
  | .gaussFailed => "gaussian_fit_failed"
  | .gaussCheck => "gaussian_check"

/-- the attributes of an `Eddy` that `discarded` writes (eddy.py:20-39, 197-208) -/
structure DiscardObj where
  reason : Reason
  level : ℝ
  area : Option ℝ := some 0
  radius : Option ℝ := some 0
  ellipseError : Option ℝ := some 0
  center : ℝ × ℝ
  eccen : Option ℝ := some 0
  sign : ℝ := 0
  /-- extremum, latitude and longitude; before they are set the attribute is the number 0 -/
  maxima : Option (ℝ × ℝ × ℝ) := none
  gaussError : Option ℝ := some 0

/-- the attributes as arrays -/
def DiscardObj.attr (e : DiscardObj) : String → NdArr Val
  | "level" => .scalar (.num (some e.level))
  | "area_eddy" => .scalar (.num e.area)
  | "radius_eddy" => .scalar (.num e.radius)
  | "contour_ellipse_error" => .scalar (.num e.ellipseError)
  | "contour_center" => ⟨[2], [.num (some e.center.1), .num (some e.center.2)]⟩
  | "ellipse_eccen" => .scalar (.num e.eccen)
  | "eddy_sign" => .scalar (.num (some e.sign))
  | "eddy_maxima" => match e.maxima with
    | none => .scalar (.num (some 0))
    | some m => ⟨[3, 1], [.num (some m.1), .num (some m.2.1), .num (some m.2.2)]⟩
  | "contour_gaussian_error" => .scalar (.num e.gaussError)
  | _ => .scalar (.num none)

/-- a row of the table: its columns -/
abbrev DRow := List (String × Val)

/-- `eddy.discarded(reason)` (eddy.py:178-213) without the registers -/
def discardRow (e : DiscardObj) (id : Nat) : Except PyErr DRow := do
  let t ← discardTable e.attr (.str e.reason.name) id
  match t with
  | r :: _ => return r.cols
  | [] => .error .indexError

/-- outcome of the loop body with the attributes of a discarded contour -/
inductive Report
  | skipped
  | discarded (d : DiscardObj)
  | stored (e : EddyObj)

/-- without the attributes -/
def Report.outcome : Report → Outcome
  | .skipped => .skipped
  | .discarded d => .discarded d.reason
  | .stored e => .stored e

/-- The body of the loop for a contour without missing vertices that is not skipped (trackeddy.py:291-393): the attributes of the
`Eddy` are set one after the other. -/
noncomputable def reportPoints (c : Criteria ℝ) (L : Libs) (S : Fields) (level : ℝ) (pts : List (ℝ × ℝ)) :
    Except PyErr Report := open Classical in do
  let area := areaPolygon pts
  let radius := Real.sqrt (area / Real.pi)
  let center := meanPt pts
  let d : DiscardObj := { reason := .area, level := level, area := some area, radius := some radius, center := center }
  if radius > c.maxArea * approxRD center.2 then return .discarded d
  let fit ← fitEllipse pts
  if ¬ (FiniteEllipse pts ∧ isclose area (areaPolygon fit.1) (1 / 10 * c.ellipseFit) = true) then
    return .discarded { d with reason := .ellipseArea }
  let ecc := eccentricity fit.2.1 fit.2.2.1
  let d := { d with eccen := ecc }
  if gtNan ecc c.eccen then return .discarded { d with reason := .eccentricity }
  let sim ← liftFr (similarity L.limit pts fit.1)
  let d := { d with ellipseError := sim }
  if gtNan sim c.ellipseFit then return .discarded { d with reason := .similarity }
  let i ← dataInContour L S pts
  let d := { d with sign := i.ext.sign, maxima := some (maximaOf S i) }
  if i.ext.maxima = 0 then return .discarded { d with reason := .island }
  if c.skipGauss then
    return .stored ⟨pts, level, area, radius, fit.2, sim, ecc, center, i.ext.sign, maximaOf S i, none, some 0⟩
  let surf ← fitSurface L S i fit.2
  let gs ← contoursOf L (cut i.window S.X) (cut i.window S.Y) surf.1 level
  if gs = [] then return .discarded { d with reason := .gaussFailed }
  let gsim ← match allPoints gs.flatten with
    | some gpts => liftFr (similarity L.limit pts gpts)
    | none => .error .valueError
  let d := { d with gaussError := gsim }
  if ltNan gsim c.gaussFit then return .discarded { d with reason := .gaussCheck }
  return .stored ⟨pts, level, area, radius, fit.2, sim, ecc, center, i.ext.sign, maximaOf S i, some surf.2, gsim⟩

/-- The body of the loop (trackeddy.py:284-393). With a missing vertex area and radius are NaN; the centre is the mean of the
vertices that are not missing (`np.nanmean`, trackeddy.py:296). -/
noncomputable def report (c : Criteria ℝ) (L : Libs) (S : Fields) (level : ℝ) (vs : List (Vertex ℝ)) :
    Except PyErr Report :=
  if Cntr.skipsContour vs then .ok .skipped
  else match allPoints vs with
    | none => .ok (.discarded ⟨.ellipseArea, level, none, none, some 0, meanPt (vs.filterMap id), some 0, 0, none, some 0⟩)
    | some pts => reportPoints c L S level pts

/-- the register of `discarded`: number of calls and table (decorators.py:34-36) -/
structure DRegs where
  calls : Nat
  table : List (Nat × DRow)

/-- register after import and after `exit` -/
def DRegs.empty : DRegs := ⟨0, []⟩

/-- one call of `discarded` (decorators.py:23-33) -/
def storeDiscarded (r : DRegs) (d : DiscardObj) : Except PyErr DRegs := do
  let row ← discardRow d r.calls
  return ⟨r.calls + 1, r.table ++ [(r.calls, row)]⟩

/-- the loop over the contours (trackeddy.py:284-393) with both registers; the last component is the local variable `discarded`,
`none` for `None` -/
noncomputable def reportLoop (f : List (Vertex ℝ) → Except PyErr Report) :
    List (List (Vertex ℝ)) → DRegs → Option (List (Nat × DRow)) → Except PyErr (DRegs × Option (List (Nat × DRow)))
  | [], r, l => .ok (r, l)
  | vs :: rest, r, l => do
    match ← f vs with
    | .discarded d => do
      let r' ← storeDiscarded r d
      reportLoop f rest r' (some r'.table)
    | _ => reportLoop f rest r l

/-- the second value returned by `_detect_one_level` (trackeddy.py:395, decorators.py:84-87): the table of discarded contours,
`[]` if none was discarded. The first value is that of `detectLevel`; an exception ends both. -/
noncomputable def discardsOfLevel (c : Criteria ℝ) (L : Libs) (S : Fields) (r : DRegs) (level : ℝ) :
    Except PyErr (List (Nat × DRow)) := do
  let cs ← contoursOf L S.X S.Y S.data level
  let x ← reportLoop (report c L S level) cs r none
  return x.2.getD []

/-! ### plots -/

/-- what is drawn: a line through points or a mark at a point, with its colour; `none` is NaN -/
inductive Drawn (C : Type)
  | line (pts : List (Option ℝ × Option ℝ)) (colour : C)
  | mark (x y : Option ℝ) (colour : C)

/-- colour of the mark of a discarded contour (trackeddy.py:592-606) -/
def reasonColour : String → String
  | "eccentricity" => "r"
  | "area" => "gray"
  | "similarity" => "c"
  | "ellipse_area" => "m"
  | "eddy_is_island" => "orange"
  | "gaussian_fit_failed" => "pink"
  | _ => "b"

/-- the legend: labels with their colours (trackeddy.py:608-630) -/
def legend : List (String × String) :=
  ["Fail eccentricity", "Area fail", "Contour != ellipse", "Ellipse area fail", "Eddy is island", "Gaussian fit failed",
    "Contour != Gaussian"].zip ["r", "gray", "c", "m", "orange", "pink", "b"]

/-- a numeric column of a row of the table of discarded contours; a column that only other rows have is NaN -/
def DRow.num (row : DRow) (name : String) : Option ℝ :=
  match row.find? fun p => p.1 = name with
  | some (_, .num x) => x
  | _ => none

/-- the column `reason` -/
def DRow.reason (row : DRow) : String :=
  match row.find? fun p => p.1 = "reason" with
  | some (_, .str s) => s
  | _ => ""

/-- a column of a row of the table of eddies -/
def colNan (name : String) (row : Cols) : Option ℝ :=
  match row.find? fun p => p.1 = name with
  | some (_, x) => x
  | none => none

/-- `contour_path_x`, `contour_path_y` of the rows of an eddy -/
def pathOf (rows : List Cols) : List (Option ℝ × Option ℝ) :=
  rows.map fun r => (colNan "contour_path_x" r, colNan "contour_path_y" r)

/-- an eddy on the left panel: its contour and its centre, repeated for each row (trackeddy.py:566-574) -/
def drawEddy (rows : List Cols) : List (Drawn String) :=
  .line (pathOf rows) "m" :: rows.map fun r => .mark (colNan "contour_x" r) (colNan "contour_y" r) "k"

/-- a discarded contour on the right panel (trackeddy.py:587-606) -/
def drawDiscarded (row : DRow) : Drawn String :=
  .mark (row.num "contour_x") (row.num "contour_y") (reasonColour row.reason)

/-- `plot_eddy_detection_in_level(eddies, discarded)` (trackeddy.py:547-630): both panels. The frame of no eddies has a
`RangeIndex`, which has no `levels` (line 566); the list `[]` of no discarded contours has a method `index`, over which a loop
cannot run (line 587). Eddies of one level have different identifiers, as have the discarded contours. -/
def plotInLevel (eddies : List (Nat × List Cols)) (discarded : List (Nat × DRow)) :
    Except PyErr (List (Drawn String) × List (Drawn String)) :=
  if eddies.isEmpty then .error .attributeError
  else if discarded.isEmpty then .error .typeError
  else .ok (eddies.flatMap fun e => drawEddy e.2, discarded.map fun e => drawDiscarded e.2)

/-- entry `i` of `np.linspace(0, N - 1, n, dtype=int)` (trackeddy.py:525): rounded down, in exact arithmetic -/
def colourIndex (N n i : Nat) : Nat := if n ≤ 1 then 0 else i * (N - 1) / (n - 1)

/-- values in the order in which they occur first (`unique`, trackeddy.py:524) -/
noncomputable def uniques : List (Option ℝ) → List (Option ℝ)
  | [] => []
  | x :: l => open Classical in x :: (uniques l).filter fun y => y ≠ x

/-- position of the level of an eddy: `np.where(df.loc[eddy].level[0] == levels)[0][0]` (trackeddy.py:536). If two rows of the
eddy have index 0, `level[0]` is a series, which is compared element by element; `ValueError` if the lengths differ. -/
noncomputable def levelPos (levels : List (Option ℝ)) (rows : List (Row Cols)) (id : Nat) : Except PyErr Nat :=
  open Classical in
  let first := fun (p : List Bool) => match p.findIdx? (· = true) with
    | some i => Except.ok i
    | none => .error .indexError
  match (rows.filter fun r => r.id = id ∧ r.idx = 0).map fun r => colNan "level" r.val with
  | [] => .error .keyError
  | [l] => first (levels.map fun m => decide (m ≠ none ∧ m = l))
  | ls => if ls.length = levels.length then first ((levels.zip ls).map fun p => decide (p.1 ≠ none ∧ p.1 = p.2))
    else .error .valueError

/-- `plot_eddy_detection_multilevel(df)` (trackeddy.py:517-545) for a table of a snapshot: the lines, and the legend, drawn for
less than five levels. A colour is a position in the list of `N` named colours. An eddy is drawn again for each of its rows.
The frame of no eddies has no column `level`. -/
noncomputable def plotMultilevel (N : Nat) (T : Tbl Cols) : Except PyErr (List (Drawn Nat) × List (Option ℝ × Nat)) :=
  if T.rows.isEmpty then .error .attributeError
  else do
    let levels := uniques (T.rows.map fun r => colNan "level" r.val)
    let lines ← T.rows.mapM fun r => do
      let i ← levelPos levels T.rows r.id
      return Drawn.line (pathOf ((T.rows.filter fun q => q.id = r.id).map Row.val)) (colourIndex N levels.length i)
    return (lines, if levels.length < 5 then levels.zipIdx else [])

end Trackeddy
