import Verif.Model.Tracking

/-!
Model of `TrackEddy._detect_one_level` (trackeddy/trackeddy.py:275-395), of the decorators
`check_return_eddies` (decorators.py:72-90) and `eddy_identifier` (decorators.py:6-37) and of
`Eddy.store`, `Eddy.discarded`, `Eddy.exit` (eddy.py:159-223).

The numerical work on a contour (areas, fits, similarities) enters through the record `Measures`; each
entry is computed only if the tests before it passed and may raise. `store` and `discarded` keep one
module-global register each (an attribute of the decorated function, hence shared by all objects).
-/
namespace Trackeddy

/-- `identification_criteria` (trackeddy.py:46-51) and `skip_gaussian_fit` (trackeddy.py:60) -/
structure Criteria (K : Type) where
  ellipseFit : K
  eccen : K
  gaussFit : K
  maxArea : K
  skipGauss : Bool

/-- What is computed of a contour. -/
structure Measures (α K : Type) where
  /-- `np.allclose(np.mean(contour, axis=0), contour[0], equal_nan=True)` (trackeddy.py:287) -/
  degenerate : Bool
  /-- `radius_eddy` and `area_eddy` (trackeddy.py:293-294) -/
  radius : Except PyErr K
  area : K
  /-- `approx_RD_lat(contour_center[1])` (trackeddy.py:300) -/
  rd : K
  /-- area of the fitted ellipse (trackeddy.py:307-313); the fit may raise `LinAlgError` -/
  areaEllipse : Except PyErr K
  /-- `ellipse_eccen` (trackeddy.py:326) -/
  eccen : Except PyErr K
  /-- `contour_ellipse_error`, a similarity (trackeddy.py:331) -/
  ellSim : Except PyErr K
  /-- `eddy_maxima[0]` set by `_data_in_contour` (trackeddy.py:340-342) -/
  maxima : Except PyErr K
  /-- similarity with the contour of the fitted Gaussian, `none` if there is no such contour
  (trackeddy.py:352-382) -/
  gauss : Except PyErr (Option K)
  /-- the rows that `to_table` makes of the contour (C50); it has at least one point -/
  row0 : α
  rows : List α

/-- reasons passed to `discarded` -/
inductive Reason
  | area | ellipseArea | eccentricity | similarity | island | gaussFailed | gaussCheck
  deriving DecidableEq, Repr

/-- outcome for one contour -/
inductive Verdict
  | skipped | stored | discarded (r : Reason)
  deriving DecidableEq, Repr

variable {α K : Type} [Field K] [LinearOrder K] [IsStrictOrderedRing K]

/-- `np.isclose(a, b, rtol=r)` with the default `atol = 1e-8` (trackeddy.py:316-320) -/
def isclose (a b r : K) : Bool := decide (|a - b| ≤ 1 / 100000000 + r * |b|)

/-- Body of the loop over the contours (trackeddy.py:284-393), without the registers. -/
def verdict (c : Criteria K) (m : Measures α K) : Except PyErr Verdict :=
  if m.degenerate then .ok .skipped else do
    let radius ← m.radius
    if radius > c.maxArea * m.rd then return .discarded .area
    let ae ← m.areaEllipse
    if !isclose m.area ae (1 / 10 * c.ellipseFit) then return .discarded .ellipseArea
    let ecc ← m.eccen
    if ecc > c.eccen then return .discarded .eccentricity
    let sim ← m.ellSim
    if sim > c.ellipseFit then return .discarded .similarity
    let mx ← m.maxima
    if mx = 0 then return .discarded .island
    if c.skipGauss then return .stored
    match ← m.gauss with
    | none => return .discarded .gaussFailed
    | some g => if g < c.gaussFit then return .discarded .gaussCheck else return .stored

/-- Registers of the two decorated functions (decorators.py:34-36): number of calls and collected
table. The table of `store` lists (identifier, rows), that of `discarded` (id, reason). -/
structure Regs (α : Type) where
  sCalls : Nat
  sTable : List (Nat × List α)
  dCalls : Nat
  dTable : List (Nat × Reason)

/-- registers after import and after `exit` (decorators.py:18-21, 34-36; eddy.py:217-223) -/
def Regs.empty : Regs α := ⟨0, [], 0, []⟩

/-- Local variables of `_detect_one_level` (trackeddy.py:277-279): `eddy_info` and `discarded`, `none`
for `None`. -/
structure Locals (α : Type) where
  info : Option (List (Nat × List α))
  disc : Option (List (Nat × Reason))

/-- One pass of the loop: registers, locals and an exception, if one was raised. -/
def contourStep (c : Criteria K) (st : Regs α × Locals α) (m : Measures α K) :
    Regs α × Except PyErr (Locals α) :=
  match verdict c m with
  | .error e => (st.1, .error e)
  | .ok .skipped => (st.1, .ok st.2)
  | .ok .stored =>
    let t := st.1.sTable ++ [(st.1.sCalls, m.row0 :: m.rows)]
    ({ st.1 with sCalls := st.1.sCalls + 1, sTable := t }, .ok { st.2 with info := some t })
  | .ok (.discarded r) =>
    let t := st.1.dTable ++ [(st.1.dCalls, r)]
    ({ st.1 with dCalls := st.1.dCalls + 1, dTable := t }, .ok { st.2 with disc := some t })

/-- The loop (trackeddy.py:284-393); an exception ends it, leaving the registers as they are. -/
def contourLoop (c : Criteria K) : List (Measures α K) → Regs α × Locals α →
    Regs α × Except PyErr (Locals α)
  | [], st => (st.1, .ok st.2)
  | m :: ms, st =>
    match contourStep c st m with
    | (r, .error e) => (r, .error e)
    | (r, .ok l) => contourLoop c ms (r, l)

/-- `_detect_one_level` with `check_return_eddies` for the contours of a level: the registers afterwards
and the pair (table of stored eddies, discarded table); an empty list is the empty frame resp. `[]`. -/
def detectOneLevel (c : Criteria K) (regs : Regs α) (ms : List (Measures α K)) :
    Regs α × Except PyErr (List (Nat × List α) × List (Nat × Reason)) :=
  match contourLoop c ms (regs, ⟨none, none⟩) with
  | (r, .error e) => (r, .error e)
  | (r, .ok l) =>
    match l.info with
    | some t => (Regs.empty, .ok (t, l.disc.getD []))
    | none => (r, .ok ([], l.disc.getD []))

/-- The frame returned for the stored eddies: `concat` of the stored tables followed by
`set_index(["identifier", "index"])` (decorators.py:31, 80). -/
def levelFrame (t : List (Nat × List α)) : Tbl α :=
  Tbl.resetSet ⟨[], t.flatMap fun e => e.2.mapIdx fun j v => ⟨e.1, j, v⟩⟩

/-- A history of calls by any objects: each with its criteria and contours; `none` results are
exceptions caught by the caller. -/
def history (regs : Regs α) : List (Criteria K × List (Measures α K)) → Regs α
  | [] => regs
  | (c, ms) :: h => history (detectOneLevel c regs ms).1 h

/-- `_detect_snapshot` (trackeddy.py:226-264) with the registers: level after level, each detected
with the registers its predecessor left; `contours` gives the contours of a level. -/
def detectSnapshotR {Pt : Type} [DecidableEq K] (E : Env α K Pt) (c : Criteria K)
    (contours : K → List (Measures α K)) (levels : List K) (regs : Regs α) :
    Regs α × Except PyErr (Tbl α) :=
  (levels.filter (· ≠ 0)).foldl (fun st level =>
    match st with
    | (r, .error e) => (r, .error e)
    | (r, .ok joint) =>
      match detectOneLevel c r (contours level) with
      | (r', .error e) => (r', .error e)
      | (r', .ok x) => (r', levelStep E (fun _ => .ok (levelFrame x.1)) joint level))
    (regs, .ok ⟨[], []⟩)

end Trackeddy
