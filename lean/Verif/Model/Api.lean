import Verif.Model.Pipeline
import Verif.Model.Coords
import Verif.Model.Filter
import Mathlib.Data.Fintype.Fin

/-!
The interface of the package: the constructor `TrackEddy(dataset, variable, nan_treatment)` (trackeddy/trackeddy.py:33-64), and
`time_tracking` (trackeddy.py:181-224) with `_detect_snapshot` (trackeddy.py:226-264) starting from the dataset: level argument,
selection of the snapshot, filter, detection. Composed of the models in Coords.lean, Filter.lean and Pipeline.lean.

Of xarray the dimensions of a variable with their sizes, selection by index, `squeeze` and arithmetic by dimension name are
modelled. Sizes are positive. Files (`open_mfdataset`) and lazily loaded data are not modelled.
-/
namespace Trackeddy

/-- a variable of a dataset (`xr.DataArray`): its dimensions with their sizes in the order of storage, and the value at indices
given by dimension name; `none` is NaN -/
structure Variable where
  dims : List (String × Nat)
  get : (String → Nat) → Option ℝ

/-- the dataset: the names of its data variables (`Dataset.keys()`), its variables, and the values of what may serve as a
coordinate: coordinates, data variables, and for a dimension without coordinate the index. `none`: no such name. -/
structure Dataset where
  keys : List String
  var : String → Option Variable
  coord : String → Option (CoordArr ℝ)

/-- `v.isel({name: t})` -/
def Variable.isel (v : Variable) (name : String) (t : Int) : Except PyErr Variable :=
  match v.dims.find? fun p => p.1 = name with
  | none => .error .valueError
  | some (_, n) =>
    if -(n : Int) ≤ t ∧ t < n then
      .ok ⟨v.dims.filter fun p => p.1 ≠ name,
        fun ix => v.get fun d => if d = name then (if t < 0 then t + n else t).toNat else ix d⟩
    else .error .indexError

/-- `v.squeeze()`: dimensions of size one are dropped -/
def Variable.squeeze (v : Variable) : Variable :=
  ⟨v.dims.filter fun p => p.2 ≠ 1, fun ix => v.get fun d => if (d, 1) ∈ v.dims then 0 else ix d⟩

/-- the attributes of the object that `time_tracking` reads -/
structure Tracker where
  raw : Variable
  nanTreatment : Bool
  filter : FilterName
  coords : Coords
  X : Cntr.NdArr ℝ
  Y : Cntr.NdArr ℝ
  criteria : Criteria ℝ
  setup : SpaceFilter

/-- an array given by its rows -/
def rowsArr (m : List (List ℝ)) : Cntr.NdArr ℝ :=
  ⟨m.length, (m.head?.map List.length).getD 0, fun r c => (at2 m r c).getD 0⟩

/-- the arrays `self.X`, `self.Y` (trackeddy.py:79-99): `coordGrids` of Model/Coords.lean as arrays, `np.meshgrid` of one-dimensional
coordinates -/
def coordArrays : CoordArr ℝ → CoordArr ℝ → Except PyErr (Cntr.NdArr ℝ × Cntr.NdArr ℝ)
  | .d1 x, .d1 y => .ok (⟨y.length, x.length, fun _ c => x.getD c 0⟩, ⟨y.length, x.length, fun r _ => y.getD r 0⟩)
  | .d2 x, .d2 y => .ok (rowsArr x, rowsArr y)
  | _, _ => .error .valueError

/-- `identification_criteria` and `skip_gaussian_fit` (trackeddy.py:46-51, 60) -/
noncomputable def defaultCriteria : Criteria ℝ := ⟨85 / 100, 85 / 100, 8 / 10, 2 * Real.pi, false⟩

/-- `S_filter_setup` (trackeddy.py:53-57) -/
def defaultSetup : SpaceFilter := .convolution .uniform 10

/-- `Dataset[name]` -/
def lookup {α : Type} (f : String → Option α) (name : String) : Except PyErr α :=
  match f name with
  | some x => .ok x
  | none => .error .keyError

/-- `TrackEddy.__init__` (trackeddy.py:33-64) with `identify_coords` and `check_coords` (trackeddy.py:66-108) -/
noncomputable def newTracker (D : Dataset) (name : String) (nanTreatment : Bool) : Except PyErr Tracker := do
  let raw ← lookup D.var name
  let coords := identifyCoords (raw.dims.map Prod.fst) D.keys
  let names ← chooseCoords coords
  let x ← lookup D.coord names.1
  let y ← lookup D.coord names.2
  let XY ← coordArrays x y
  return ⟨raw, nanTreatment, .space, coords, XY.1, XY.2, defaultCriteria, defaultSetup⟩

/-- what `lin_levels` may be: a numpy array, a list of numbers, `None` -/
inductive Levels
  | array (l : List ℝ)
  | list (l : List ℝ)
  | absent

/-- `levels = levels[levels != 0]` (trackeddy.py:228): the levels, or `none` for a number, over which the loop cannot run. A list
is different from 0, and as an index `True` is 1. -/
noncomputable def Levels.select : Levels → Except PyErr (Option (List ℝ))
  | .array l => .ok (some (l.filter fun x => x ≠ 0))
  | .list l => if l.length < 2 then .error .indexError else .ok none
  | .absent => .error .typeError

/-- the snapshot (trackeddy.py:229-234); `time` is an `int` -/
def Tracker.snapshot (o : Tracker) (time : Int) : Except PyErr Variable :=
  if o.coords.time ≠ "" then (o.raw.isel o.coords.time time).map Variable.squeeze else .ok o.raw.squeeze

/-- `self.data2track` -/
inductive Tracked
  /-- `None` -/
  | absent
  /-- an array that is not two-dimensional -/
  | flat
  | field (Z : Cntr.NdArr (Option ℝ))

/-- the values of a two-dimensional variable -/
def Variable.fld (v : Variable) (d1 d2 : String) (ny nx : Nat) : Fld ℝ ny nx :=
  fun r c => v.get fun d => if d = d1 then r else if d = d2 then c else 0

/-- a two-dimensional array of values -/
def fldArr {ny nx : Nat} (v : Fld ℝ ny nx) : Cntr.NdArr (Option ℝ) :=
  ⟨ny, nx, fun r c => if h : r < ny ∧ c < nx then v ⟨r, h.1⟩ ⟨c, h.2⟩ else none⟩

/-- `self.data2track` from the value returned by the filter -/
def trackedOf {ny nx : Nat} : Option (Fld ℝ ny nx) → Tracked
  | some u => .field (fldArr u)
  | none => .absent

/-- the filters `meridional` and `zonal` take the mean along the dimension recognised as longitude or latitude
(trackeddy.py:169, 172); for a variable stored longitude first that is the first dimension. A dimension that the snapshot does
not have is an error. -/
def alongAxis (coords : Coords) (d1 d2 : String) : SpaceFilter → Except PyErr SpaceFilter
  | .meridional => if coords.x = d2 then .ok .meridional else if coords.x = d1 then .ok .zonal else .error .valueError
  | .zonal => if coords.y = d1 then .ok .zonal else if coords.y = d2 then .ok .meridional else .error .valueError
  | s => .ok s

/-- `_space_filter` on a snapshot that is not two-dimensional: only the errors of the filters are modelled, the values are not
needed. `convolve` raises `Exception`. -/
def spaceFilterFlat (coords : Coords) (dims : List String) : SpaceFilter → Except PyErr Unit
  | .convolution .uniform _ => .error .exception
  | .convolution .gaussian _ => .error .warning
  | .convolution .other _ => .ok ()
  | .meridional => if coords.x ∈ dims then .ok () else .error .valueError
  | .zonal => if coords.y ∈ dims then .ok () else .error .valueError
  | .other => .error .valueError

/-- the decorated `_filter_data_` (trackeddy.py:129-143, decorators.py:57-65) on a snapshot. The spatial filter is only used with
`space` and `both`. -/
noncomputable def Tracker.filtered (o : Tracker) (v : Variable) : Except PyErr Tracked :=
  match v.dims with
  | [(d1, ny), (d2, nx)] =>
    match o.filter with
    | .time | .other => (filterData o.nanTreatment o.setup o.filter (v.fld d1 d2 ny nx)).map trackedOf
    | .space | .both => (alongAxis o.coords d1 d2 o.setup).bind fun s =>
      (filterData o.nanTreatment s o.filter (v.fld d1 d2 ny nx)).map trackedOf
  | dims =>
    match o.filter with
    | .other => .ok .flat
    | .time => .ok .absent
    | .space => (spaceFilterFlat o.coords (dims.map Prod.fst) o.setup).map fun _ => .flat
    | .both => (spaceFilterFlat o.coords (dims.map Prod.fst) o.setup).map fun _ => .absent

/-- `_detect_snapshot(time, levels)` (trackeddy.py:226-264). With no level left the loop does nothing. `None` has no `.values`;
the tracer rejects an array that is not two-dimensional. -/
noncomputable def Tracker.detect {Pt : Type} (o : Tracker) (E : Env Cols ℝ Pt) (L : Libs) (levels : Levels) (time : Int)
    (regs : Regs Cols) : Regs Cols × Except PyErr (Tbl Cols) :=
  match levels.select with
  | .error e => (regs, .error e)
  | .ok ls =>
    match (o.snapshot time).bind o.filtered with
    | .error e => (regs, .error e)
    | .ok d =>
      match ls, d with
      | none, _ => (regs, .error .typeError)
      | some [], _ => (regs, .ok ⟨[], []⟩)
      | some _, .absent => (regs, .error .attributeError)
      | some _, .flat => (regs, .error .valueError)
      | some ls, .field Z => snapshotOf E o.criteria L ⟨o.X, o.Y, Z⟩ ls regs

/-- the number of times `len(self.Dataset[self.coords["time"]])`, needed if `tf` is `None` or 0 (trackeddy.py:185-188) -/
def Tracker.times (o : Tracker) (t0 : Int) (tf : Option Int) : Except PyErr (List Int) :=
  if tf = none ∨ tf = some 0 then
    match o.raw.dims.find? fun p => p.1 = o.coords.time ∧ o.coords.time ≠ "" with
    | some (_, T) => .ok (trackTimes t0 tf T)
    | none => .error .keyError
  else .ok (trackTimes t0 tf 0)

/-- `time_tracking` (trackeddy.py:181-224) -/
noncomputable def Tracker.timeTracking {Pt : Type} (o : Tracker) (E : Env Cols ℝ Pt) (L : Libs) (t0 : Int) (tf : Option Int)
    (levels : Levels) (ntimes : Int) (online : Bool) (regs : Regs Cols) : Regs Cols × Except PyErr (LoopState Cols) :=
  match o.times t0 tf with
  | .error e => (regs, .error e)
  | .ok ts =>
    ts.foldl (fun st time =>
      match st with
      | (r, .error e) => (r, .error e)
      | (r, .ok s) =>
        match o.detect E L levels time r with
        | (r', cur) => (r', loopStep E (fun _ => cur) tf ntimes online s time))
      (regs, .ok ⟨⟨[], []⟩, [], []⟩)

end Trackeddy
