import Verif.Model.Table
import Mathlib.Data.List.Infix

/-!
Model of the coordinate identification of `TrackEddy`: `identify_coords`, `_get_dims`, `_get_vars`
(trackeddy/trackeddy.py:103-124) and `check_coords` (trackeddy.py:66-99). Names are strings, arrays are
given by their values; the xarray objects themselves are not modelled.
-/
namespace Trackeddy

/-- `sub in name` for strings -/
def hasSub (sub name : String) : Bool := decide (sub.toList <:+: name.toList)

/-- `self.coords`; the keys `x_var` and `y_var` may be absent -/
structure Coords where
  time : String
  x : String
  y : String
  xVar : Option String
  yVar : Option String
  deriving DecidableEq, Repr

/-- `_get_dims` (trackeddy.py:110-116) -/
def getDims (c : Coords) (d : String) : Coords :=
  if hasSub "time" d || d == "t" then { c with time := d }
  else if hasSub "lon" d || d == "x" then { c with x := d }
  else if hasSub "lat" d || d == "y" then { c with y := d }
  else c

/-- `_get_vars` (trackeddy.py:118-122) -/
def getVars (c : Coords) (v : String) : Coords :=
  if hasSub "lon" v || v == "x" then { c with xVar := some v }
  else if hasSub "lat" v || v == "y" then { c with yVar := some v }
  else c

/-- `identify_coords` (trackeddy.py:103-108): the dimensions of the variable, then the data variables of the
dataset (`Dataset.keys()` does not list coordinates) -/
def identifyCoords (dims vars : List String) : Coords :=
  vars.foldl getVars (dims.foldl getDims ⟨"", "", "", none, none⟩)

/-- choice of the coordinate names in `check_coords` (trackeddy.py:67-77) -/
def chooseCoords (c : Coords) : Except PyErr (String × String) :=
  match c.xVar, c.yVar with
  | some x, some y => .ok (x, y)
  | _, _ => if c.x ≠ "" ∧ c.y ≠ "" then .ok (c.x, c.y) else .error .valueError

/-- values of a coordinate, by number of dimensions -/
inductive CoordArr (K : Type)
  | d1 (l : List K)
  | d2 (m : List (List K))
  | other
  deriving DecidableEq, Repr

/-- `np.meshgrid(x, y)`: one row per entry of `y` -/
def meshgrid {K : Type} (x y : List K) : List (List K) × List (List K) :=
  (y.map fun _ => x, y.map fun v => x.map fun _ => v)

/-- the arrays `X`, `Y` in `check_coords` (trackeddy.py:79-99) -/
def coordGrids {K : Type} : CoordArr K → CoordArr K → Except PyErr (List (List K) × List (List K))
  | .d1 x, .d1 y => .ok (meshgrid x y)
  | .d2 x, .d2 y => .ok (x, y)
  | _, _ => .error .valueError

/-- entry of a two-dimensional array -/
def at2 {K : Type} (m : List (List K)) (j i : Nat) : Option K := m[j]?.bind (·[i]?)

end Trackeddy
