import Verif.Model.Table

/-!
Model of `Eddy.to_dict`, `Eddy.to_table`, `Eddy.store` (its table) and `Eddy.discarded` (its table)
(trackeddy/eddy.py:41-213).

Values are of an arbitrary type `V` (numbers, strings, `None`). Pandas: a dict of columns of which some
are 1-d arrays gives a frame with one row per array element, scalars (0-d arrays) are broadcast;
`ValueError` if there is no array, if lengths differ or if an array has more than one dimension.
-/
namespace Trackeddy

/-- A numpy array: shape and elements in C order. -/
structure NdArr (V : Type) where
  shape : List Nat
  data : List V

variable {V : Type}

namespace NdArr

/-- shape and number of elements fit -/
def WF (a : NdArr V) : Prop := a.data.length = a.shape.prod

/-- a 0-d array -/
def scalar (v : V) : NdArr V := ⟨[], [v]⟩

/-- `squeeze()` (eddy.py:97): axes of length one are removed -/
def squeeze (a : NdArr V) : NdArr V := ⟨a.shape.filter (· ≠ 1), a.data⟩

end NdArr

/-- entry of the dictionary: a number or a one dimensional array -/
inductive Cell (V : Type)
  | scalar (v : V)
  | column (l : List V)
  deriving DecidableEq, Repr

/-- `attr[i]` for an array with one or two axes; `IndexError` outside (eddy.py:109-125) -/
def NdArr.item (a : NdArr V) (i : Nat) : Except PyErr (Cell V) :=
  match a.shape with
  | [n] => if i < n then
      match a.data[i]? with
      | some v => .ok (.scalar v)
      | none => .error .indexError
    else .error .indexError
  | [r, c] => if i < r then .ok (.column ((a.data.drop (i * c)).take c)) else .error .indexError
  | _ => .error .indexError

/-- `attr[:, j]` of an array with two axes (eddy.py:103-104) -/
def NdArr.col (a : NdArr V) (j : Nat) : Except PyErr (Cell V) :=
  match a.shape with
  | [r, c] => if j < c then .ok (.column ((List.range r).filterMap fun i => a.data[i * c + j]?))
    else .error .indexError
  | _ => .error .indexError

/-- names given to the elements of a one dimensional property (eddy.py:108-125) -/
def elementNames : String → Option (List String)
  | "ellipse_params" => some ["ellipse_params_a", "ellipse_params_b", "ellipse_params_theta"]
  | "contour_center" => some ["contour_x", "contour_y"]
  | "eddy_maxima" => some ["maxima", "maxima_y", "maxima_x"]
  | "gaussian_params" => some ["gaussian_params_x", "gaussian_params_y", "gaussian_params_sigma_x",
      "gaussian_params_sigma_y", "gaussian_params_theta"]
  | _ => none

/-- entries that one property adds to the dictionary (eddy.py:91-132) -/
def entries (prop : String) (attr : NdArr V) : Except PyErr (List (String × Cell V)) :=
  let a := attr.squeeze
  if a.shape.length > 2 then .ok []
  else if a.shape.length = 2 ∧ 2 ∈ a.shape then do
    let x ← a.col 0
    let y ← a.col 1
    return [("contour_path_x", x), ("contour_path_y", y)]
  else if a.shape = [] then
    match a.data with
    | v :: _ => .ok [(prop, .scalar v)]
    | [] => .error .indexError
  else
    match elementNames prop with
    | none => .error .valueError
    | some names => names.zipIdx.mapM fun p => (a.item p.2).map fun c => (p.1, c)

/-- `dict[k] = v`: an existing key keeps its place -/
def dictSet {κ β : Type} [DecidableEq κ] (d : List (κ × β)) (k : κ) (v : β) : List (κ × β) :=
  if d.any (fun e => e.1 = k) then d.map fun e => if e.1 = k then (k, v) else e else d ++ [(k, v)]

/-- `to_dict` (eddy.py:41-134) for a list of properties; `getattr` of a name that is no attribute is not
modelled (every name has a value `attr name`). -/
def toDict (attr : String → NdArr V) (props : List String) : Except PyErr (List (String × Cell V)) :=
  props.foldlM (fun d prop => do
    let es ← entries prop (attr prop)
    return es.foldl (fun d e => dictSet d e.1 e.2) d) []

/-- properties written by default (eddy.py:73-88) -/
def defaultProps : List String :=
  ["identifier", "contour", "level", "area_eddy", "radius_eddy", "ellipse_params",
   "contour_ellipse_error", "ellipse_eccen", "contour_center", "eddy_sign", "eddy_maxima",
   "gaussian_params", "contour_gaussian_error"]

/-- properties of a discarded contour (eddy.py:197-208) -/
def discardProps : List String :=
  ["reason", "level", "area_eddy", "radius_eddy", "contour_ellipse_error", "contour_center",
   "ellipse_eccen", "eddy_sign", "eddy_maxima", "contour_gaussian_error"]

/-- a row of a table: the column `index` and the named columns -/
structure TRow (V : Type) where
  index : Nat
  cols : List (String × V)
  deriving DecidableEq, Repr

/-- value of a cell in row `i` -/
def Cell.at (c : Cell V) (i : Nat) : Option V :=
  match c with
  | .scalar v => some v
  | .column l => l[i]?

/-- length of an array cell -/
def Cell.len? : Cell V → Option Nat
  | .scalar _ => none
  | .column l => some l.length

/-- `pd.DataFrame.from_dict(d).reset_index()` (eddy.py:152) -/
def frame (d : List (String × Cell V)) : Except PyErr (List (TRow V)) :=
  match d.filterMap fun e => e.2.len? with
  | [] => .error .valueError
  | n :: ns =>
    if ns.all (· = n) then
      .ok ((List.range n).map fun i => ⟨i, d.filterMap fun e => (e.2.at i).map fun v => (e.1, v)⟩)
    else .error .valueError

/-- `to_table` (eddy.py:136-153); `None` or an empty list selects the default properties -/
def toTable (attr : String → NdArr V) (props : List String) : Except PyErr (List (TRow V)) := do
  frame (← toDict attr (if props = [] then defaultProps else props))

/-- `store` (eddy.py:159-176): the identifier is set, then the default table made -/
def storeTable (attr : String → NdArr V) (id : V) : Except PyErr (List (TRow V)) :=
  toTable (fun p => if p = "identifier" then NdArr.scalar id else attr p) []

/-- `discarded` (eddy.py:178-213): one row with index `[id]`; a column with a length other than one does
not fit the index. -/
def discardTable (attr : String → NdArr V) (reason : V) (id : Nat) : Except PyErr (List (TRow V)) := do
  let d ← toDict (fun p => if p = "reason" then NdArr.scalar reason else attr p) discardProps
  if d.all fun e => e.2.len? = none ∨ e.2.len? = some 1 then
    .ok [⟨id, d.filterMap fun e => (e.2.at 0).map fun v => (e.1, v)⟩]
  else .error .valueError

end Trackeddy
