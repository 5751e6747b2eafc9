import Verif.Model.Cntr

/-!
Model of the Python side of contour extraction: the constructor and the method `trace` of `_cntr.Cntr`
(trackeddy/src/cntr.c:1790-1892), the list they return (cntr.c:1487-1547) and `extract_contours`
(trackeddy/geometry.py:9-42).

The arguments are two dimensional arrays of floats: the `TypeError` for other objects (cntr.c:1806-1812) and the
`ValueError` for other dimensions (cntr.c:1825-1831) are excluded by the types. Allocation never fails.
-/
namespace Trackeddy.Cntr

/-- a two dimensional numpy array -/
structure NdArr (α : Type) where
  rows : Nat
  cols : Nat
  get : Nat → Nat → α

/-- its C-contiguous data (cntr.c:1814-1819), rows of length `cols` one after the other -/
def NdArr.data {α : Type} (a : NdArr α) : Arr α := ⟨fun k => a.get (k.toNat / a.cols) (k.toNat % a.cols)⟩

/-- what the memory allocated by `cntr_init` contains before it is written (cntr.c:1314-1330: `data`, `saddle`, `reg`) -/
structure Memory where
  data : Arr Cell
  saddle : Arr (Option Bool)
  reg : Nat → Bool

/-- a Python exception, or tracing goes wrong -/
inductive CntrErr
  | valueError
  | crash (e : CErr)
  deriving DecidableEq, Repr

variable {K : Type} [Field K] [LinearOrder K]

/-- `Cntr_init` (cntr.c:1790-1874): all arrays must have the dimensions of `z` -/
def cntrInit (X Y : NdArr K) (Z : NdArr (Option K)) (mask : Option (NdArr Bool)) :
    Except CntrErr (Mesh K × Option (Nat → Bool)) :=
  let imax := Z.cols
  let jmax := Z.rows
  let badMask := match mask with
    | some M => M.rows ≠ jmax || M.cols ≠ imax
    | none => false
  if X.rows ≠ jmax || X.cols ≠ imax || Y.rows ≠ jmax || Y.cols ≠ imax || badMask then .error .valueError
  else .ok (⟨imax, jmax, X.data, Y.data, Z.data⟩, mask.map fun M k => M.data k)

/-- an element of the returned list: an array of vertices or an array of path codes -/
inductive Item (K : Type)
  | points (v : List (Vertex K))
  | codes (c : List Nat)
  deriving DecidableEq, Repr

/-- `build_cntr_list_v2` (cntr.c:1487-1547): a list of `2 * nparts` entries, contour `i` at `i`, its codes at
`nparts + i` -/
def buildList (parts : List (List (Vertex K × Nat))) : List (Item K) :=
  (parts.map fun p => Item.points (p.map Prod.fst)) ++ parts.map fun p => Item.codes (p.map Prod.snd)

/-- `Cntr(X, Y, Z, mask).trace(level)` (cntr.c:1790-1892) -/
def cntrTrace [DecidableEq K] (X Y : NdArr K) (Z : NdArr (Option K)) (mask : Option (NdArr Bool)) (level : K)
    (fuel : Nat) (mem : Memory) : Except CntrErr (List (Item K)) := do
  let (m, k) ← cntrInit X Y Z mask
  match trace m k level fuel mem.data mem.saddle mem.reg with
  | .ok parts => .ok (buildList parts)
  | .error e => .error (.crash e)

/-- `extract_contours` (geometry.py:9-42): the pair `segments, codes` -/
def extractContours [DecidableEq K] (X Y : NdArr K) (data : NdArr (Option K)) (level : K) (fuel : Nat) (mem : Memory) :
    Except CntrErr (List (Item K) × List (Item K)) := do
  let res ← cntrTrace X Y data none level fuel mem
  let nseg := res.length / 2
  return (res.take nseg, res.drop nseg)

/-- mean of the coordinates (`np.mean`, trackeddy.py:287): NaN if one is -/
def meanOf (l : List (Option K)) : Option K :=
  if l.all Option.isSome then some ((l.map fun v => v.getD 0).sum / l.length) else none

/-- `np.isclose(a, b, equal_nan=True)` with the default tolerances -/
def closeNan [DecidableEq K] (a b : Option K) : Bool :=
  match a, b with
  | some a, some b => decide (|a - b| ≤ 1 / 100000000 + 1 / 100000 * |b|)
  | none, none => true
  | _, _ => false

/-- the test by which `_detect_one_level` skips a contour (trackeddy.py:287):
`np.allclose(np.mean(contour, axis=0), contour[0], equal_nan=True)`; an empty contour does not occur -/
def skipsContour [DecidableEq K] (vs : List (Vertex K)) : Bool :=
  match vs with
  | [] => false
  | v :: _ => closeNan (meanOf (vs.map fun v => v.map Prod.fst)) (v.map Prod.fst) &&
      closeNan (meanOf (vs.map fun v => v.map Prod.snd)) (v.map Prod.snd)

end Trackeddy.Cntr
