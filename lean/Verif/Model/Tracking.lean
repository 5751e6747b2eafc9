import Verif.Model.Table
import Mathlib.Algebra.Order.Field.Basic

/-!
Model of the tracking and merging functions of trackeddy/utils.py.

`α` is the payload of a row (all columns except the index columns); for tracking tables the payload
is `Int × α` where the first component is the `time` column / index level.

Simplifications: `BallTree.query` is an oracle `nn` returning the position of a point of the list
(its specification `IsNN` is in Spec/Tracking.lean); `dist` is the haversine metric in radians on
the point type `Pt`; columns are read by accessor functions; the two scores may be NaN (`none`), positions and radii are numbers
(`groupby().last()` would skip NaN).
-/
namespace Trackeddy

variable {α K Pt : Type} [Field K] [LinearOrder K] [IsStrictOrderedRing K]

/-- Column access and the nearest-neighbour oracle. -/
structure Env (α K Pt : Type) where
  /-- `pd.concat` prunes levels (depends on the pandas version) -/
  prunes : Bool
  /-- columns `maxima_y`, `maxima_x` (in radians) -/
  pos : α → Pt
  /-- column `radius_eddy` -/
  radius : α → K
  /-- column `contour_ellipse_error` -/
  ellErr : α → Option K
  /-- column `contour_gaussian_error` -/
  gauErr : α → Option K
  /-- haversine distance in radians -/
  dist : Pt → Pt → K
  /-- `BallTree(points).query(q)[1]`: position of a nearest point -/
  nn : List Pt → Pt → Nat

/-- The same accessors for rows carrying a time. -/
def Env.timed (E : Env α K Pt) : Env (Int × α) K Pt where
  prunes := E.prunes
  pos v := E.pos v.2
  radius v := E.radius v.2
  ellErr v := E.ellErr v.2
  gauErr v := E.gauErr v.2
  dist := E.dist
  nn := E.nn

/-- `_detect_nearest` (utils.py:96-115).  Returns `index[:,0]` and `nearest`.
`xs(0, level="index")` raises `KeyError` when there is no such row. -/
def detectNearest (E : Env α K Pt) (p n : Tbl α) : Except PyErr (List Nat × List Nat) :=
  if p.first = [] ∨ n.first = [] then .error .keyError
  else
    let P := p.first.map fun r => E.pos r.val
    let index := n.first.map fun r => E.nn P (E.pos r.val)
    let near := n.first.map fun r =>
      match P[E.nn P (E.pos r.val)]? with
      | some q => decide (E.dist (E.pos r.val) q * 6371 - E.radius r.val < 0)
      | none => false
    .ok (index, (List.range n.first.length).filter fun i => near[i]? = some true)

/-- `_update_counter` (utils.py:23-33). `max` of empty levels cannot occur (tables are non-empty);
it is a `ValueError` here. -/
def updateCounter (p n : Tbl α) : Except PyErr (Tbl α × Nat) :=
  match p.lev.max? with
  | none => .error .valueError
  | some prev => do
    let n' ← n.setLevels (n.lev.map (· + prev + 1))
    return (n', prev)

/-- `_rename_eddies_in_time` (utils.py:9-20). -/
def renameInTime (cur : Tbl α) (index nearest : List Nat) (prev : Nat) : Except PyErr (Tbl α) :=
  nearest.foldlM (fun cur near =>
    match index[near]? with
    | some j => .ok (cur.rename (near + prev + 1) j)
    | none => .error .indexError) cur

/-- `_merge_reindex_eddies` (utils.py:74-93). -/
def mergeReindex (prunes : Bool) (p n : Tbl α) : Except PyErr (Tbl α) := do
  let new := Tbl.concat prunes p n
  let count := new.lev.length
  let reset := new.resetSet
  let t ← reset.setLevels (List.range count)
  return ⟨t.lev, sortBy (fun r => toLex (r.id, r.idx)) t.rows⟩

/-- comparison of two scores (utils.py:57); false if one of them is NaN -/
def scoreLt : Option K → Option K → Bool
  | some a, some b => decide (a < b)
  | _, _ => false

/-- One iteration of the loop in `_update_better_eddy` (utils.py:42-66), on the state
(new table, replaced identifiers). `loc`/`xs` raise `KeyError` when the label has no row; comparing
arrays whose broadcast shape is not a single element raises `ValueError`. -/
def betterStep (E : Env α K Pt) (p : Tbl α) (index : List Nat) (prev : Nat)
    (st : Tbl α × List Nat) (dup : Nat) : Except PyErr (Tbl α × List Nat) :=
  match index[dup]? with
  | none => .error .indexError
  | some j =>
    match p.first.filter (·.id = j), st.1.first.filter (·.id = dup + prev + 1) with
    | [], _ => .error .keyError
    | _, [] => .error .keyError
    | [a], [b] =>
      if scoreLt (E.ellErr b.val) (E.ellErr a.val) ∧ scoreLt (E.gauErr b.val) (E.gauErr a.val) then
        .ok (st.1.rename (dup + prev + 1) j, st.2 ++ [j])
      else
        .ok (st.1.drop [dup + prev + 1], st.2)
    | _, _ => .error .valueError

/-- `_update_better_eddy` (utils.py:36-71). -/
def updateBetter (E : Env α K Pt) (p n : Tbl α) (index nearest : List Nat) :
    Except PyErr (Tbl α × Tbl α) := do
  let (n', prev) ← updateCounter p n
  let (n'', replaced) ← nearest.foldlM (betterStep E p index prev) (n', [])
  return (if replaced = [] then p else p.drop replaced, n'')

/-- One non-empty level merged into the joint table (trackeddy.py:254-262). -/
def mergeLevel (E : Env α K Pt) (joint cur : Tbl α) : Except PyErr (Tbl α) := do
  let (index, nearest) ← detectNearest E joint cur
  let (p, n) ← updateBetter E joint cur index nearest
  mergeReindex E.prunes p n

/-- One iteration of the loop over the levels (trackeddy.py:241-262); `detect` gives the table of
stored eddies of a level (`_detect_one_level`; C19 shows that it is a function of the level), an
empty table is modelled by `rows = []`. -/
def levelStep (E : Env α K Pt) (detect : K → Except PyErr (Tbl α)) (joint : Tbl α) (level : K) :
    Except PyErr (Tbl α) := do
  let cur ← detect level
  if cur.rows = [] then return joint
  else if joint.rows = [] then return cur
  else mergeLevel E joint cur

/-- `_detect_snapshot` (trackeddy.py:226-264).  The filtering of the data (line 236) is modelled in
Model/Filter.lean. -/
def detectSnapshot [DecidableEq K] (E : Env α K Pt) (detect : K → Except PyErr (Tbl α))
    (levels : List K) : Except PyErr (Tbl α) :=
  (levels.filter (· ≠ 0)).foldlM (levelStep E detect) ⟨[], []⟩

/-! ### tracking in time -/

/-- identifiers that occur exactly once (`_get_non_duplicated_identifiers`, utils.py:157-166) -/
def nonDuplicated (l : List Nat) : List Nat := (usort l).filter fun i => l.count i < 2

/-- ascending integers `lo, ..., hi-1` (`np.arange`, `range`) -/
def irange (lo hi : Int) : List Int := (List.range (hi - lo).toNat).map fun (i : Nat) => lo + (i : Int)

/-- `table.xs(s, level="time").index.levels[0]`: `KeyError` if no row has this time, otherwise the
*unpruned* levels of the whole table (utils.py:174, 184-186). -/
def xsTimeLevels (T : Tbl (Int × α)) (s : Int) : Except PyErr (List Nat) :=
  if T.rows.any (fun r => r.val.1 = s) then .ok T.lev else .error .keyError

/-- `table.loc[labels]` for a list of labels of level 0 (utils.py:202, 210); `KeyError` for a label
without row. -/
def locList (T : Tbl α) (labels : List Nat) : Except PyErr (Tbl α) :=
  if labels.all (fun i => T.rows.any fun r => r.id = i) then
    .ok ⟨T.lev, labels.flatMap fun i => T.rows.filter fun r => r.id = i⟩
  else .error .keyError

/-- `groupby("identifier").max("time")["time"].values` (utils.py:201-207): one value per identifier,
in ascending order of identifiers. -/
def groupMaxTime (T : Tbl (Int × α)) : List Int :=
  (usort T.ids).filterMap fun i => ((T.rows.filter fun r => r.id = i).map (·.val.1)).max?

/-- `groupby(["identifier", "index"]).last(...)` (utils.py:209-213): last row of each group, groups in
ascending order. -/
def groupLast (T : Tbl α) : List (Row α) :=
  (usort T.ids).flatMap fun i =>
    (usort ((T.rows.filter fun r => r.id = i).map Row.idx)).filterMap fun j =>
      (T.rows.filter fun r => r.id = i ∧ r.idx = j).getLast?

/-- `unlink_eddies_in_previous_times` (utils.py:169-225).  The unused `reindex` of lines 221-223 is
omitted. -/
def unlink (T : Tbl (Int × α)) (time ntimes : Int) : Except PyErr (Tbl (Int × α)) := do
  let ntimes := if time < ntimes then time else ntimes
  let last ← xsTimeLevels T time
  let unlinked ← (irange (time - ntimes) time).foldlM (fun acc s => do
    let prev ← xsTimeLevels T s
    return acc ++ nonDuplicated (last ++ prev)) last
  let unlinked := usort unlinked
  let sel ← locList T unlinked
  let times := groupMaxTime sel
  let rows ← (groupLast sel).mapM fun r =>
    match times[r.id]? with
    | some s => Except.ok { r with val := (s, r.val.2) }
    | none => Except.error PyErr.indexError
  return Tbl.resetSet ⟨[], rows⟩

/-- `track_online` (utils.py:228-256). -/
def trackOnline (E : Env α K Pt) (T cur : Tbl (Int × α)) (time ntimes : Int) :
    Except PyErr (Tbl (Int × α)) := do
  let prevTime ← unlink T (time - 1) ntimes
  let (index, nearest) ← detectNearest E.timed prevTime cur
  let (cur, prev) ← updateCounter prevTime cur
  let cur ← renameInTime cur index nearest prev
  let T ← mergeReindex E.prunes T cur
  return Tbl.resetSet ⟨T.lev, sortBy (fun r => toLex (r.id, toLex (r.val.1, r.idx))) T.rows⟩

/-- `percent`, `stmtime` and `progress` of `Printer.timepercentprint(tf, 1, time, ...)`
(printfunc.py:30-34), only the exceptions: `tf=None` is a `TypeError`, a zero `tf`, `time = -1` a
`ZeroDivisionError`. -/
def progress (tf : Option Int) (time : Int) : Except PyErr Unit :=
  match tf with
  | none => .error .typeError
  | some m => if m = 0 then .error .zeroDivisionError
    else if time + 1 = 0 then .error .zeroDivisionError else .ok ()

/-- State of the loop of `time_tracking`: the table (`rows = []` for the initial empty frame), the
times for which detection was run and the snapshots passed to `store_snapshot`. -/
structure LoopState (α : Type) where
  table : Tbl (Int × α)
  processed : List Int
  written : List (Int × Tbl (Int × α))

/-- `current_time["time"] = time` followed by
`reset_index().set_index(["identifier", "time", "index"])` (trackeddy.py:196, 202-204, 210-212). -/
def stamp (time : Int) (t : Tbl α) : Tbl (Int × α) :=
  Tbl.resetSet ⟨t.lev, t.rows.map fun r => ⟨r.id, r.idx, (time, r.val)⟩⟩

/-- One iteration of the loop of `time_tracking` (trackeddy.py:195-223). `store` is
`store_snapshot` (may raise). -/
def loopStep (E : Env α K Pt) (snap : Int → Except PyErr (Tbl α)) (tf : Option Int) (ntimes : Int)
    (online : Bool) (s : LoopState α) (time : Int) : Except PyErr (LoopState α) := do
  let cur ← snap time
  let s := { s with processed := s.processed ++ [time] }
  if cur.rows = [] then return s
  else if s.table.rows = [] then
    let c := stamp time cur
    return { s with
      table := Tbl.resetSet ⟨c.lev, sortBy (fun r => toLex (r.id, toLex (r.val.1, r.idx))) c.rows⟩ }
  else do
    let c := stamp time cur
    let s ← if online then do
        let T ← trackOnline E s.table c time ntimes
        pure { s with table := T }
      else pure { s with written := s.written ++ [(time, c)] }
    progress tf time
    return s

/-- The times of `time_tracking` (trackeddy.py:185-188); `not tf` holds for `None` and for `0`. -/
def trackTimes (t0 : Int) (tf : Option Int) (T : Nat) : List Int :=
  match tf with
  | none => irange 0 T
  | some f => if f = 0 then irange 0 T else irange t0 f

/-- `time_tracking` (trackeddy.py:181-224). `T` is the length of the time dimension.  Returns the
final loop state, whose `table` is the returned table. -/
def timeTracking (E : Env α K Pt) (snap : Int → Except PyErr (Tbl α)) (t0 : Int) (tf : Option Int)
    (T : Nat) (ntimes : Int) (online : Bool) : Except PyErr (LoopState α) :=
  (trackTimes t0 tf T).foldlM (loopStep E snap tf ntimes online) ⟨⟨[], []⟩, [], []⟩

end Trackeddy
