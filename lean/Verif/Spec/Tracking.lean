import Verif.Model.Tracking

/-!
Specification vocabulary for tables, tracking and merging (C01-C16).  It uses only the data types of
the model (rows), not its functions.
-/
namespace Trackeddy.Spec
open Trackeddy

variable {α K Pt : Type} [Field K] [LinearOrder K] [IsStrictOrderedRing K]

/-- The oracle returns the position of a nearest point (`BallTree.query`, trusted). -/
def IsNN (dist : Pt → Pt → K) (nn : List Pt → Pt → Nat) : Prop :=
  ∀ P q, P ≠ [] → ∃ a, P[nn P q]? = some a ∧ ∀ p ∈ P, dist q a ≤ dist q p

/-- The identifiers occurring in the rows are exactly `0..k-1`. -/
def Contiguous (rows : List (Row α)) (k : Nat) : Prop := ∀ i, (∃ r ∈ rows, r.id = i) ↔ i < k

/-- Every identifier has a first contour point. -/
def HasFirst (rows : List (Row α)) : Prop := ∀ r ∈ rows, ∃ s ∈ rows, s.id = r.id ∧ s.idx = 0

/-- Every identifier has a first contour point at each of its times. -/
def HasFirstT (rows : List (Row (Int × α))) : Prop :=
  ∀ r ∈ rows, ∃ s ∈ rows, s.id = r.id ∧ s.idx = 0 ∧ s.val.1 = r.val.1

/-- Rows ascending in (identifier, point index). -/
def SortedSnap (rows : List (Row α)) : Prop :=
  rows.Pairwise fun r s => r.id < s.id ∨ r.id = s.id ∧ r.idx ≤ s.idx

/-- Rows ascending in (identifier, time, point index). -/
def SortedTrack (rows : List (Row (Int × α))) : Prop :=
  rows.Pairwise fun r s => r.id < s.id ∨ r.id = s.id ∧
    (r.val.1 < s.val.1 ∨ r.val.1 = s.val.1 ∧ r.idx ≤ s.idx)

/-- A detected eddy: its contour points (rows 0,1,2,... of the table). -/
abbrev Eddy (α : Type) := List α

/-- Rows of one eddy under an identifier. -/
def eddyRows (i : Nat) (e : Eddy α) : List (Row α) := e.mapIdx fun j v => ⟨i, j, v⟩

/-- Rows of a list of eddies numbered 0,1,2,... -/
def snapRows (es : List (Eddy α)) : List (Row α) := (es.mapIdx eddyRows).flatten

/-- Rows with a time stamp. -/
def atTime (t : Int) (rows : List (Row α)) : List (Row (Int × α)) :=
  rows.map fun r => ⟨r.id, r.idx, (t, r.val)⟩

/-- `p` is the last known maximum of track `i`: position of a first contour point at the latest time
of that track. -/
def IsEnd (pos : α → Pt) (rows : List (Row (Int × α))) (i : Nat) (p : Pt) : Prop :=
  ∃ r ∈ rows, r.id = i ∧ r.idx = 0 ∧ pos r.val.2 = p ∧ ∀ s ∈ rows, s.id = i → s.val.1 ≤ r.val.1

end Trackeddy.Spec

namespace Trackeddy.Spec
variable {α K Pt : Type} [Field K] [LinearOrder K] [IsStrictOrderedRing K]

/-- `tgt` chooses, for each new eddy (given by the value of its first row), a nearest existing one. -/
def NearestChoice (dist : Pt → Pt → K) (pos : α → Pt) (old new : List α) (tgt : Nat → Nat) : Prop :=
  ∀ (i : Nat) (v : α), new[i]? = some v → ∃ u, old[tgt i]? = some u ∧
    ∀ w ∈ old, dist (pos v) (pos u) ≤ dist (pos v) (pos w)

/-- the new eddy `i` lies within its radius (km) of its nearest existing eddy -/
def Near (dist : Pt → Pt → K) (pos : α → Pt) (radius : α → K) (old new : List α) (tgt : Nat → Nat)
    (i : Nat) : Prop :=
  ∃ v u, new[i]? = some v ∧ old[tgt i]? = some u ∧ dist (pos v) (pos u) * 6371 < radius v

/-- both scores of the new eddy `i` are numbers strictly below those of its nearest existing eddy (none is NaN) -/
def Lower (ellErr gauErr : α → Option K) (old new : List α) (tgt : Nat → Nat) (i : Nat) : Prop :=
  ∃ v u, new[i]? = some v ∧ old[tgt i]? = some u ∧
    (∃ x y, ellErr v = some x ∧ ellErr u = some y ∧ x < y) ∧ ∃ x y, gauErr v = some x ∧ gauErr u = some y ∧ x < y

/-- The merge rule: which eddies make up the merged snapshot `R`. -/
structure MergeRule {β : Type} (old new R : List β) (tgt : Nat → Nat) (near replaces : Nat → Prop) :
    Prop where
  /-- an existing eddy that no new one replaces is kept unchanged -/
  kept : ∀ j < old.length, (∀ i < new.length, near i → replaces i → tgt i ≠ j) → R[j]? = old[j]?
  /-- a replacing eddy takes the identifier of the eddy it replaces -/
  replaced : ∀ i < new.length, near i → replaces i → R[tgt i]? = new[i]?
  /-- the remaining eddies are the new ones without neighbour, in order -/
  appended : ∃ is : List Nat, is.Pairwise (· < ·) ∧ (∀ i, i ∈ is ↔ i < new.length ∧ ¬ near i) ∧
    ∃ R', R = R' ++ is.filterMap (fun i => new[i]?) ∧ R'.length = old.length

/-- no two new eddies replace the same existing one -/
def NoCollision (tgt : Nat → Nat) (n : Nat) (near replaces : Nat → Prop) : Prop :=
  ∀ i < n, ∀ i' < n, near i → replaces i → near i' → replaces i' → tgt i = tgt i' → i = i'

/-- rows of the snapshot at time `u` -/
def rowsAt (snap : Int → Except PyErr (Tbl α)) (u : Int) : List (Row α) :=
  match snap u with
  | .ok C => C.rows
  | .error _ => []

/-- Conditions on the snapshots: contiguous identifiers, each with a first contour point. -/
def SnapRows (rows : List (Row α)) : Prop := HasFirst rows ∧ ∃ m, Contiguous rows m

/-- first points of the eddies -/
def heads (es : List (Eddy α)) : List α := es.filterMap List.head?

/-- the rows of a table have pairwise different (identifier, time, point index) -/
def KeyUnique (rows : List (Row (Int × α))) : Prop :=
  rows.Pairwise fun r s => ¬ (r.id = s.id ∧ r.val.1 = s.val.1 ∧ r.idx = s.idx)

/-- the detections are at least the sum of their radii (km) apart -/
def DisjointDiscs (dist : Pt → Pt → K) (pos : α → Pt) (radius : α → K) (det : List α) : Prop :=
  ∀ (c c' : Nat) (v v' : α), det[c]? = some v → det[c']? = some v' → c ≠ c' →
    radius v + radius v' ≤ dist (pos v) (pos v') * 6371

/-- The linking rule: `ends` are the ends of the tracks `0,1,...`, `det` the detections, `a c` the
identifier given to detection `c`. -/
structure LinkRule (dist : Pt → Pt → K) (pos : α → Pt) (radius : α → K) (ends : List Pt)
    (det : List α) (a : Nat → Nat) : Prop where
  /-- some track end within the radius of the detection: it gets the identifier of a nearest track -/
  linked : ∀ (c : Nat) (v : α), det[c]? = some v → (∃ p ∈ ends, dist (pos v) p * 6371 < radius v) →
    ∃ p, ends[a c]? = some p ∧ (∀ q ∈ ends, dist (pos v) p ≤ dist (pos v) q) ∧
      dist (pos v) p * 6371 < radius v
  /-- no track end within the radius: it gets a new identifier -/
  fresh : ∀ (c : Nat) (v : α), det[c]? = some v → (¬ ∃ p ∈ ends, dist (pos v) p * 6371 < radius v) →
    ends.length ≤ a c
  /-- new identifiers are given in the order of the detections -/
  order : ∀ (c c' : Nat) (v v' : α), det[c]? = some v → det[c']? = some v' → c < c' →
    ends.length ≤ a c → ends.length ≤ a c' → a c < a c'

end Trackeddy.Spec
