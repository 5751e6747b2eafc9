import Verif.Spec.Tracking

/-!
Specification vocabulary for C123 and C124: the tracks of two tables compared. An eddy of a table is given by the row of its first
contour point, `t` is its time, `v` its columns.
-/
namespace Trackeddy.Spec
open Trackeddy

variable {α K Pt : Type} [Field K] [LinearOrder K] [IsStrictOrderedRing K]

/-- the eddies with the property `P` are the same in both tables -/
def Share (P : Int → α → Prop) (rows rows' : List (Row (Int × α))) : Prop :=
  ∀ t v, P t v → ((∃ r ∈ rows, r.idx = 0 ∧ r.val = (t, v)) ↔ ∃ r ∈ rows', r.idx = 0 ∧ r.val = (t, v))

/-- Eddies with the property and eddies without it are out of each other's reach: of two such eddies at different times the earlier
one is not within the radius of the later one. -/
def OutOfReach (dist : Pt → Pt → K) (pos : α → Pt) (radius : α → K) (P : Int → α → Prop) (rows : List (Row (Int × α))) : Prop :=
  ∀ r ∈ rows, ∀ s ∈ rows, r.idx = 0 → s.idx = 0 → s.val.1 < r.val.1 → ¬ (P r.val.1 r.val.2 ↔ P s.val.1 s.val.2) →
    radius r.val.2 ≤ dist (pos r.val.2) (pos s.val.2) * 6371

/-- Two earlier eddies at the same distance from an eddy, within its radius, are at the same place (all three with the property). -/
def NoEqualDistances (dist : Pt → Pt → K) (pos : α → Pt) (radius : α → K) (P : Int → α → Prop) (rows : List (Row (Int × α))) : Prop :=
  ∀ r ∈ rows, ∀ e ∈ rows, ∀ f ∈ rows, r.idx = 0 → e.idx = 0 → f.idx = 0 → P r.val.1 r.val.2 → P e.val.1 e.val.2 → P f.val.1 f.val.2 →
    e.val.1 < r.val.1 → f.val.1 < r.val.1 → dist (pos r.val.2) (pos e.val.2) * 6371 < radius r.val.2 →
    dist (pos r.val.2) (pos e.val.2) = dist (pos r.val.2) (pos f.val.2) → dist (pos e.val.2) (pos f.val.2) = 0

/-- Two eddies with the property that are in both tables are in one track in both, or in none. -/
def SameTracks (P : Int → α → Prop) (rows rows' : List (Row (Int × α))) : Prop :=
  ∀ r ∈ rows, ∀ s ∈ rows, ∀ r' ∈ rows', ∀ s' ∈ rows', r.idx = 0 → s.idx = 0 → r'.idx = 0 → s'.idx = 0 →
    P r.val.1 r.val.2 → P s.val.1 s.val.2 → r'.val = r.val → s'.val = s.val → (r'.id = s'.id ↔ r.id = s.id)

end Trackeddy.Spec
