import Verif.Spec.Tracking
import Verif.Spec.EddyTable
import Verif.Spec.Contour
import Verif.Spec.Mask
import Mathlib.Analysis.SpecialFunctions.Trigonometric.Basic

/-!
Vocabulary for the tables of the whole detection (C84-C87): tables made of whole eddies, and what is said of an eddy in terms
of the gridded data.
-/
namespace Trackeddy.Spec

section
variable {α : Type}

/-- the rows are those of whole eddies that satisfy `P`, in any order and with any identifiers -/
def MadeOf (P : Eddy α → Prop) (rows : List (Row α)) : Prop :=
  ∃ l : List (Nat × Eddy α), (∀ p ∈ l, P p.2) ∧ rows.Perm (l.flatMap fun p => eddyRows p.1 p.2)

/-- the rows are those of whole eddies at some times, `P t e` of each -/
def MadeOfT (P : Int → Eddy α → Prop) (rows : List (Row (Int × α))) : Prop :=
  ∃ l : List (Nat × Int × Eddy α), (∀ p ∈ l, P p.2.1 p.2.2) ∧
    rows.Perm (l.flatMap fun p => atTime p.2.1 (eddyRows p.1 p.2.2))
end

/-- the table rows of an eddy, one for each contour point, without the identifier; `none` is NaN -/
def tableRows (d : EddyData (Option ℝ)) : List (List (String × Option ℝ)) :=
  d.contour.map fun p => (columns d none p).filter fun q => q.1 ≠ "identifier"

/-- the contour of the eddy consists of these points, none of them missing -/
def HasContour (d : EddyData (Option ℝ)) (pts : List (ℝ × ℝ)) : Prop :=
  d.contour = pts.map fun p => (some p.1, some p.2)

/-- The eddy is a complete contour line of the data at one of the levels other than zero. -/
def OnContour (G : Grid ℝ) (levels : List ℝ) (d : EddyData (Option ℝ)) : Prop :=
  ∃ l ∈ levels, l ≠ 0 ∧ d.level = some l ∧ ∃ es pts, G.IsContour l es ∧ es.map (G.point l) = pts.map some ∧
    HasContour d pts

/-- mean of the vertices -/
noncomputable def centroid (pts : List (ℝ × ℝ)) : ℝ × ℝ :=
  ((pts.map Prod.fst).sum / pts.length, (pts.map Prod.snd).sum / pts.length)

/-- the grid point in row `p.1`, column `p.2` differs from `m` by at most 3 degrees and a twentieth in each coordinate -/
def NearCentre (G : Grid ℝ) (m : ℝ × ℝ) (p : ℕ × ℕ) : Prop :=
  p.1 < G.ny ∧ p.2 < G.nx ∧ |G.x (p.2, p.1) - m.1| ≤ 3 + |m.1| / 20 ∧ |G.y (p.2, p.1) - m.2| ≤ 3 + |m.2| / 20

/-- `p` is one of the grid points near `m`, and none of these is nearer to `v` -/
def NearestNear (G : Grid ℝ) (m v : ℝ × ℝ) (p : ℕ × ℕ) : Prop :=
  NearCentre G m p ∧ ∀ q, NearCentre G m q →
    (G.x (p.2, p.1) - v.1) ^ 2 + (G.y (p.2, p.1) - v.2) ^ 2 ≤ (G.x (q.2, q.1) - v.1) ^ 2 + (G.y (q.2, q.1) - v.2) ^ 2

/-- every vertex is within `ρ` of some grid point and within `3 - ρ` of the mean of the vertices in both coordinates -/
def SmallContour (G : Grid ℝ) (pts : List (ℝ × ℝ)) (ρ : ℝ) : Prop :=
  0 ≤ ρ ∧ ∀ v ∈ pts, |v.1 - (centroid pts).1| ≤ 3 - ρ ∧ |v.2 - (centroid pts).2| ≤ 3 - ρ ∧
    ∃ r < G.ny, ∃ c < G.nx, (G.x (c, r) - v.1) ^ 2 + (G.y (c, r) - v.2) ^ 2 ≤ ρ ^ 2

/-- no grid point is nearer to `v` than the one in row `p.1`, column `p.2` -/
def NearestPoint (G : Grid ℝ) (v : ℝ × ℝ) (p : ℕ × ℕ) : Prop :=
  p.1 < G.ny ∧ p.2 < G.nx ∧ ∀ r < G.ny, ∀ c < G.nx,
    (G.x (p.2, p.1) - v.1) ^ 2 + (G.y (p.2, p.1) - v.2) ^ 2 ≤ (G.x (c, r) - v.1) ^ 2 + (G.y (c, r) - v.2) ^ 2

open Classical in
/-- sum of the data at the grid points enclosed by the pixels `pix`, without the missing ones -/
noncomputable def enclosedSum (G : Grid ℝ) (pix : List (ℕ × ℕ)) : ℝ :=
  ∑ r ∈ Finset.range G.ny, ∑ c ∈ Finset.range G.nx,
    if Inside G.ny G.nx (· ∈ pix.map fun p => ((p.1 : Int), (p.2 : Int))) (r, c) then (G.z (c, r)).getD 0 else 0

/-- The extremum of the eddy is the value at a grid point with the reported coordinates. If the mean of the data at the grid points enclosed by
the pixels `pix` is positive it is the largest of these data and positive, if the mean is negative it is the smallest and negative. Pixels are
(row, column). -/
def ExtremumIn (G : Grid ℝ) (d : EddyData (Option ℝ)) (pix : List (ℕ × ℕ)) : Prop :=
  ∃ r c v, r < G.ny ∧ c < G.nx ∧ G.z (c, r) = some v ∧ d.maximum = some v ∧ d.maximumX = some (G.x (c, r)) ∧
    d.maximumY = some (G.y (c, r)) ∧ (0 < v ∧ d.sign = some 1 ∧ 0 < enclosedSum G pix ∨ v < 0 ∧ d.sign = some (-1) ∧ enclosedSum G pix < 0) ∧
    Inside G.ny G.nx (· ∈ pix.map fun p => ((p.1 : Int), (p.2 : Int))) (r, c) ∧
    ∀ (r' c' : ℕ) (w : ℝ), Inside G.ny G.nx (· ∈ pix.map fun p => ((p.1 : Int), (p.2 : Int))) (r', c') →
      G.z (c', r') = some w → (0 < v → w ≤ v) ∧ (v < 0 → v ≤ w)

end Trackeddy.Spec
