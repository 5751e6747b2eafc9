import Verif.Spec.Crop
import Verif.Spec.Pipeline

/-!
Vocabulary for what happens inside a part of a map.
-/
namespace Trackeddy.Spec
open Cntr (InsideBox)

/-- Number of rows and columns around a rectangle of `nj` rows and `ni` columns whose data may matter for the eddies inside it: half the larger
side, at least three. -/
def reach (nj ni : ℕ) : ℕ := max 3 ((max nj ni - 1) / 2)

/-- within `m` rows and columns of the rectangle with the rows `j0` to `j0 + nj - 1` and the columns `i0` to `i0 + ni - 1` -/
def Within (m j0 nj i0 ni j i : ℕ) : Prop := j0 ≤ j + m ∧ j < j0 + nj + m ∧ i0 ≤ i + m ∧ i < i0 + ni + m

/-- all vertices of the contour of the eddy are inside the rectangle -/
def EddyInside (X Y : Cntr.NdArr ℝ) (j0 nj i0 ni : ℕ) (d : EddyData (Option ℝ)) : Prop :=
  ∃ pts, HasContour d pts ∧ ∀ P ∈ pts, InsideBox X Y j0 nj i0 ni P

open Classical in
/-- the eddies inside the rectangle -/
noncomputable def eddiesInside (X Y : Cntr.NdArr ℝ) (j0 nj i0 ni : ℕ) (ds : List (EddyData (Option ℝ))) : List (EddyData (Option ℝ)) :=
  ds.filter fun d => EddyInside X Y j0 nj i0 ni d

/-- among the grid points around `m` one is nearer to `v` than all others -/
def UniqueNear (G : Grid ℝ) (m v : ℝ × ℝ) : Prop :=
  ∃ p, NearCentre G m p ∧ ∀ q, NearCentre G m q → q ≠ p →
    (G.x (p.2, p.1) - v.1) ^ 2 + (G.y (p.2, p.1) - v.2) ^ 2 < (G.x (q.2, q.1) - v.1) ^ 2 + (G.y (q.2, q.1) - v.2) ^ 2

/-- The indices `a` to `a + n - 1` of a part that consists of the indices `A` to `A + N - 1` of `total` ones keep the distance `m` from its ends,
except where these are the ends of the whole. -/
def Margin (m total A N a n : ℕ) : Prop := (m ≤ a ∨ A = 0) ∧ (a + n + m ≤ N ∨ A + N = total)

end Trackeddy.Spec
