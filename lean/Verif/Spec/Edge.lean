import Verif.Spec.Pipeline

/-!
Vocabulary for C108: the outermost grid points and contours that end there.
-/
namespace Trackeddy.Spec

/-- a grid point of the first or last row or column -/
def Grid.Outermost (G : Grid ℝ) (p : ℕ × ℕ) : Prop :=
  p.1 < G.nx ∧ p.2 < G.ny ∧ (p.1 = 0 ∨ p.1 + 1 = G.nx ∨ p.2 = 0 ∨ p.2 + 1 = G.ny)

/-- `q` is the next grid point of the same row or column -/
def NextPoint (p q : ℕ × ℕ) : Prop := q = (p.1 + 1, p.2) ∨ q = (p.1, p.2 + 1)

/-- `v` lies between two neighbouring grid points of the first or last row or column -/
def Grid.OnEdge (G : Grid ℝ) (v : ℝ × ℝ) : Prop :=
  ∃ (p q : ℕ × ℕ) (w : ℝ), G.Outermost p ∧ G.Outermost q ∧ NextPoint p q ∧ 0 ≤ w ∧ w ≤ 1 ∧
    v = (G.x p + w * (G.x q - G.x p), G.y p + w * (G.y q - G.y p))

/-- the polygon ends where it starts -/
def ClosedLine (pts : List (ℝ × ℝ)) : Prop := pts.head? = pts.getLast?

/-- both ends of the polygon are on the edge of the grid -/
def EndsOnEdge (G : Grid ℝ) (pts : List (ℝ × ℝ)) : Prop :=
  ∀ v, pts.head? = some v ∨ pts.getLast? = some v → G.OnEdge v

/-- the level does not separate outermost grid points -/
def Grid.EdgeOnOneSide (G : Grid ℝ) (l : ℝ) : Prop :=
  ∀ p q, G.Outermost p → G.Outermost q → (G.Above l p ↔ G.Above l q)

end Trackeddy.Spec
