import Verif.Spec.Contour

/-!
Where the contour lines returned for a level start, in which direction they run and in which order they are listed.
-/
namespace Trackeddy.Spec

variable {K : Type} [Field K] [LinearOrder K]

/-- order of the grid edges: row by row by the upper or right end point, the vertical edge of a point before the horizontal one -/
def Side.Before (e f : Side) : Prop :=
  e.b.2 < f.b.2 ∨ e.b.2 = f.b.2 ∧ (e.b.1 < f.b.1 ∨ e.b.1 = f.b.1 ∧ e.vert = true ∧ f.vert = false)

namespace Grid
variable (G : Grid K)

/-- a vertical edge from which the contour goes to the right or to the left in a way that a closed contour does at least once:
the upper end point is not on the side of its left neighbour, and the right neighbours are not both on the side of the upper end point -/
def Start (lev : K) (e : Side) : Prop :=
  e.vert = true ∧ 0 < e.i ∧
    ((G.Above lev (e.i, e.j + 1) ∧ ¬ G.Above lev (e.i, e.j) ∧ ¬ G.Above lev (e.i - 1, e.j + 1) ∧
        (¬ G.Above lev (e.i + 1, e.j + 1) ∨ ¬ G.Above lev (e.i + 1, e.j))) ∨
      (¬ G.Above lev (e.i, e.j + 1) ∧ G.Above lev (e.i, e.j) ∧ G.Above lev (e.i - 1, e.j + 1) ∧
        (G.Above lev (e.i + 1, e.j + 1) ∨ G.Above lev (e.i + 1, e.j))))

/-- on entering cell `c` through `e` the higher end point is on the left -/
def LeftAbove (lev : K) (e : Side) (c : ℕ × ℕ) : Prop := (c = e.a ↔ e.vert = true) ∧ G.Above lev e.b ∨ ¬ (c = e.a ↔ e.vert = true) ∧ G.Above lev e.a

/-- the contour has higher values on the left of its first piece -/
def HighLeft (lev : K) (es : List Side) : Prop :=
  ∃ e f c, es[0]? = some e ∧ es[1]? = some f ∧ G.IsCell c ∧ e ∈ sidesOf c ∧ f ∈ sidesOf c ∧ G.LeftAbove lev e c

/-- `e` comes before all other edges of the contour at which it could start -/
def First (lev : K) (es : List Side) (e : Side) : Prop := ∀ f ∈ es, f ≠ e → G.Start lev f ∨ G.Border f → e.Before f

end Grid

/-- The contour lines of a level with their starts, directions and order.

A closed line starts at the first of its starts and has the higher values on the left. Of the two ends of another line, one has the higher values on the left of the line that
starts there. This is where it starts, unless the other end comes before all other possible starts of the line. -/
structure Traced (G : Grid K) (lev : K) (cs : List (List Side)) : Prop where
  lines : Contours G lev cs
  closed : ∀ es ∈ cs, es.head? = es.getLast? → G.HighLeft lev es ∧
    ∃ e, es.head? = some e ∧ G.Start lev e ∧ ∀ f ∈ es, f ≠ e → G.Start lev f → e.Before f
  opened : ∀ es ∈ cs, es.head? ≠ es.getLast? →
    (G.HighLeft lev es ∧ ¬ G.HighLeft lev es.reverse ∧ ∃ e, es.getLast? = some e ∧ ¬ G.First lev es e) ∨
    (G.HighLeft lev es.reverse ∧ ¬ G.HighLeft lev es ∧ ∃ e, es.head? = some e ∧ G.First lev es e)
  order : cs.Pairwise fun es es' => ∃ e e', es.head? = some e ∧ es'.head? = some e' ∧ e.Before e'

/-- `h` is to the left of the line from `p` to `q` (x to the right, y upwards) -/
def LeftOf (p q h : K × K) : Prop := 0 < (q.1 - p.1) * (h.2 - p.2) - (q.2 - p.2) * (h.1 - p.1)

/-- the first coordinate depends on the column, the second one on the row, both ascending -/
def Grid.Ascending (G : Grid K) : Prop :=
  ∃ xs ys : ℕ → K, (∀ i j, i < G.nx → j < G.ny → G.x (i, j) = xs i ∧ G.y (i, j) = ys j) ∧
    (∀ i j, i < j → j < G.nx → xs i < xs j) ∧ ∀ i j, i < j → j < G.ny → ys i < ys j

/-- the place of a grid point -/
def Grid.place (G : Grid K) (p : ℕ × ℕ) : K × K := (G.x p, G.y p)

/-- the lines that end where they start -/
def closedLines {α : Type} [DecidableEq α] (L : List (List α)) : List (List α) := L.filter fun l => l.head? = l.getLast?

end Trackeddy.Spec
