import Mathlib.Order.Defs.LinearOrder
import Mathlib.Algebra.Field.Defs
import Mathlib.Data.List.Chain
import Mathlib.Data.List.Nodup

/-!
What a contour of gridded data at a level is, without reference to the tracer: a sequence of grid edges
that are crossed by the level, in which neighbours are joined through a grid cell.
-/
namespace Trackeddy.Spec

variable {K : Type} [Field K] [LinearOrder K]

/-- gridded data: `nx` times `ny` points with coordinates, values (`none` if missing) and a mask -/
structure Grid (K : Type) where
  nx : ℕ
  ny : ℕ
  x : ℕ × ℕ → K
  y : ℕ × ℕ → K
  z : ℕ × ℕ → Option K
  masked : ℕ × ℕ → Bool

/-- a grid edge: from (i, j) to (i, j+1) if `vert`, to (i+1, j) otherwise -/
structure Side where
  i : ℕ
  j : ℕ
  vert : Bool
  deriving DecidableEq, Repr

def Side.a (e : Side) : ℕ × ℕ := (e.i, e.j)
def Side.b (e : Side) : ℕ × ℕ := if e.vert then (e.i, e.j + 1) else (e.i + 1, e.j)

/-- the sides of the cell with lower left corner `c` -/
def sidesOf (c : ℕ × ℕ) : List Side :=
  [⟨c.1, c.2, false⟩, ⟨c.1 + 1, c.2, true⟩, ⟨c.1, c.2 + 1, false⟩, ⟨c.1, c.2, true⟩]

def cornersOf (c : ℕ × ℕ) : List (ℕ × ℕ) := [(c.1, c.2), (c.1 + 1, c.2), (c.1, c.2 + 1), (c.1 + 1, c.2 + 1)]

namespace Grid
variable (G : Grid K)

/-- a cell of the grid without masked corner -/
def IsCell (c : ℕ × ℕ) : Prop := c.1 + 1 < G.nx ∧ c.2 + 1 < G.ny ∧ ∀ p ∈ cornersOf c, G.masked p = false

/-- the value at a point is above the level; missing values are not -/
def Above (lev : K) (p : ℕ × ℕ) : Prop := ∃ v, G.z p = some v ∧ lev < v

/-- the mean of the corner values is above the level; it is not if a value is missing -/
def CentreAbove (lev : K) (c : ℕ × ℕ) : Prop :=
  ∃ p q r s, G.z (c.1, c.2) = some p ∧ G.z (c.1 + 1, c.2) = some q ∧ G.z (c.1, c.2 + 1) = some r ∧
    G.z (c.1 + 1, c.2 + 1) = some s ∧ lev < (p + q + r + s) / 4

/-- the level passes between the end points -/
def Crossed (lev : K) (e : Side) : Prop := ¬ (G.Above lev e.a ↔ G.Above lev e.b)

/-- a side of some cell -/
def InMesh (e : Side) : Prop := ∃ c, G.IsCell c ∧ e ∈ sidesOf c

/-- a side of one cell only -/
def Border (e : Side) : Prop := ∃! c, G.IsCell c ∧ e ∈ sidesOf c

/-- the contour passes from `e` to `e'` through a cell. If it crosses all four sides, the two pieces cut off the
corners that are not on the same side of the level as the centre. -/
def Joined (lev : K) (e e' : Side) : Prop :=
  ∃ c, G.IsCell c ∧ e ∈ sidesOf c ∧ e' ∈ sidesOf c ∧ e ≠ e' ∧ G.Crossed lev e ∧ G.Crossed lev e' ∧
    ((∀ s ∈ sidesOf c, G.Crossed lev s) →
      ∃ p, (p = e.a ∨ p = e.b) ∧ (p = e'.a ∨ p = e'.b) ∧ (G.Above lev p ↔ ¬ G.CentreAbove lev c))

/-- where the level is reached on the side by linear interpolation; missing if a value is missing -/
def point (lev : K) (e : Side) : Option (K × K) :=
  match G.z e.a, G.z e.b with
  | some u, some v =>
    let w := (lev - u) / (v - u)
    some (G.x e.a + w * (G.x e.b - G.x e.a), G.y e.a + w * (G.y e.b - G.y e.a))
  | _, _ => none

/-- a contour line: joined sides. It is closed, with at least four sides (so that it does not run back through a cell),
or it starts and ends at the border. -/
structure IsContour (lev : K) (es : List Side) : Prop where
  two : 2 ≤ es.length
  joined : es.IsChain (G.Joined lev)
  closed : es.head? = es.getLast? → 5 ≤ es.length
  opened : es.head? ≠ es.getLast? → ∀ e, es.head? = some e ∨ es.getLast? = some e → G.Border e

end Grid

/-- the sides of a contour line, each once -/
def body (es : List Side) : List Side := if es.head? = es.getLast? then es.tail else es

/-- `a` and `b` are neighbours in the list -/
def Adjacent {α : Type} (l : List α) (a b : α) : Prop :=
  ∃ k, (l[k]? = some a ∧ l[k + 1]? = some b) ∨ (l[k]? = some b ∧ l[k + 1]? = some a)

/-- two polygons that consist of the same pieces; they may start at different vertices and have opposite directions -/
def SameLine {α : Type} (l l' : List α) : Prop := l.length = l'.length ∧ ∀ a b, Adjacent l a b ↔ Adjacent l' a b

/-- two families of polygons that are the same up to the order of the polygons, start vertices and directions -/
def SameLines {α : Type} (L L' : List (List α)) : Prop := ∃ M : List (List α), M.Perm L' ∧ List.Forall₂ SameLine L M

/-- the path codes of `n` points: 1 for the first (`MOVETO`), 2 for the others (`LINETO`) -/
def codes (n : ℕ) : List ℕ := (List.range n).map fun k => if k = 0 then 1 else 2

/-- the contour lines of a level: all are contour lines, and every crossed side of a cell is on one of them, once -/
structure Contours (G : Grid K) (lev : K) (cs : List (List Side)) : Prop where
  each : ∀ es ∈ cs, G.IsContour lev es
  once : (cs.flatMap body).Nodup
  all : ∀ e, e ∈ cs.flatMap body ↔ G.InMesh e ∧ G.Crossed lev e

end Trackeddy.Spec
