import Verif.Spec.Contour

/-!
Vocabulary for lines that do not cross: the straight pieces between neighbouring vertices, and grids whose lines are parallel to the
axes.
-/
namespace Trackeddy.Spec

variable {K : Type} [Field K] [LinearOrder K]

/-- `P` is on the straight piece from vertex `k` to vertex `k + 1`; there is no piece at a missing vertex -/
def OnPiece (ps : List (Option (K × K))) (k : ℕ) (P : K × K) : Prop :=
  ∃ p q τ, ps[k]? = some (some p) ∧ ps[k + 1]? = some (some q) ∧ 0 ≤ τ ∧ τ ≤ 1 ∧
    P = (p.1 + τ * (q.1 - p.1), p.2 + τ * (q.2 - p.2))

/-- the lines have a point in common -/
def Meet (ps ps' : List (Option (K × K))) : Prop := ∃ P k k', OnPiece ps k P ∧ OnPiece ps' k' P

/-- The line does not touch itself: consecutive pieces have only the vertex between them in common, the first and the last piece of
a closed line the start, all others nothing; and no piece is a single point. -/
structure Simple (ps : List (Option (K × K))) : Prop where
  apart : ∀ k k' P, k < k' → OnPiece ps k P → OnPiece ps k' P →
    k' = k + 1 ∧ ps[k']? = some (some P) ∨
      k = 0 ∧ k' + 2 = ps.length ∧ ps[0]? = some (some P) ∧ ps[k' + 1]? = some (some P)
  proper : ∀ k p, ps[k]? = some (some p) → ps[k + 1]? ≠ some (some p)

/-- ascending or descending -/
def StrictAxis (n : ℕ) (f : ℕ → K) : Prop := (∀ i j, i < j → j < n → f i < f j) ∨ (∀ i j, i < j → j < n → f j < f i)

/-- the first coordinate depends on the column, the second one on the row, both ascending or descending -/
def Grid.Rect (G : Grid K) : Prop :=
  ∃ xs ys : ℕ → K, (∀ i j, i < G.nx → j < G.ny → G.x (i, j) = xs i ∧ G.y (i, j) = ys j) ∧ StrictAxis G.nx xs ∧ StrictAxis G.ny ys

/-- no value is the level; values may be missing -/
def Grid.Misses (G : Grid K) (lev : K) : Prop := ∀ i j, i < G.nx → j < G.ny → G.z (i, j) ≠ some lev

end Trackeddy.Spec
