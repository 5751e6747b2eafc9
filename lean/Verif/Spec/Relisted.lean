import Verif.Spec.Contour

/-!
The same polygon listed from another vertex or in the other direction.
-/
namespace Trackeddy.Spec

/-- `m` is `l`, or, if `l` ends where it starts, the same closed polygon from another vertex -/
def Restarted {α : Type} (l m : List α) : Prop :=
  m = l ∨ ∃ p x A B, l = p :: A ++ x :: B ++ [p] ∧ m = x :: B ++ p :: A ++ [x]

/-- the same polygon, possibly from another vertex (if it is closed) and in the other direction -/
def Relisted {α : Type} (l l' : List α) : Prop := ∃ m, Restarted l m ∧ (l' = m ∨ l' = m.reverse)

/-- two families of polygons that are the same up to the order of the polygons, start vertices and directions -/
def SamePolygons {α : Type} (L L' : List (List α)) : Prop := ∃ M : List (List α), M.Perm L' ∧ List.Forall₂ Relisted L M

end Trackeddy.Spec
