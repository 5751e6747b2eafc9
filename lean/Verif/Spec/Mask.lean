import Mathlib.Logic.Relation
import Mathlib.Algebra.Order.Group.Unbundled.Abs
import Mathlib.Algebra.Order.Group.Int
import Mathlib.Algebra.BigOperators.Group.Finset.Basic

/-!
What "inside a contour" means, and sums over the points inside, without reference to the code.
-/
namespace Trackeddy.Spec

/-- 4-neighbours -/
def Adj (p q : Int × Int) : Prop := |p.1 - q.1| + |p.2 - q.2| = 1

/-- the pixel belongs to the window of `h` rows and `w` columns -/
def InWindow (h w : Nat) (p : Int × Int) : Prop := 0 ≤ p.1 ∧ p.1 < h ∧ 0 ≤ p.2 ∧ p.2 < w

/-- a chain of 4-neighbours leads from `p` out of the window, avoiding the contour -/
def Escapes (h w : Nat) (contour : Int × Int → Prop) (p : Int × Int) : Prop :=
  ∃ q, ¬ InWindow h w q ∧ Relation.ReflTransGen (fun a b => ¬ contour a ∧ Adj a b) p q

/-- on the contour or enclosed by it -/
def Inside (h w : Nat) (contour : Int × Int → Prop) (p : Int × Int) : Prop :=
  InWindow h w p ∧ (contour p ∨ ¬ Escapes h w contour p)

variable {K : Type} [AddCommMonoid K]

/-- sum of the valid data inside -/
def total (h w : Nat) (data : Nat → Nat → Option K) (inside : Nat → Nat → Bool) : K :=
  ∑ r ∈ Finset.range h, ∑ c ∈ Finset.range w,
    match data r c with
    | none => 0
    | some x => if inside r c then x else 0

/-- `x` is the value of a valid point inside -/
def ValueInside (h w : Nat) (data : Nat → Nat → Option K) (inside : Nat → Nat → Bool) (r c : Nat) (x : K) : Prop :=
  r < h ∧ c < w ∧ inside r c = true ∧ data r c = some x

end Trackeddy.Spec
