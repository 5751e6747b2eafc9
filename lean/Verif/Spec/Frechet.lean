import Mathlib.Order.Bounds.Defs
import Mathlib.Data.List.Basic

/-!
Specification of the discrete Fréchet distance (Eiter & Mannila 1994), independent of the model.
-/
namespace Trackeddy.Frechet.Spec

/-- One step of a coupling: advance on the first curve, on the second, or on both. -/
def Step (a b : Nat × Nat) : Prop :=
  b = (a.1 + 1, a.2) ∨ b = (a.1, a.2 + 1) ∨ b = (a.1 + 1, a.2 + 1)

/-- A coupling of curves with last indices `m` and `n`: a list of index pairs (links) which starts at
the first points, ends at the last points and advances by steps. -/
def IsCoupling (m n : Nat) (L : List (Nat × Nat)) : Prop :=
  L.head? = some (0, 0) ∧ L.getLast? = some (m, n) ∧ L.IsChain Step

/-- `u` is the length of some link of the coupling `L` of the curves `A` and `B`. -/
def LinkLength {K P : Type*} (dist : P → P → K) (A B : List P) (L : List (Nat × Nat)) (u : K) : Prop :=
  ∃ l ∈ L, ∃ a b, A[l.1]? = some a ∧ B[l.2]? = some b ∧ u = dist a b

/-- `w` is the length of the longest link of some coupling of `A` and `B`. -/
def CouplingCost {K P : Type*} [LE K] (dist : P → P → K) (A B : List P) (w : K) : Prop :=
  ∃ L, IsCoupling (A.length - 1) (B.length - 1) L ∧ IsGreatest {u | LinkLength dist A B L u} w

/-- `v` is the discrete Fréchet distance of the (non-empty) curves `A` and `B`: the least cost of
any coupling. -/
def IsDiscreteFrechet {K P : Type*} [LE K] (dist : P → P → K) (A B : List P) (v : K) : Prop :=
  A ≠ [] ∧ B ≠ [] ∧ IsLeast {w | CouplingCost dist A B w} v

/-- `A'` consists of the elements of `A` at the indices `0, s, 2s, ...`. -/
def EveryNth {P : Type*} (s : Nat) (A A' : List P) : Prop := ∀ i, A'[i]? = A[i * s]?

end Trackeddy.Frechet.Spec
