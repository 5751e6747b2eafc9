import Verif.Spec.Extract

/-!
Vocabulary for parts of a map.
-/
namespace Trackeddy.Cntr
open Trackeddy.Spec

variable {K : Type} [Field K] [LinearOrder K]

/-- `a[j0:j0 + nj, i0:i0 + ni]` -/
def NdArr.crop {α : Type} (j0 nj i0 ni : ℕ) (a : NdArr α) : NdArr α := ⟨nj, ni, fun j i => a.get (j0 + j) (i0 + i)⟩

/-- between two values, without these -/
def Between (a b v : K) : Prop := a < v ∧ v < b ∨ b < v ∧ v < a

/-- inside the rectangle with the columns `i0` to `i0 + ni - 1` and the rows `j0` to `j0 + nj - 1`, not on its boundary -/
def InsideBox (X Y : NdArr K) (j0 nj i0 ni : ℕ) (P : K × K) : Prop :=
  Between (X.get j0 i0) (X.get j0 (i0 + ni - 1)) P.1 ∧ Between (Y.get j0 i0) (Y.get (j0 + nj - 1) i0) P.2

/-- no vertex is missing and all are inside the rectangle -/
def LineInside (X Y : NdArr K) (j0 nj i0 ni : ℕ) (ps : List (Option (K × K))) : Prop :=
  ∀ p ∈ ps, ∃ P, p = some P ∧ InsideBox X Y j0 nj i0 ni P

open Classical in
/-- the returned lines inside the rectangle -/
noncomputable def linesInside (X Y : NdArr K) (j0 nj i0 ni : ℕ) (segs : List (Item K)) : List (List (Option (K × K))) :=
  segs.filterMap fun
    | .points ps => if LineInside X Y j0 nj i0 ni ps then some ps else none
    | .codes _ => none

/-- the maps have the same coordinates and values in the rectangle -/
structure AgreeIn (X Y : NdArr K) (Z : NdArr (Option K)) (X' Y' : NdArr K) (Z' : NdArr (Option K)) (j0 nj i0 ni : ℕ) : Prop where
  x : ∀ j < nj, ∀ i < ni, X.get (j0 + j) (i0 + i) = X'.get (j0 + j) (i0 + i)
  y : ∀ j < nj, ∀ i < ni, Y.get (j0 + j) (i0 + i) = Y'.get (j0 + j) (i0 + i)
  z : ∀ j < nj, ∀ i < ni, Z.get (j0 + j) (i0 + i) = Z'.get (j0 + j) (i0 + i)

end Trackeddy.Cntr
