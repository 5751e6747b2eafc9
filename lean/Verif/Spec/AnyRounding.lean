import Verif.Spec.Extract

/-!
Maps that lie on the same side of a level.
-/
namespace Trackeddy.Spec

open Cntr

variable {K : Type} [Field K] [LinearOrder K]

/-- `Z'` has the shape of `Z`, no missing values, and lies above the level where `Z` does, below it elsewhere -/
def SameSide (lev : K) (Z Z' : NdArr (Option K)) : Prop :=
  Z'.rows = Z.rows ∧ Z'.cols = Z.cols ∧ ∀ j < Z.rows, ∀ i < Z.cols, ∃ z, Z'.get j i = some z ∧
    ((lev < z ∧ ∃ v, Z.get j i = some v ∧ lev < v) ∨ (z < lev ∧ ¬ ∃ v, Z.get j i = some v ∧ lev < v))

end Trackeddy.Spec
