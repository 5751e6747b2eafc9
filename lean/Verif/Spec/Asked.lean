/-!
The times a call of `time_tracking` asks for.
-/
namespace Trackeddy.Spec

/-- The times that a call asks for: from `t0` up to `tf`, not included; all times of the dataset if `tf` is not given or zero. -/
def Asked (t0 : Int) (tf : Option Int) (T : Nat) (t : Int) : Prop :=
  (∃ f, tf = some f ∧ f ≠ 0 ∧ t0 ≤ t ∧ t < f) ∨ ((tf = none ∨ tf = some 0) ∧ 0 ≤ t ∧ t < T)

end Trackeddy.Spec
