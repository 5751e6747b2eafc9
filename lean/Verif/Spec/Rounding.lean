import Mathlib.Algebra.Order.Field.Basic
import Mathlib.Data.Real.Sqrt

/-! What the theorems ask of floating-point arithmetic. -/
namespace Trackeddy.Spec

/-- rounding with relative error at most `u` (for doubles `u = 2⁻⁵³`) -/
def RoundsTo {K : Type*} [Field K] [LinearOrder K] (u : K) (rnd : K → K) : Prop := ∀ x, |rnd x - x| ≤ u * |x|

/-- a function for the length of a plane vector with relative error at most `2u` (one unit in the last place) -/
def LengthTo (u : ℝ) (hyp : ℝ → ℝ → ℝ) : Prop :=
  ∀ a b, |hyp a b - Real.sqrt (a ^ 2 + b ^ 2)| ≤ 2 * u * Real.sqrt (a ^ 2 + b ^ 2)

/-- the exact value of linear interpolation: where the segment from height `a` over `x0` to height `b` over `x1` has
height `lev` -/
def IsCrossing {K : Type*} [Field K] (lev a b x0 x1 v : K) : Prop := (v - x0) * (b - a) = (lev - a) * (x1 - x0)

end Trackeddy.Spec
