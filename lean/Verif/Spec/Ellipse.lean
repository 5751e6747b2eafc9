import Mathlib.Analysis.SpecialFunctions.Trigonometric.Basic

/-!
Specification vocabulary for ellipses, independent of the model.
-/
namespace Trackeddy.Spec

/-- a quadratic form `A x² + B x y + C y²` -/
def form (A B C : ℝ) (x y : ℝ) : ℝ := A * x ^ 2 + B * x * y + C * y ^ 2

/-- `A x² + B x y + C y² + D x + E y = 1`, coordinates relative to `m` -/
def OnConic (A B C D E : ℝ) (m p : ℝ × ℝ) : Prop :=
  form A B C (p.1 - m.1) (p.2 - m.2) + D * (p.1 - m.1) + E * (p.2 - m.2) = 1

/-- the conic is a real, non-degenerate ellipse: elliptic discriminant and more than one point -/
def RealEllipse (A B C D E : ℝ) (m : ℝ × ℝ) : Prop :=
  B ^ 2 < 4 * A * C ∧ ∃ p p', p ≠ p' ∧ OnConic A B C D E m p ∧ OnConic A B C D E m p'

/-- an ellipse given by a positive definite form and a centre -/
structure Ellipse where
  A : ℝ
  B : ℝ
  C : ℝ
  centre : ℝ × ℝ
  posA : 0 < A
  disc : B ^ 2 < 4 * A * C

/-- the points of an ellipse -/
def Ellipse.On (E : Ellipse) (p : ℝ × ℝ) : Prop :=
  form E.A E.B E.C (p.1 - E.centre.1) (p.2 - E.centre.2) = 1

/-- The direction `θ` is the only direction (up to orientation) in which the form is smallest, i.e. in
which an ellipse with a positive form is longest. -/
def MajorAxis (A B C θ : ℝ) : Prop :=
  ∀ ψ, form A B C (Real.cos θ) (Real.sin θ) ≤ form A B C (Real.cos ψ) (Real.sin ψ) ∧
    (form A B C (Real.cos θ) (Real.sin θ) = form A B C (Real.cos ψ) (Real.sin ψ) → Real.sin (ψ - θ) = 0)

end Trackeddy.Spec
