import Verif.Spec.Pipeline
import Verif.Model.Pipeline

/-!
Specification of the Gaussian fit of an eddy (C102, C103).
-/
namespace Trackeddy.Spec

/-- The fit is made on a rectangle of grid points that contains the points enclosed by the pixels `pix`. Of its data the enclosed
ones are given and the others missing. Amplitude and initial guess are the reported extremum, its position and the ellipse. -/
def FitsInside (G : Grid ℝ) (d : EddyData (Option ℝ)) (pix : List (ℕ × ℕ)) (P : FitProblem) : Prop :=
  ∃ r0 c0 : ℕ, r0 + P.data.rows ≤ G.ny ∧ c0 + P.data.cols ≤ G.nx ∧
    P.X.rows = P.data.rows ∧ P.X.cols = P.data.cols ∧ P.Y.rows = P.data.rows ∧ P.Y.cols = P.data.cols ∧
    (∀ r c, P.X.get r c = G.x (c0 + c, r0 + r) ∧ P.Y.get r c = G.y (c0 + c, r0 + r)) ∧
    (∀ r c : ℕ, Inside G.ny G.nx (· ∈ pix.map fun p => ((p.1 : Int), (p.2 : Int))) (r, c) →
      r0 ≤ r ∧ r < r0 + P.data.rows ∧ c0 ≤ c ∧ c < c0 + P.data.cols) ∧
    (∀ r < P.data.rows, ∀ c < P.data.cols,
      (Inside G.ny G.nx (· ∈ pix.map fun p => ((p.1 : Int), (p.2 : Int))) ((r0 + r : ℕ), (c0 + c : ℕ)) →
        P.data.get r c = G.z (c0 + c, r0 + r)) ∧
      (¬ Inside G.ny G.nx (· ∈ pix.map fun p => ((p.1 : Int), (p.2 : Int))) ((r0 + r : ℕ), (c0 + c : ℕ)) →
        P.data.get r c = none)) ∧
    d.maximum = some P.amplitude ∧ d.maximumX = some P.guess.1 ∧ d.maximumY = some P.guess.2.1 ∧
    d.ellipseA = some P.guess.2.2.1 ∧ d.ellipseB = some P.guess.2.2.2.1 ∧ d.ellipseTheta = some P.guess.2.2.2.2

/-- the Gaussian of the given parameters on the rectangle of the fit -/
noncomputable def gaussGrid (P : FitProblem) (x y a b θ : ℝ) : Grid ℝ :=
  ⟨P.data.cols, P.data.rows, fun p => P.X.get p.2 p.1, fun p => P.Y.get p.2 p.1,
    fun p => some (gaussian (P.X.get p.2 p.1) (P.Y.get p.2 p.1) P.amplitude x y a b θ), fun _ => false⟩

/-- the reported parameters are those of the fit, and the score compares the contour `pts` with the contour lines of this Gaussian at
the same level -/
def ScoredBy (L : Libs) (l : ℝ) (d : EddyData (Option ℝ)) (pts : List (ℝ × ℝ)) (P : FitProblem) : Prop :=
  ∃ x y a b θ, L.leastSquares P = .ok (x, y, a, b, θ) ∧ d.gauss = .inr (some x, some y, some a, some b, some θ) ∧
    ∃ lines gpts, Contours (gaussGrid P x y a b θ) l lines ∧ lines ≠ [] ∧
      lines.flatten.map ((gaussGrid P x y a b θ).point l) = gpts.map some ∧ similarity L.limit pts gpts = .ok d.gaussError

/-- the extremum is beyond the level, on the same side of zero, and the sign says which -/
def BeyondLevel (l : ℝ) (d : EddyData (Option ℝ)) : Prop :=
  d.level = some l ∧ ∃ m, d.maximum = some m ∧ (0 < l ∧ l < m ∧ d.sign = some 1 ∨ l < 0 ∧ m ≤ l ∧ d.sign = some (-1))

end Trackeddy.Spec
