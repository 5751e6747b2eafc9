import Verif.Model.Level

/-!
Specification of the identification criteria (C17-C23): the tests, one by one, and their order.
-/
namespace Trackeddy.Spec
variable {α K : Type} [Field K] [LinearOrder K] [IsStrictOrderedRing K]

/-- The contour passes the test named by the reason for discarding it. -/
def Passes (c : Criteria K) (m : Measures α K) : Reason → Prop
  | .area => ∃ x, m.radius = .ok x ∧ x ≤ c.maxArea * m.rd
  | .ellipseArea => ∃ x, m.areaEllipse = .ok x ∧
      |m.area - x| ≤ 1 / 100000000 + 1 / 10 * c.ellipseFit * |x|
  | .eccentricity => ∃ x, m.eccen = .ok x ∧ x ≤ c.eccen
  | .similarity => ∃ x, m.ellSim = .ok x ∧ x ≤ c.ellipseFit
  | .island => ∃ x, m.maxima = .ok x ∧ x ≠ 0
  | .gaussFailed => c.skipGauss ∨ ∃ x, m.gauss = .ok (some x)
  | .gaussCheck => c.skipGauss ∨ ∃ x, m.gauss = .ok (some x) ∧ c.gaussFit ≤ x

/-- The contour fails the test (the quantity was computed and does not meet the criterion). -/
def Fails (c : Criteria K) (m : Measures α K) : Reason → Prop
  | .area => ∃ x, m.radius = .ok x ∧ ¬ x ≤ c.maxArea * m.rd
  | .ellipseArea => ∃ x, m.areaEllipse = .ok x ∧
      ¬ |m.area - x| ≤ 1 / 100000000 + 1 / 10 * c.ellipseFit * |x|
  | .eccentricity => ∃ x, m.eccen = .ok x ∧ ¬ x ≤ c.eccen
  | .similarity => ∃ x, m.ellSim = .ok x ∧ ¬ x ≤ c.ellipseFit
  | .island => m.maxima = .ok 0
  | .gaussFailed => c.skipGauss = false ∧ m.gauss = .ok none
  | .gaussCheck => c.skipGauss = false ∧ ∃ x, m.gauss = .ok (some x) ∧ ¬ c.gaussFit ≤ x

/-- the order of the tests -/
def order : List Reason :=
  [.area, .ellipseArea, .eccentricity, .similarity, .island, .gaussFailed, .gaussCheck]

/-- `r` is the first failed test -/
def FirstFailed (c : Criteria K) (m : Measures α K) (r : Reason) : Prop :=
  Fails c m r ∧ ∀ r' ∈ order.takeWhile (· ≠ r), Passes c m r'

/-- the contours that meet every criterion, in order -/
noncomputable def accepted (c : Criteria K) (ms : List (Measures α K)) : List (Measures α K) :=
  open Classical in ms.filter fun m => decide (m.degenerate = false ∧ ∀ r, Passes c m r)

/-- the table rows of a contour -/
def points (m : Measures α K) : List α := m.row0 :: m.rows

/-- Detection of the level runs to its end: nothing that is computed of a contour raises. -/
def Completes (c : Criteria K) (ms : List (Measures α K)) : Prop :=
  ∀ m ∈ ms, m.degenerate = true ∨ (∀ r, Passes c m r) ∨ ∃ r, FirstFailed c m r

/-- `c'` is at least as permissive as `c` -/
structure Relaxes (c c' : Criteria K) : Prop where
  maxArea : c.maxArea ≤ c'.maxArea
  eccen : c.eccen ≤ c'.eccen
  ellipseFit : c.ellipseFit ≤ c'.ellipseFit
  gaussFit : c'.gaussFit ≤ c.gaussFit
  skip : c.skipGauss = c'.skipGauss

/-- numbered from `n` on -/
def numbered {β : Type} (n : Nat) (l : List β) : List (Nat × β) := l.mapIdx fun i x => (n + i, x)

end Trackeddy.Spec
