import Verif.Model.Table
import Mathlib.Analysis.SpecialFunctions.Trigonometric.Arctan
import Mathlib.LinearAlgebra.Matrix.NonsingularInverse
import Mathlib.Data.Real.Sqrt

/-!
Model of `fit_ellipse` and `eccentricity` (trackeddy/geometry.py:171-278, 417-437) over the reals.

`np.linalg.solve` returns the solution of a regular system and raises `LinAlgError` for a singular one.
NaN results are `none`; infinite intermediate values (division by a vanishing squared coefficient in
lines 259-263) are not modelled, the theorems exclude them.
-/
namespace Trackeddy
open Matrix

/-- coefficients of `a x² + b x y + c y² + d x + e y = 1` (geometry.py:227) -/
structure Conic where
  a : ℝ
  b : ℝ
  c : ℝ
  d : ℝ
  e : ℝ

/-- `np.mean` of the coordinates (geometry.py:214-215) -/
noncomputable def meanPt (pts : List (ℝ × ℝ)) : ℝ × ℝ :=
  ((pts.map Prod.fst).sum / pts.length, (pts.map Prod.snd).sum / pts.length)

/-- row of the design matrix (geometry.py:217-220) -/
noncomputable def designRow (m p : ℝ × ℝ) : Fin 5 → ℝ :=
  ![(p.1 - m.1) ^ 2, (p.1 - m.1) * (p.2 - m.2), (p.2 - m.2) ^ 2, p.1 - m.1, p.2 - m.2]

/-- `np.dot(X.T, X)` (geometry.py:223) -/
noncomputable def normalMat (m : ℝ × ℝ) (pts : List (ℝ × ℝ)) : Matrix (Fin 5) (Fin 5) ℝ :=
  Matrix.of fun i j => (pts.map fun p => designRow m p i * designRow m p j).sum

/-- `np.sum(X, axis=0)` (geometry.py:222) -/
noncomputable def normalRhs (m : ℝ × ℝ) (pts : List (ℝ × ℝ)) : Fin 5 → ℝ :=
  fun i => (pts.map fun p => designRow m p i).sum

/-- the fitted coefficients (geometry.py:214-227) -/
noncomputable def fitConic (pts : List (ℝ × ℝ)) : Except PyErr Conic :=
  let m := meanPt pts
  let M := (normalMat m pts)ᵀ
  if M.det = 0 then .error .linAlgError
  else
    let x := M⁻¹ *ᵥ normalRhs m pts
    .ok ⟨x 0, x 1, x 2, x 3, x 4⟩

/-- the reported angle (geometry.py:229-234); `none` is the NaN of `0/0` -/
noncomputable def angleOf (q : Conic) : Option ℝ :=
  if q.b = 0 ∧ q.a < q.c then some 0
  else if q.b = 0 ∧ q.c < q.a then some (Real.pi / 2)
  else if q.b = 0 then none
  else some (Real.arctan ((q.c - q.a - Real.sqrt ((q.a - q.c) ^ 2 + q.b ^ 2)) / q.b))

/-- the test on the tilt (geometry.py:236), `orientation_tolerance = 1e-3`; written without division, so
that it also covers `a = 0` or `c = 0` (infinite or NaN quotients). -/
def Tilted (q : Conic) : Prop := 1 / 1000 * |q.a| < |q.b| ∧ 1 / 1000 * |q.c| < |q.b|

/-- `orientation_rad` in the tilted case (geometry.py:239); for `c = a` the quotient is infinite and the
arctangent `±π/2` -/
noncomputable def orientation (q : Conic) : ℝ :=
  if q.c = q.a then (if 0 < q.b then 1 else -1) * (1 / 2 * (Real.pi / 2))
  else 1 / 2 * Real.arctan (q.b / (q.c - q.a))

/-- `orientation_rad` (geometry.py:236-256) -/
noncomputable def phiOf (q : Conic) : ℝ := open Classical in if Tilted q then orientation q else 0

/-- coefficients and mean after lines 236-256 -/
noncomputable def rotateConic (q : Conic) (m : ℝ × ℝ) : Conic × (ℝ × ℝ) :=
  open Classical in
  if Tilted q then
    let φ := orientation q
    (⟨q.a * Real.cos φ ^ 2 - q.b * Real.cos φ * Real.sin φ + q.c * Real.sin φ ^ 2, 0,
      q.a * Real.sin φ ^ 2 + q.b * Real.cos φ * Real.sin φ + q.c * Real.cos φ ^ 2,
      q.d * Real.cos φ - q.e * Real.sin φ, q.d * Real.sin φ + q.e * Real.cos φ⟩,
     (Real.cos φ * m.1 - Real.sin φ * m.2, Real.sin φ * m.1 + Real.cos φ * m.2))
  else (q, m)

/-- `F` (geometry.py:261) -/
noncomputable def conicF (q : Conic) : ℝ := 1 + q.d ^ 2 / (4 * q.a) + q.e ^ 2 / (4 * q.c)

/-- `np.linspace(0, 2 * np.pi, n)` (geometry.py:268) -/
noncomputable def linspace2pi (n : Nat) : List ℝ :=
  (List.range n).map fun i => 2 * Real.pi * i / (n - 1 : ℕ)

/-- the point of the returned curve with parameter `t` (geometry.py:258-271) -/
noncomputable def ellipsePoint (q : Conic) (m : ℝ × ℝ) (t : ℝ) : ℝ × ℝ :=
  let r := rotateConic q m
  let X0 := r.2.1 - r.1.d / 2 / r.1.a
  let Y0 := r.2.2 - r.1.e / 2 / r.1.c
  let F := conicF r.1
  let x := X0 + Real.sqrt |F / r.1.a| * Real.cos t
  let y := Y0 + Real.sqrt |F / r.1.c| * Real.sin t
  let φ := phiOf q
  (Real.cos φ * x + Real.sin φ * y, -Real.sin φ * x + Real.cos φ * y)

/-- the semi axes before sorting (geometry.py:262-263) -/
noncomputable def semiAxes (q : Conic) (m : ℝ × ℝ) : ℝ × ℝ :=
  let r := rotateConic q m
  (Real.sqrt |conicF r.1 / r.1.a|, Real.sqrt |conicF r.1 / r.1.c|)

/-- `fit_ellipse` (geometry.py:171-278): curve and parameters (a, b, angle) -/
noncomputable def fitEllipse (pts : List (ℝ × ℝ)) :
    Except PyErr (List (ℝ × ℝ) × (ℝ × ℝ × Option ℝ)) := do
  let q ← fitConic pts
  let m := meanPt pts
  let s := semiAxes q m
  return ((linspace2pi pts.length).map (ellipsePoint q m), (max s.1 s.2, min s.1 s.2, angleOf q))

/-- `eccentricity` (geometry.py:417-437); `none` is NaN (division by zero or negative radicand) -/
noncomputable def eccentricity (a b : ℝ) : Option ℝ :=
  if a = 0 then none
  else if 1 - |b| ^ 2 / |a| ^ 2 < 0 then none
  else some (Real.sqrt (1 - |b| ^ 2 / |a| ^ 2))

end Trackeddy
