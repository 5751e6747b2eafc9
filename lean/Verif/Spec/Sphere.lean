import Mathlib.Geometry.Euclidean.Angle.Unoriented.Basic
import Mathlib.Analysis.InnerProductSpace.PiL2

/-!
Points of the sphere as unit vectors; the angle between them at the centre.
-/
namespace Trackeddy.Spec

/-- unit vector of a point with latitude and longitude in degrees -/
noncomputable def onSphere (lat lon : ℝ) : EuclideanSpace ℝ (Fin 3) :=
  !₂[Real.cos (lat * (Real.pi / 180)) * Real.cos (lon * (Real.pi / 180)),
    Real.cos (lat * (Real.pi / 180)) * Real.sin (lon * (Real.pi / 180)), Real.sin (lat * (Real.pi / 180))]

/-- great-circle distance in radians of points given by latitude and longitude in degrees -/
noncomputable def centralAngle (lat lon lat' lon' : ℝ) : ℝ :=
  InnerProductGeometry.angle (onSphere lat lon) (onSphere lat' lon')

end Trackeddy.Spec
