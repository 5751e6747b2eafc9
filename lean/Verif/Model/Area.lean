import Mathlib.Analysis.SpecialFunctions.Complex.Arg
import Mathlib.Data.Real.Sqrt

/-!
Model of `area_latlon_polygon` (trackeddy/geometry.py:440-470) over the reals.

`np.arctan2(y, x)` is the argument of the complex number `x + iy`; the distinction between the two signed
zeros is not modelled. `x % (2 * np.pi)` is the remainder with the sign of the divisor.
-/
namespace Trackeddy

/-- `np.arctan2` -/
noncomputable def arctan2 (y x : ℝ) : ℝ := Complex.arg ⟨x, y⟩

/-- `x % (2 * np.pi)` -/
noncomputable def mod2pi (x : ℝ) : ℝ := x - 2 * Real.pi * ⌊x / (2 * Real.pi)⌋

/-- `np.deg2rad` (geometry.py:446-447) -/
noncomputable def deg2rad (x : ℝ) : ℝ := x * (Real.pi / 180)

/-- the haversine argument (geometry.py:449), angles in radians -/
noncomputable def havA (lon lat : ℝ) : ℝ :=
  Real.sin (lat / 2) ^ 2 + Real.cos lat * Real.sin (lon / 2) ^ 2

/-- colatitude with respect to the point (0,0) (geometry.py:450) -/
noncomputable def colat (lon lat : ℝ) : ℝ :=
  2 * arctan2 (Real.sqrt (havA lon lat)) (Real.sqrt (1 - havA lon lat))

/-- azimuth about (0,0) (geometry.py:452) -/
noncomputable def azim (lon lat : ℝ) : ℝ :=
  mod2pi (arctan2 (Real.cos lat * Real.sin lon) (Real.sin lat))

/-- `(daz + np.pi) % (2 * np.pi) - np.pi` (geometry.py:457) -/
noncomputable def wrap (d : ℝ) : ℝ := mod2pi (d + Real.pi) - Real.pi

/-- colatitude and azimuth of a vertex given in degrees (geometry.py:443-452) -/
noncomputable def polar (p : ℝ × ℝ) : ℝ × ℝ :=
  (colat (deg2rad p.1) (deg2rad p.2), azim (deg2rad p.1) (deg2rad p.2))

/-- one integrand (geometry.py:456-463), from the (colatitude, azimuth) of two consecutive vertices -/
noncomputable def integrand (p q : ℝ × ℝ) : ℝ :=
  (1 - Real.cos (p.1 + (q.1 - p.1) / 2)) * wrap (q.2 - p.2)

/-- `sum(integrands)` (geometry.py:463-466) -/
noncomputable def integral (l : List (ℝ × ℝ)) : ℝ := (List.zipWith integrand l l.tail).sum

/-- `area_latlon_polygon` (geometry.py:440-470), in km² -/
noncomputable def areaPolygon (lonlat : List (ℝ × ℝ)) : ℝ :=
  let area := |integral (lonlat.map polar)| / (4 * Real.pi)
  (area * 4 * Real.pi * 6378137 ^ 2) * (1 / 10 ^ 6)

end Trackeddy
