import Verif.Model.Report
import Verif.Spec.Pipeline

/-!
Specification of the table of discarded contours (C99) and of the plots (C100, C101).
-/
namespace Trackeddy.Spec
open Cntr (Vertex)

/-- the fitted surface of the contour has no line at the level, in the window around the contour -/
def NoGaussLine (L : Libs) (S : Fields) (level : ℝ) (pts : List (ℝ × ℝ)) : Prop :=
  ∃ curve prm i surf, fitEllipse pts = .ok (curve, prm) ∧ dataInContour L S pts = .ok i ∧
    fitSurface L S i prm = .ok surf ∧ contoursOf L (cut i.window S.X) (cut i.window S.Y) surf.1 level = .ok []

/-- the ellipse fitted to the points has an area that differs from the one of the polygon by more than the tolerance, or is not
finite -/
def EllipseAreaOff (c : Criteria ℝ) (pts : List (ℝ × ℝ)) : Prop :=
  ∃ curve prm, fitEllipse pts = .ok (curve, prm) ∧ (FiniteEllipse pts →
    1 / 10 ^ 8 + c.ellipseFit / 10 * |areaPolygon curve| < |areaPolygon pts - areaPolygon curve|)

/-- What the row of a discarded contour says: reason, level, centre, and the number because of which it was discarded. -/
structure Explained (c : Criteria ℝ) (L : Libs) (S : Fields) (level : ℝ) (vs : List (Vertex ℝ)) (row : DRow) : Prop where
  atLevel : row.num "level" = some level
  /-- the mean of the vertices that are not missing -/
  centre : row.num "contour_x" = some (centroid (vs.filterMap id)).1 ∧ row.num "contour_y" = some (centroid (vs.filterMap id)).2
  /-- with a missing vertex area and radius are NaN, otherwise they are those of the polygon -/
  size : (row.num "area_eddy" = none ∧ row.num "radius_eddy" = none ∧ none ∈ vs) ∨
    ∃ pts, vs = pts.map some ∧ ∃ r, row.num "area_eddy" = some (areaPolygon pts) ∧ row.num "radius_eddy" = some r ∧ 0 ≤ r ∧
      Real.pi * r ^ 2 = areaPolygon pts
  reason :
    (row.reason = "area" ∧ ∃ r y, row.num "radius_eddy" = some r ∧ row.num "contour_y" = some y ∧ c.maxArea * approxRD y < r) ∨
    (row.reason = "ellipse_area" ∧ (none ∈ vs ∨ ∃ pts, vs = pts.map some ∧ EllipseAreaOff c pts)) ∨
    (row.reason = "eccentricity" ∧ ∃ e, row.num "ellipse_eccen" = some e ∧ c.eccen < e) ∨
    (row.reason = "similarity" ∧ ∃ s, row.num "contour_ellipse_error" = some s ∧ c.ellipseFit < s) ∨
    (row.reason = "eddy_is_island" ∧ row.num "maxima" = some 0) ∨
    (row.reason = "gaussian_fit_failed" ∧ ∃ pts, vs = pts.map some ∧ NoGaussLine L S level pts) ∨
    (row.reason = "gaussian_check" ∧ ∃ s, row.num "contour_gaussian_error" = some s ∧ s < c.gaussFit)

/-- what the legend should say of the marks of a reason -/
def labelOf : Reason → String
  | .area => "Area fail"
  | .ellipseArea => "Ellipse area fail"
  | .eccentricity => "Fail eccentricity"
  | .similarity => "Contour != ellipse"
  | .island => "Eddy is island"
  | .gaussFailed => "Gaussian fit failed"
  | .gaussCheck => "Contour != Gaussian"

end Trackeddy.Spec
