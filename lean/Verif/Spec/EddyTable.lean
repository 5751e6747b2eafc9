import Verif.Model.EddyTable

/-!
Specification of the eddy table (C50): the data of an eddy and the row of each contour point.
-/
namespace Trackeddy.Spec
variable {V : Type}

/-- what is known of an eddy -/
structure EddyData (V : Type) where
  contour : List (V × V)
  level : V
  area : V
  radius : V
  ellipseA : V
  ellipseB : V
  ellipseTheta : V
  ellipseError : V
  eccentricity : V
  centerX : V
  centerY : V
  sign : V
  maximum : V
  maximumY : V
  maximumX : V
  /-- parameters of the fitted Gaussian, or the placeholder if the fit was skipped -/
  gauss : V ⊕ (V × V × V × V × V)
  gaussError : V

/-- the array holds a single number (up to axes of length one) -/
def IsScalar (a : NdArr V) (v : V) : Prop := a.data = [v] ∧ ∀ n ∈ a.shape, n = 1

/-- the array holds a vector (up to axes of length one) -/
def IsVec (a : NdArr V) (l : List V) : Prop := a.data = l ∧ a.shape.filter (· ≠ 1) = [l.length]

/-- the array holds a list of points, one per row -/
def IsPath (a : NdArr V) (pts : List (V × V)) : Prop :=
  a.shape = [pts.length, 2] ∧ a.data = pts.flatMap fun p => [p.1, p.2]

/-- the attributes of the object hold these data -/
structure Holds (attr : String → NdArr V) (e : EddyData V) : Prop where
  contour : IsPath (attr "contour") e.contour
  level : IsScalar (attr "level") e.level
  area : IsScalar (attr "area_eddy") e.area
  radius : IsScalar (attr "radius_eddy") e.radius
  ellipse : IsVec (attr "ellipse_params") [e.ellipseA, e.ellipseB, e.ellipseTheta]
  ellipseError : IsScalar (attr "contour_ellipse_error") e.ellipseError
  eccentricity : IsScalar (attr "ellipse_eccen") e.eccentricity
  center : IsVec (attr "contour_center") [e.centerX, e.centerY]
  sign : IsScalar (attr "eddy_sign") e.sign
  maxima : IsVec (attr "eddy_maxima") [e.maximum, e.maximumY, e.maximumX]
  gauss : match e.gauss with
    | .inl v => IsScalar (attr "gaussian_params") v
    | .inr (x, y, sx, sy, t) => IsVec (attr "gaussian_params") [x, y, sx, sy, t]
  gaussError : IsScalar (attr "contour_gaussian_error") e.gaussError

/-- the columns of the row of contour point `p` -/
def columns (e : EddyData V) (id : V) (p : V × V) : List (String × V) :=
  [("identifier", id), ("contour_path_x", p.1), ("contour_path_y", p.2), ("level", e.level),
   ("area_eddy", e.area), ("radius_eddy", e.radius), ("ellipse_params_a", e.ellipseA),
   ("ellipse_params_b", e.ellipseB), ("ellipse_params_theta", e.ellipseTheta),
   ("contour_ellipse_error", e.ellipseError), ("ellipse_eccen", e.eccentricity),
   ("contour_x", e.centerX), ("contour_y", e.centerY), ("eddy_sign", e.sign), ("maxima", e.maximum),
   ("maxima_y", e.maximumY), ("maxima_x", e.maximumX)] ++
  (match e.gauss with
    | .inl v => [("gaussian_params", v)]
    | .inr (x, y, sx, sy, t) => [("gaussian_params_x", x), ("gaussian_params_y", y),
        ("gaussian_params_sigma_x", sx), ("gaussian_params_sigma_y", sy),
        ("gaussian_params_theta", t)]) ++
  [("contour_gaussian_error", e.gaussError)]

end Trackeddy.Spec
