import Mathlib.Analysis.SpecialFunctions.Trigonometric.Inverse
import Mathlib.Data.Real.Sqrt
import Verif.Model.Tracking

/-!
The distance by which `_detect_nearest` (trackeddy/utils.py:96-115) compares eddies:
`BallTree(np.deg2rad(coords), metric="haversine")`, `distance * 6371`.

The metric itself belongs to scikit-learn (`HaversineDistance64`), its documented formula is modelled; which columns are
passed, in which order and unit is the code of trackeddy.
-/
namespace Trackeddy

/-- `metric="haversine"` (utils.py:106) for points (latitude, longitude) in radians -/
noncomputable def haversine (p q : ℝ × ℝ) : ℝ :=
  2 * Real.arcsin (Real.sqrt (Real.sin (1 / 2 * (p.1 - q.1)) ^ 2 +
    Real.cos p.1 * Real.cos q.1 * Real.sin (1 / 2 * (p.2 - q.2)) ^ 2))

/-- `np.deg2rad(table[["maxima_y", "maxima_x"]])` (utils.py:101-102, 106-107) of one row -/
noncomputable def ballTreePoint (maximaY maximaX : ℝ) : ℝ × ℝ := (maximaY * (Real.pi / 180), maximaX * (Real.pi / 180))

/-- the column access of `_detect_nearest` and `_update_better_eddy` for rows with real columns (NaN scores are `none`); `nn` is the answer of the
ball tree -/
noncomputable def realEnv {α : Type} (prunes : Bool) (maximaY maximaX radius : α → ℝ) (ellErr gauErr : α → Option ℝ)
    (nn : List (ℝ × ℝ) → ℝ × ℝ → Nat) : Env α ℝ (ℝ × ℝ) where
  prunes := prunes
  pos v := ballTreePoint (maximaY v) (maximaX v)
  radius := radius
  ellErr := ellErr
  gauErr := gauErr
  dist := haversine
  nn := nn

end Trackeddy
