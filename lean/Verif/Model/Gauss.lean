import Mathlib.Analysis.SpecialFunctions.Trigonometric.Basic
import Mathlib.Analysis.SpecialFunctions.Exp
import Mathlib.Data.Real.Sqrt

/-!
Model of `gaussian`, `gaussian_residual` and `Fit_Surface.construct_bounds`
(trackeddy/geometry.py:72-104, 121-168) and of the Gaussian of the synthetic generator
(trackeddy/generator/field_generator.py:twoD_Gaussian).
-/
namespace Trackeddy

/-- `gaussian` at one point (geometry.py:139-152); `coords = (x, y, amplitude)` -/
noncomputable def gaussian (x y amp xo yo sx sy θ : ℝ) : ℝ :=
  let a := Real.cos θ ^ 2 / (2 * sx ^ 2) + Real.sin θ ^ 2 / (2 * sy ^ 2)
  let b := Real.sin (2 * θ) / (4 * sx ^ 2) - Real.sin (2 * θ) / (4 * sy ^ 2)
  let c := Real.sin θ ^ 2 / (2 * sx ^ 2) + Real.cos θ ^ 2 / (2 * sy ^ 2)
  amp * Real.exp (-(a * (x - xo) ^ 2 + 2 * b * (x - xo) * (y - yo) + c * (y - yo) ^ 2))

/-- `Generate_field.twoD_Gaussian` at one point (generator/field_generator.py:62-113). The test
`sigma_y or sigma_x != 0` is true when one of them is not zero. -/
noncomputable def genGaussian (x y amp xo yo sx sy θ : ℝ) : ℝ :=
  if sy ≠ 0 ∨ sx ≠ 0 then
    let a := Real.cos θ ^ 2 / (2 * sx ^ 2) + Real.sin θ ^ 2 / (2 * sy ^ 2)
    let b := -Real.sin (2 * θ) / (4 * sx ^ 2) + Real.sin (2 * θ) / (4 * sy ^ 2)
    let c := Real.sin θ ^ 2 / (2 * sx ^ 2) + Real.cos θ ^ 2 / (2 * sy ^ 2)
    amp * Real.exp (-(a * (x - xo) ^ 2 + 2 * b * (x - xo) * (y - yo) + c * (y - yo) ^ 2))
  else (x - xo) * 0 + (y - yo) * 0

/-- `np.mean` of a non-empty list -/
noncomputable def mean (l : List ℝ) : ℝ := l.sum / l.length

/-- `np.std` (population standard deviation) of a non-empty list -/
noncomputable def stdev (l : List ℝ) : ℝ := Real.sqrt (mean (l.map fun v => |v - mean l| ^ 2))

/-- the values `abs(data2fit - gauss)` that are not NaN; the data are given with the Gaussian at the same
grid point, missing data is `none` (geometry.py:158-165) -/
def absResiduals (l : List (Option ℝ × ℝ)) : List ℝ :=
  l.filterMap fun p => p.1.map fun d => |d - p.2|

/-- `gaussian_residual` (geometry.py:157-168); `none` is the NaN obtained when all data is missing -/
noncomputable def gaussianResidual (l : List (Option ℝ × ℝ)) : Option ℝ :=
  let r := absResiduals l
  if r = [] then none else some (stdev r * mean r)

/-- `np.diff` of one line -/
def diffs (l : List ℝ) : List ℝ := List.zipWith (fun a b => b - a) l l.tail

/-- `np.diff(X, axis=1)`, flattened (geometry.py:73) -/
def diffAxis1 (X : List (List ℝ)) : List ℝ := (X.map diffs).flatten

/-- `np.diff(Y, axis=0)`, flattened (geometry.py:74) -/
def diffAxis0 (Y : List (List ℝ)) : List ℝ :=
  (List.zipWith (fun r r' => List.zipWith (fun a b => b - a) r r') Y Y.tail).flatten

/-- One column of `bounds` before sorting: coordinates get ± the mean grid spacing, ellipse parameters
± 70 %, or ± 1e-4 if they are zero (geometry.py:76-96). -/
noncomputable def rawBound (init : ℝ) : ℝ × ℝ :=
  if init ≠ 0 then (init - 7 / 10 * init, init + 7 / 10 * init) else (-1 / 10000, 1 / 10000)

/-- `bounds.sort(axis=0)` on one column (geometry.py:102) -/
noncomputable def sortPair (p : ℝ × ℝ) : ℝ × ℝ := (min p.1 p.2, max p.1 p.2)

/-- `Fit_Surface.construct_bounds` (geometry.py:72-104): (lower, upper) for each of the parameters;
`x`, `y` are the position of the extremum, `prm` the ellipse parameters. -/
noncomputable def constructBounds (X Y : List (List ℝ)) (x y : ℝ) (prm : List ℝ) : List (ℝ × ℝ) :=
  let dx := mean (diffAxis1 X)
  let dy := mean (diffAxis0 Y)
  ((x - dx, x + dx) :: (y - dy, y + dy) :: prm.map rawBound).map sortPair

end Trackeddy
