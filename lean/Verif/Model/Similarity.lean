import Verif.Model.Frechet
import Mathlib.Data.Real.Sqrt
import Mathlib.Algebra.Order.Floor.Ring

/-!
Model of `arc_length` and `compute_similarity` (trackeddy/geometry.py:281-304) over the reals.
-/
namespace Trackeddy

open Frechet

/-- Euclidean distance of two points (`math.dist`, `np.linalg.norm`). -/
noncomputable def eucl (p q : ℝ × ℝ) : ℝ := Real.sqrt ((p.1 - q.1) ^ 2 + (p.2 - q.2) ^ 2)

/-- `arc_length` (geometry.py:281-295): the loop over consecutive points, with its accumulator. -/
noncomputable def arcLoop : ℝ → List (ℝ × ℝ) → ℝ
  | acc, p :: q :: l => arcLoop (acc + eucl p q) (q :: l)
  | acc, _ => acc

/-- `arc_length` (geometry.py:281-295) -/
noncomputable def arcLength (c : List (ℝ × ℝ)) : ℝ := arcLoop 0 c

/-- Python's rounding to the nearest integer, ties to even. -/
noncomputable def roundEven (x : ℝ) : ℤ :=
  if Int.fract x < 1 / 2 then ⌊x⌋
  else if 1 / 2 < Int.fract x then ⌊x⌋ + 1
  else if Even ⌊x⌋ then ⌊x⌋ else ⌊x⌋ + 1

/-- `round(x, 4)` (geometry.py:304), exact decimal rounding -/
noncomputable def round4 (x : ℝ) : ℝ := (roundEven (x * 10000) : ℝ) / 10000

/-- `compute_similarity` (geometry.py:298-304). `limit` is the recursion limit of `frdist`. For a curve
of length zero numpy divides by zero: `0/0` is NaN (`none`) and stays NaN, `x/0` is infinite and the
score 0. -/
noncomputable def similarity (limit : Nat) (A B : List (ℝ × ℝ)) : Except FrErr (Option ℝ) := do
  let geo := Real.sqrt (arcLength A * arcLength B)
  let d ← frdist limit eucl A B
  if geo / Real.sqrt 2 = 0 then
    return (if d = 0 then none else some (round4 0))
  else
    return some (round4 (max (1 - d / (geo / Real.sqrt 2)) 0))

end Trackeddy
