import Verif.Model.Filter
import Verif.Spec.Contour
import Mathlib.Data.Real.Basic
import Mathlib.Data.Finset.Prod

/-!
What a dataset means (C92-C97): a series of maps on a grid of latitudes and longitudes, and the anomaly of a map.
-/
namespace Trackeddy.Spec

/-- a series of `T` maps on the grid of the latitudes `lat` and longitudes `lon`; `z t r c` is the value at time `t`, latitude `r` and
longitude `c`, `none` if it is missing -/
structure Series where
  T : ℕ
  lon : List ℝ
  lat : List ℝ
  z : ℕ → ℕ → ℕ → Option ℝ

/-- number of latitudes -/
abbrev Series.ny (O : Series) : ℕ := O.lat.length
/-- number of longitudes -/
abbrev Series.nx (O : Series) : ℕ := O.lon.length

/-- mean of numbers -/
noncomputable def average (l : List ℝ) : ℝ := l.sum / l.length

/-- the grid points at most `h` rows and columns away -/
def square (ny nx h r c : ℕ) : Finset (ℕ × ℕ) :=
  (Finset.range ny ×ˢ Finset.range nx).filter fun p => r ≤ p.1 + h ∧ p.1 ≤ r + h ∧ c ≤ p.2 + h ∧ p.2 ≤ c + h

/-- mean over the square of `2 h + 1` rows and columns, with zero outside of the grid and without the missing values -/
noncomputable def squareMean (ny nx h : ℕ) (z : ℕ → ℕ → Option ℝ) (r c : ℕ) : ℝ :=
  (∑ p ∈ square ny nx h r c, (z p.1 p.2).getD 0) /
    ((2 * (h : ℝ) + 1) ^ 2 - (((square ny nx h r c).filter fun p => z p.1 p.2 = none).card : ℝ))

/-- the choices of `S_filter_setup` that can be used -/
def ValidSetup : SpaceFilter → Prop
  | .convolution .gaussian _ => False
  | .other => False
  | _ => True

/-- the anomaly that a choice of `S_filter_setup` stands for: the value minus a mean -/
noncomputable def anomaly (s : SpaceFilter) (ny nx : ℕ) (z : ℕ → ℕ → Option ℝ) (r c : ℕ) : Option ℝ :=
  match s with
  | .convolution .uniform k => (z r c).map (· - squareMean ny nx (k / 2) z r c)
  | .meridional => (z r c).map (· - average ((List.range nx).filterMap fun c' => z r c'))
  | .zonal => (z r c).map (· - average ((List.range ny).filterMap fun r' => z r' c))
  | _ => z r c

/-- the grid of a map -/
noncomputable def Series.grid (O : Series) (w : ℕ → ℕ → Option ℝ) : Grid ℝ where
  nx := O.nx
  ny := O.ny
  x p := O.lon.getD p.1 0
  y p := O.lat.getD p.2 0
  z p := if p.2 < O.ny ∧ p.1 < O.nx then w p.2 p.1 else none
  masked _ := false

end Trackeddy.Spec
