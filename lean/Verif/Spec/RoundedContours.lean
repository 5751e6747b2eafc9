import Verif.Spec.Extract
import Verif.Spec.Rounding

/-!
What it means for computed contours to be close to exact ones.
-/
namespace Trackeddy.Spec

variable {K : Type} [Field K] [LinearOrder K]

/-- In every cell whose four sides are crossed, the mean of the corners is further from the level than `5u` times the
size of the corners. -/
def SaddleClear (G : Grid K) (lev u : K) : Prop :=
  ∀ c, G.IsCell c → (∀ s ∈ sidesOf c, G.Crossed lev s) → ∀ p q r s, G.z (c.1, c.2) = some p → G.z (c.1 + 1, c.2) = some q →
    G.z (c.1, c.2 + 1) = some r → G.z (c.1 + 1, c.2 + 1) = some s →
    5 * u * max (max |p| |q|) (max |r| |s|) < |(p + q + r + s) / 4 - lev|

/-- a vertex computed for the exact vertex `v`: both are missing, or both lie on a crossed side of a cell, apart by at
most `6u` times the extent of the side and `u` times the size of its coordinates -/
def VertexNear (G : Grid K) (lev u : K) (v v' : Option (K × K)) : Prop :=
  ∃ e, G.InMesh e ∧ G.Crossed lev e ∧ v = G.point lev e ∧
    ((v = none ∧ v' = none) ∨ ∃ x y x' y', v = some (x, y) ∧ v' = some (x', y') ∧
      |x' - x| ≤ 6 * u * |G.x e.b - G.x e.a| + u * max |G.x e.a| |G.x e.b| ∧
      |y' - y| ≤ 6 * u * |G.y e.b - G.y e.a| + u * max |G.y e.a| |G.y e.b|)

end Trackeddy.Spec
