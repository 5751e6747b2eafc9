import Verif.Spec.Api

/-!
A period of a series (C118).
-/
namespace Trackeddy.Spec

/-- the `n` maps of the series from the one with index `k` on, counted from zero (`dataset.isel(time=slice(k, k + n))`) -/
def Series.during (O : Series) (k n : ℕ) : Series := { O with T := n, z := fun t => O.z (k + t) }

end Trackeddy.Spec
