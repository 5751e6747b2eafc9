import Verif.Spec.Api

/-!
The same series stored with latitudes or longitudes in the other order (C117).
-/
namespace Trackeddy.Spec

/-- index `i` counted from the other end of an axis of `n` values, if `b` -/
def fromEnd (b : Bool) (n i : ℕ) : ℕ := if b then n - 1 - i else i

/-- the series with the latitudes (if `ns`) and the longitudes (if `ew`) stored in the other order -/
def Series.reversed (O : Series) (ns ew : Bool) : Series where
  T := O.T
  lon := if ew then O.lon.reverse else O.lon
  lat := if ns then O.lat.reverse else O.lat
  z t r c := O.z t (fromEnd ns O.ny r) (fromEnd ew O.nx c)

end Trackeddy.Spec
