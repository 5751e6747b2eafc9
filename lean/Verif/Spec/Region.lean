import Verif.Spec.Api

/-!
Vocabulary for parts of a dataset (C116).
-/
namespace Trackeddy.Spec

/-- the part of a series of maps with the latitudes `J0` to `J0 + NJ - 1` and the longitudes `I0` to `I0 + NI - 1` -/
def Series.part (O : Series) (J0 NJ I0 NI : ℕ) : Series where
  T := O.T
  lon := (O.lon.drop I0).take NI
  lat := (O.lat.drop J0).take NJ
  z t r c := O.z t (J0 + r) (I0 + c)

/-- numbers in strictly ascending or descending order -/
def Ordered (l : List ℝ) : Prop := l.Pairwise (· < ·) ∨ l.Pairwise (· > ·)

/-- the filters whose result at a point depends on the data at most `h` rows and columns away -/
inductive LocalFilter : SpaceFilter → ℕ → Prop
  | uniform (k : ℕ) : LocalFilter (.convolution .uniform k) (k / 2)
  | unfiltered (k : ℕ) : LocalFilter (.convolution .other k) 0

end Trackeddy.Spec
