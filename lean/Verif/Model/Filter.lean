import Verif.Model.Table
import Mathlib.Algebra.Order.Field.Basic
import Mathlib.Algebra.BigOperators.Group.Finset.Basic
import Mathlib.Data.Fintype.BigOperators
import Mathlib.Data.Int.Interval
import Mathlib.Data.Fintype.Fin

/-!
Model of the filters applied before tracking: decorator `filter_data` (trackeddy/decorators.py:41-67),
`TrackEddy._filter_data_`, `_time_filter`, `_space_filter` (trackeddy/trackeddy.py:129-179) and `treat_nan`
(trackeddy.py:266-273). A snapshot has `ny` latitudes and `nx` longitudes; `none` is a missing value.
-/
namespace Trackeddy

abbrev Fld (K : Type) (ny nx : Nat) := Fin ny → Fin nx → Option K

variable {K : Type} [Field K] {ny nx : Nat}

/-- contribution of a value to a sum that skips missing values -/
def val : Option K → K
  | none => 0
  | some x => x

/-- contribution to the number of valid values -/
def one : Option K → K
  | none => 0
  | some _ => 1

/-- mean of the valid values of a line (xarray `mean`) -/
def lineMean {n : Nat} (l : Fin n → Option K) : K := (∑ i, val (l i)) / ∑ i, one (l i)

/-- `data2track - data2track.mean(self.coords["x"])` (trackeddy.py:169) -/
def meridional (v : Fld K ny nx) : Fld K ny nx := fun r c => (v r c).map (· - lineMean (v r))

/-- `data2track - data2track.mean(self.coords["y"])` (trackeddy.py:172) -/
def zonal (v : Fld K ny nx) : Fld K ny nx := fun r c => (v r c).map (· - lineMean fun r' => v r' c)

/-- the field padded with zeros (`astropy.convolution.convolve` with its default boundary `fill`, value 0) -/
def padded (v : Fld K ny nx) (i j : Int) : Option K :=
  if h : 0 ≤ i ∧ i < ny ∧ 0 ≤ j ∧ j < nx then v ⟨i.toNat, by omega⟩ ⟨j.toNat, by omega⟩ else some 0

/-- size of the kernel (trackeddy.py:152-155): even sizes are increased by one -/
def kernelSize (k : Nat) : Nat := if k % 2 = 0 then k + 1 else k

/-- offsets covered by a kernel of odd size -/
def box (size : Nat) : Finset (Int × Int) :=
  Finset.Icc (-((size / 2 : Nat) : Int)) (size / 2 : Nat) ×ˢ Finset.Icc (-((size / 2 : Nat) : Int)) (size / 2 : Nat)

/-- `convolution.convolve(tmp_data, kernel=np.ones((n, n)))` (trackeddy.py:156): mean over the box, missing
values left out (astropy's default `interpolate`; astropy itself is not part of /repo) -/
def boxMean (n : Nat) (v : Fld K ny nx) (r : Fin ny) (c : Fin nx) : K :=
  (∑ p ∈ box n, val (padded v (r + p.1) (c + p.2))) / ∑ p ∈ box n, one (padded v (r + p.1) (c + p.2))

/-- filter `convolution` in mode `uniform` (trackeddy.py:150-159) -/
def uniformFilter (k : Nat) (v : Fld K ny nx) : Fld K ny nx :=
  fun r c => (v r c).map (· - boxMean (kernelSize k) v r c)

/-- argument `mode` -/
inductive Mode | uniform | gaussian | other
/-- `S_filter_setup` -/
inductive SpaceFilter
  | convolution (mode : Mode) (kernel : Nat) | meridional | zonal | other

/-- `_space_filter` (trackeddy.py:145-179); mode `gaussian` raises `Warning` -/
def spaceFilter (s : SpaceFilter) (v : Fld K ny nx) : Except PyErr (Fld K ny nx) :=
  match s with
  | .convolution .uniform k => .ok (uniformFilter k v)
  | .convolution .gaussian _ => .error .warning
  | .convolution .other _ => .ok v
  | .meridional => .ok (meridional v)
  | .zonal => .ok (zonal v)
  | .other => .error .valueError

/-- `self.filter` -/
inductive FilterName | space | time | both | other

/-- `_filter_data_` without the decorator (trackeddy.py:130-140); `_time_filter` returns `None`. It is only
called with the names `space` and `time`. -/
def filterFunc (s : SpaceFilter) (f : FilterName) (v : Fld K ny nx) : Except PyErr (Option (Fld K ny nx)) :=
  match f with
  | .time => .ok none
  | .space => (spaceFilter s v).map some
  | _ => .error .valueError

/-- `treat_nan` (trackeddy.py:266-273) -/
def treatNan (nanTreatment : Bool) (v : Fld K ny nx) : Fld K ny nx :=
  if nanTreatment then fun r c => some ((v r c).getD 0) else v

/-- the decorated `_filter_data_` (decorators.py:57-65): value given to `self.data2track`, `none` for `None` -/
def filterData (nanTreatment : Bool) (s : SpaceFilter) (f : FilterName) (v : Fld K ny nx) :
    Except PyErr (Option (Fld K ny nx)) :=
  match f with
  | .both => do
    let _ ← spaceFilter s (treatNan nanTreatment v)
    return none
  | .space => filterFunc s .space v
  | .time => filterFunc s .time v
  | .other => .ok (some (treatNan nanTreatment v))

end Trackeddy
