import Verif.Model.Table
import Mathlib.Algebra.Order.Field.Basic
import Mathlib.Data.Finset.Card
import Mathlib.Data.Finset.Prod
import Mathlib.Order.Interval.Finset.Nat
import Mathlib.Data.Int.Interval

/-!
Model of `_mask_data_in_contour` (trackeddy/utils.py:118-155): the mask of the points inside a contour,
the sign, extremum and position of the extremum of the data inside.
-/
namespace Trackeddy

/-! ### `scipy.ndimage.binary_fill_holes` -/

/-- indices (row, column) of a window with `h` rows and `w` columns -/
def cells (h w : Nat) : Finset (Int × Int) := Finset.Ico (0 : Int) h ×ˢ Finset.Ico (0 : Int) w

/-- the default structuring element: the point and its four neighbours -/
def cross (p : Int × Int) : List (Int × Int) :=
  [p, (p.1 - 1, p.2), (p.1 + 1, p.2), (p.1, p.2 - 1), (p.1, p.2 + 1)]

/-- one masked binary dilation with `border_value = 1`: points outside the window count as set, points of
the contour are left as they are. This is what `binary_fill_holes` iterates (scipy's documented
algorithm; scipy itself is not part of /repo). -/
def dilate (h w : Nat) (contour S : Finset (Int × Int)) : Finset (Int × Int) :=
  (cells h w).filter fun p =>
    if p ∈ contour then p ∈ S else ∃ q ∈ cross p, q ∉ cells h w ∨ q ∈ S

theorem dilate_subset (h w : Nat) (contour S : Finset (Int × Int)) : dilate h w contour S ⊆ cells h w :=
  Finset.filter_subset _ _

theorem subset_dilate {h w : Nat} {contour S : Finset (Int × Int)} (hS : S ⊆ cells h w) :
    S ⊆ dilate h w contour S := by
  intro p hp
  unfold dilate
  rw [Finset.mem_filter]
  refine ⟨hS hp, ?_⟩
  split
  · exact hp
  · exact ⟨p, by simp [cross], Or.inr hp⟩

/-- dilations repeated until nothing changes -/
def flood (h w : Nat) (contour S : Finset (Int × Int)) (hS : S ⊆ cells h w) : Finset (Int × Int) :=
  if dilate h w contour S = S then S
  else flood h w contour (dilate h w contour S) (dilate_subset h w contour S)
termination_by (cells h w).card - S.card
decreasing_by
  rename_i hne
  have h1 : S.card < (dilate h w contour S).card :=
    Finset.card_lt_card (Finset.ssubset_iff_subset_ne.mpr ⟨subset_dilate hS, fun e => hne e.symm⟩)
  have h2 := Finset.card_le_card (dilate_subset h w contour S)
  omega

/-- `inside_contour` (utils.py:122-124): the window without the points reached from outside -/
def fillHoles (h w : Nat) (contour : Finset (Int × Int)) : Finset (Int × Int) :=
  cells h w \ flood h w contour ∅ (Finset.empty_subset _)

/-! ### sign and extremum -/

variable {K : Type} [Field K] [LinearOrder K]

/-- `np.sign` -/
def sgn (x : K) : K := if 0 < x then 1 else if x < 0 then -1 else 0

/-- `data_near_contour.where(inside_contour, np.nan)` in row-major order (utils.py:126); `none` is NaN -/
def flatInside (h w : Nat) (data : Nat → Nat → Option K) (inside : Nat → Nat → Bool) : List (Option K) :=
  (List.range h).flatMap fun r => (List.range w).map fun c => if inside r c then data r c else none

/-- first position whose value is a largest one, missing values ignored (`argmax` of xarray) -/
def nanArgmax (l : List (Option K)) : Nat :=
  l.findIdx fun o => match o with
    | none => false
    | some x => l.all fun o' => match o' with
      | none => true
      | some y => decide (y ≤ x)

/-- result of `_mask_data_in_contour` (besides the masked data and the mask) -/
structure Extremum (K : Type) where
  sign : K
  maxima : K
  row : Nat
  col : Nat
  deriving DecidableEq, Repr

/-- `_mask_data_in_contour` (utils.py:126-143): sign of the mean of the valid data inside, extremum and its
position. `argmax` raises `ValueError` if there is no valid point. -/
def maskData (h w : Nat) (data : Nat → Nat → Option K) (inside : Nat → Nat → Bool) :
    Except PyErr (Extremum K) :=
  let flat := flatInside h w data inside
  match flat.filterMap id with
  | [] => .error .valueError
  | v :: vs =>
    let mean := (v :: vs).sum / ((v :: vs).length : K)
    let s := sgn mean
    let mx := s * (vs.map (s * ·)).foldl max (s * v)
    let k := nanArgmax (flat.map (Option.map (s * ·)))
    .ok ⟨s, mx, k / w, k % w⟩

/-- `_mask_data_in_contour` from the contour pixels (utils.py:118-155) -/
def maskDataInContour (h w : Nat) (contour : Finset (Int × Int)) (data : Nat → Nat → Option K) :
    Except PyErr (Extremum K) :=
  maskData h w data fun r c => decide (((r : Int), (c : Int)) ∈ fillHoles h w contour)

end Trackeddy
