import Verif.Model.Table
import Mathlib.Algebra.Order.Field.Basic
import Mathlib.Data.Int.Order.Basic

/-!
Model of the window cut around a contour, `TrackEddy._get_data_in_contour` (trackeddy/trackeddy.py:475-519),
and of the grid indices of a contour, first part of `TrackEddy._data_in_contour`
(trackeddy/trackeddy.py:398-440). Grid indices are pairs (row, column) = (y, x).
-/
namespace Trackeddy

/-! ### the window -/

/-- the argument `threshold` (trackeddy.py:475) -/
inductive Threshold
  | auto | int (v : Int) | other
  deriving DecidableEq, Repr

/-- `np.max` / `np.min` of a non-empty list (trackeddy.py:477-478) -/
def maxI (p : Int) (l : List Int) : Int := l.foldl max p
@[inherit_doc maxI] def minI (p : Int) (l : List Int) : Int := l.foldl min p

/-- `thresh_value` (trackeddy.py:479-487); `d0`, `d1` are the extents in y and x. `int(0.5 * n)` of a
non-negative integer is `n / 2`. -/
def threshValue (t : Threshold) (d0 d1 : Int) : Int :=
  match t with
  | .auto => let v := max d0 d1 / 2; if v ≤ 3 then 3 else v
  | .int v => v
  | .other => 0

/-- the first loop (trackeddy.py:495-497); `np.argmax` returns the first maximum -/
def clampTR (s0 s1 : Int) (t0 t1 : Int) : Int × Int :=
  if t0 > s0 ∨ t1 > s1 then
    if t0 - s0 ≥ t1 - s1 then clampTR s0 s1 (t0 - 1) t1 else clampTR s0 s1 t0 (t1 - 1)
  else (t0, t1)
termination_by ((t0 - s0).toNat + (t1 - s1).toNat)
decreasing_by all_goals omega

/-- the second loop (trackeddy.py:499-501); `np.argmin` returns the first minimum -/
def clampBL (b0 b1 : Int) : Int × Int :=
  if b0 < 0 ∨ b1 < 0 then
    if b0 ≤ b1 then clampBL 0 b1 else clampBL b0 0
  else (b0, b1)
termination_by ((-b0).toNat + (-b1).toNat)
decreasing_by all_goals omega

/-- window `[bl0, tr0) × [bl1, tr1)` and the indices of the contour relative to it -/
structure Window where
  bl0 : Int
  bl1 : Int
  tr0 : Int
  tr1 : Int
  rel : List (Int × Int)
  deriving DecidableEq, Repr

/-- `_get_data_in_contour` (trackeddy.py:475-519) for a grid of `s0` rows and `s1` columns; the data and
coordinates returned are those of the rows `[bl0, tr0)` and columns `[bl1, tr1)`. -/
def getWindow (s0 s1 : Int) (p : Int × Int) (ps : List (Int × Int)) (t : Threshold) : Window :=
  let hi0 := maxI p.1 (ps.map Prod.fst)
  let hi1 := maxI p.2 (ps.map Prod.snd)
  let lo0 := minI p.1 (ps.map Prod.fst)
  let lo1 := minI p.2 (ps.map Prod.snd)
  let th := threshValue t (hi0 - lo0) (hi1 - lo1)
  let tr := clampTR s0 s1 (hi0 + (th + 1)) (hi1 + (th + 1))
  let bl := clampBL (lo0 - th) (lo1 - th)
  ⟨bl.1, bl.2, tr.1, tr.2, (p :: ps).map fun q => (q.1 - bl.1, q.2 - bl.2)⟩

/-! ### grid indices of contour points -/

/-- a grid with `ny` rows and `nx` columns; only entries inside are used -/
structure Grid (K : Type) where
  ny : Nat
  nx : Nat
  X : Nat → Nat → K
  Y : Nat → Nat → K

variable {K : Type} [Field K] [LinearOrder K]

/-- `np.isclose(a, b, rtol=0.05, atol=3)` (trackeddy.py:405-406) -/
def nearPt (a b : K) : Bool := decide (|a - b| ≤ 3 + 5 / 100 * |b|)

/-- `(Xmask * Ymask)[r, c]` -/
def Grid.mask (g : Grid K) (pt : K × K) (r c : Nat) : Bool := nearPt (g.X r c) pt.1 && nearPt (g.Y r c) pt.2

/-- `np.sum(Xmask * Ymask, 0)` (trackeddy.py:410) -/
def colSums (ny nx : Nat) (m : Nat → Nat → Bool) : List Nat :=
  (List.range nx).map fun c => (List.range ny).countP fun r => m r c

/-- `np.sum(Xmask * Ymask, 1)` (trackeddy.py:411) -/
def rowSums (ny nx : Nat) (m : Nat → Nat → Bool) : List Nat :=
  (List.range ny).map fun r => (List.range nx).countP fun c => m r c

/-- `np.argmax` (first maximum) of a list of sums -/
def argmaxNat (l : List Nat) : Nat := l.findIdx fun v => l.all fun w => decide (w ≤ v)

/-- `np.unique(s)[-1]` -/
def lastUnique (l : List Nat) : Nat := l.foldl max 0

/-- the grid points with `Xmask * Ymask`, in the order of boolean indexing (trackeddy.py:419-420) -/
def masked (ny nx : Nat) (m : Nat → Nat → Bool) : List (Nat × Nat) :=
  (List.range ny).flatMap fun r => ((List.range nx).filter fun c => m r c).map fun c => (r, c)

/-- index computed for the `k`-th masked point (trackeddy.py:413-417, 437-440); `np.unravel_index` raises
`ValueError` when the flat index does not fit the shape. -/
def codeIndex (ny nx : Nat) (m : Nat → Nat → Bool) (k : Nat) : Except PyErr (Nat × Nat) :=
  let h := lastUnique (colSums ny nx m)
  let w := lastUnique (rowSums ny nx m)
  if k < h * w then
    .ok (k / w + argmaxNat (rowSums ny nx m), k % w + argmaxNat (colSums ny nx m))
  else .error .valueError

/-- squared distance of a contour vertex to a grid point -/
def Grid.dist2 (g : Grid K) (v : K × K) (p : Nat × Nat) : K :=
  (g.X p.1 p.2 - v.1) ^ 2 + (g.Y p.1 p.2 - v.2) ^ 2

/-- `k` is an answer of `BallTree(coords).query(v, k=1)` (trackeddy.py:432-433): a masked grid point with
the least distance. scikit-learn itself is not modelled; which of several equally near points it
returns is left open. -/
def Grid.BallTreeAnswer (g : Grid K) (pt v : K × K) (k : Nat) : Prop :=
  ∃ p, (masked g.ny g.nx (g.mask pt))[k]? = some p ∧
    ∀ q ∈ masked g.ny g.nx (g.mask pt), g.dist2 v p ≤ g.dist2 v q

end Trackeddy
