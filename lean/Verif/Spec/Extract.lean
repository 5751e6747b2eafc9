import Verif.Model.Contours
import Verif.Spec.Contour

/-!
Contours of arrays: the grid that arrays describe and the returned arrays of given contour lines.
-/
namespace Trackeddy.Cntr
open Trackeddy.Spec

variable {K : Type} [Field K] [LinearOrder K]

/-- gridded data given by arrays: `X[j, i]`, `Y[j, i]`, `Z[j, i]` belong to grid point (i, j) -/
def arrGrid (X Y : NdArr K) (Z : NdArr (Option K)) (mask : Option (NdArr Bool)) : Grid K where
  nx := Z.cols
  ny := Z.rows
  x p := X.get p.2 p.1
  y p := Y.get p.2 p.1
  z p := Z.get p.2 p.1
  masked p := match mask with
    | some M => M.get p.2 p.1
    | none => false

/-- all arrays have the same dimensions -/
def SameShape (X Y : NdArr K) (Z : NdArr (Option K)) (mask : Option (NdArr Bool)) : Prop :=
  (X.rows, X.cols) = (Z.rows, Z.cols) ∧ (Y.rows, Y.cols) = (Z.rows, Z.cols) ∧
    ∀ M, mask = some M → (M.rows, M.cols) = (Z.rows, Z.cols)

/-- enough rounds for every loop of the tracer -/
def bound (Z : NdArr (Option K)) : Nat := 4 * (Z.cols * Z.rows) + 2

/-- the returned arrays of contours given by their sides -/
def pointArrays (G : Grid K) (lev : K) (cs : List (List Side)) : List (Item K) := cs.map fun es => .points (es.map (G.point lev))
def codeArrays (cs : List (List Side)) : List (Item K) := cs.map fun es => .codes (codes es.length)

/-! ### changed arrays -/

/-- `a[::-1]` -/
def NdArr.flipRows {α : Type} (a : NdArr α) : NdArr α := ⟨a.rows, a.cols, fun j i => a.get (a.rows - 1 - j) i⟩
/-- `a[:, ::-1]` -/
def NdArr.flipCols {α : Type} (a : NdArr α) : NdArr α := ⟨a.rows, a.cols, fun j i => a.get j (a.cols - 1 - i)⟩
/-- `a.T` -/
def NdArr.transpose {α : Type} (a : NdArr α) : NdArr α := ⟨a.cols, a.rows, fun j i => a.get i j⟩

/-- `-a` for values -/
def NdArr.neg (a : NdArr (Option K)) : NdArr (Option K) := ⟨a.rows, a.cols, fun j i => (a.get j i).map fun v => -v⟩

/-- no value is missing, no value equals the level, and neither does the mean of the corners of a cell of which only two opposite corners are
above the level -/
structure NoTies (Z : NdArr (Option K)) (lev : K) : Prop where
  value : ∀ j < Z.rows, ∀ i < Z.cols, ∃ v, Z.get j i = some v ∧ v ≠ lev
  mean : ∀ j i, j + 1 < Z.rows → i + 1 < Z.cols → ∀ p q r s, Z.get j i = some p → Z.get j (i + 1) = some q →
    Z.get (j + 1) i = some r → Z.get (j + 1) (i + 1) = some s → (lev < p ↔ ¬ lev < q) → (lev < p ↔ ¬ lev < r) → (lev < p ↔ lev < s) →
    (p + q + r + s) / 4 ≠ lev

/-- all values multiplied by `a` and increased by `b` -/
def NdArr.affine (a b : K) (Z : NdArr (Option K)) : NdArr (Option K) := ⟨Z.rows, Z.cols, fun j i => (Z.get j i).map fun v => a * v + b⟩

/-- `a * X + b * Y + c` for arrays -/
def NdArr.lin (a b c : K) (X Y : NdArr K) : NdArr K := ⟨X.rows, X.cols, fun j i => a * X.get j i + b * Y.get j i + c⟩

end Trackeddy.Cntr
