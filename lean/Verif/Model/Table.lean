import Mathlib.Data.List.Sort
import Mathlib.Data.Prod.Lex
import Mathlib.Data.List.Dedup

/-!
The part of pandas used by trackeddy/utils.py: tables with a two level row index
(`identifier`, `index`) plus an opaque payload per row.

A pandas `MultiIndex` stores its labels as integer *codes* into a list of *levels*.  The levels may
contain labels that no row uses any more ("unpruned").  As several functions of utils.py read
`index.levels[0]` or call `set_levels`, the list of levels is part of the model (`Tbl.lev`);
a row's code is the position of its identifier in `lev`.

Not modelled: the levels of the inner index columns (never read by the code), dtypes, NaN labels.
-/
namespace Trackeddy

/-- Python exceptions that occur as values in the models; `crash` is a memory fault or endless loop of the C code. -/
inductive PyErr
  | keyError | valueError | indexError | typeError | zeroDivisionError | linAlgError | warning | recursionError | attributeError | exception | crash
  deriving DecidableEq, Repr

/-- One row of an eddy table: index columns `identifier` and `index`, and the remaining columns. -/
structure Row (α : Type) where
  id : Nat
  idx : Nat
  val : α
  deriving DecidableEq, Repr

/-- A table: `lev` is `index.levels[0]`, `rows` the rows in order. -/
structure Tbl (α : Type) where
  lev : List Nat
  rows : List (Row α)
  deriving DecidableEq, Repr

/-- Insertion into an ascending list without repetition. -/
def insU (a : Nat) : List Nat → List Nat
  | [] => [a]
  | b :: l => if a < b then a :: b :: l else if a = b then b :: l else b :: insU a l

/-- `np.unique` / the levels computed by a factorisation: ascending, without repetition. -/
def usort (l : List Nat) : List Nat := l.foldr insU []

/-- Stable sort by a key (`sort_index`, which is stable for multi level keys). -/
def sortBy {β κ : Type*} [LinearOrder κ] (key : β → κ) (l : List β) : List β :=
  l.insertionSort (fun a b => key a ≤ key b)

namespace Tbl
variable {α : Type}

/-- the identifiers of the rows (`index.get_level_values(0)`) -/
def ids (t : Tbl α) : List Nat := t.rows.map Row.id

/-- `reset_index().set_index([...])` as far as the rows and level 0 are concerned: levels are
recomputed from the rows (utils.py:84, 217, 251-253; trackeddy.py:202-204, 210-212;
decorators.py:79). -/
def resetSet (t : Tbl α) : Tbl α := ⟨usort t.ids, t.rows⟩

/-- `table.index.set_levels(new, level=0)`: every row keeps its code (position of its identifier in
the old levels) and gets the label at that position in `new`; `ValueError` if a code does not fit
(utils.py:31, 87). -/
def setLevels (t : Tbl α) (new : List Nat) : Except PyErr (Tbl α) :=
  (t.rows.mapM fun (r : Row α) =>
    match new[t.lev.idxOf r.id]? with
    | some i => Except.ok ({ r with id := i } : Row α)
    | none => Except.error PyErr.valueError).map (⟨new, ·⟩)

/-- `table.rename(index={old: new}, level=0)`: labels are mapped, levels recomputed
(utils.py:13-15, 59-61). A label that does not occur is silently ignored. -/
def rename (t : Tbl α) (old new : Nat) : Tbl α :=
  resetSet ⟨t.lev, t.rows.map fun r => if r.id = old then { r with id := new } else r⟩

/-- `table.drop(labels, level=0)` for labels that occur in the table; levels are kept
(utils.py:66, 69). -/
def drop (t : Tbl α) (labels : List Nat) : Tbl α :=
  ⟨t.lev, t.rows.filter fun r => r.id ∉ labels⟩

/-- `pd.concat([p, n])`: rows are appended.  pandas >= 2.1 takes the union of the (unpruned) levels,
older versions recompute the levels from the labels; `prunes` selects the behaviour
(utils.py:76). -/
def concat (prunes : Bool) (p n : Tbl α) : Tbl α :=
  ⟨if prunes then usort (p.ids ++ n.ids) else usort (p.lev ++ n.lev), p.rows ++ n.rows⟩

/-- rows with `index == 0` (`table.xs(0, level="index")`, utils.py:98-99) -/
def first (t : Tbl α) : List (Row α) := t.rows.filter fun r => r.idx = 0

end Tbl
end Trackeddy
