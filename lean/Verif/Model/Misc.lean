import Verif.Model.Table
import Mathlib.Analysis.SpecialFunctions.Exp
import Mathlib.Algebra.Order.Floor.Semiring
import Mathlib.Data.Rat.Floor

/-!
Models of `approx_RD_lat` (trackeddy/physics.py:4-25) and of `Printer` (trackeddy/printfunc.py:5-52).
-/
namespace Trackeddy

/-- `approx_RD_lat` (physics.py:20-24), in kilometres -/
noncomputable def approxRD (x : ℝ) : ℝ :=
  let b := 0
  let c := 15 / 100
  200 * Real.exp (-(x - b) ^ 2 / 2 * c ^ 2) + 60 * Real.exp (-(x - b) ^ 2 / 40 * c ^ 2)

/-- `percent` (printfunc.py:31), exact -/
def percent (maxv i : ℚ) : ℚ := (i + 1) / maxv * 100

/-- `progress` (printfunc.py:35) for positive arguments, exact; `int` rounds towards zero -/
def barProgress (maxv step i : ℚ) : Int := ⌊10 / (maxv / (step * (i + 1)))⌋

/-- a character repeated; a negative count gives the empty string -/
def rep (c : Char) (n : Int) : List Char := List.replicate n.toNat c

/-- the bar printed between brackets (printfunc.py:36-44) -/
def bar (maxv step i : ℚ) : List Char :=
  rep '=' (barProgress maxv step i) ++ ['>'] ++ rep ' ' (10 - barProgress maxv step i)

/-- comparison `<` of tuples of strings; strings are compared character by character -/
def tupleLt : List (List Char) → List (List Char) → Bool
  | [], [] => false
  | [], _ :: _ => true
  | _ :: _, [] => false
  | a :: as, b :: bs => if a = b then tupleLt as bs else decide (a < b)

/-- the guard of `Printer.__init__` (printfunc.py:13-14): does it raise `ImportError`? `python_version_tuple`
returns the numbers of the version as strings. -/
def guardRaises (major minor : Nat) (patch : List Char) : Bool :=
  tupleLt [Nat.toDigits 10 major, Nat.toDigits 10 minor, patch] [['3'], ['1', '0'], ['0']]

end Trackeddy
