import Verif.Model.Gauss
import Verif.Model.Table
import Mathlib.Logic.Function.Basic
import Mathlib.Analysis.SpecialFunctions.Log.Basic

/-!
Model of the generator of synthetic fields: `dist`, `Generate_field.checkposition`, `make_random_walk`,
`assemble_field`, `reconstruct_field`, `pass_args` (trackeddy/generator/field_generator.py) and `makeGaussian`,
`moveGaussian` (trackeddy/generator/gaussian_field_functions.py). Random draws are arguments. The
Gaussian of an eddy is `genGaussian` of Model/Gauss.lean.
-/
namespace Trackeddy

/-- index of a position on the two axes -/
abbrev Pos := Nat × Nat

/-- `dist` (field_generator.py:6-7) of two positions on the axes `x`, `y` -/
noncomputable def posDist (x y : Nat → ℝ) (p q : Pos) : ℝ :=
  Real.sqrt ((x p.1 - x q.1) ^ 2 + (y q.2 - y p.2) ^ 2)

/-- settings of the generator that the position check uses -/
structure Gen where
  x : Nat → ℝ
  y : Nat → ℝ
  a : ℝ
  b : ℝ
  away : ℝ

/-- `checker` inside the loop (field_generator.py:147-162) for eddy `i` at its new position; `locs` holds the
positions of all eddies, including the new one. A single zero distance (the eddy itself) is replaced by
infinity, several zeros by `away_val * a`. -/
def Gen.tooClose (g : Gen) {n : Nat} (locs : Fin n → Pos) (i : Fin n) : Prop :=
  let zeros := { j | posDist g.x g.y (locs i) (locs j) = 0 }
  let d : Fin n → Option ℝ := fun j => open Classical in
    if posDist g.x g.y (locs i) (locs j) = 0 then
      (if zeros.Subsingleton then none else some (g.away * g.a))
    else some (posDist g.x g.y (locs i) (locs j))
  ∃ j v, d j = some v ∧ (v < g.away * g.a ∨ v < g.away * g.b)

/-- `checker` before the loop (field_generator.py:122-137): every zero distance is replaced by `away_val * a` -/
def Gen.tooCloseFirst (g : Gen) {n : Nat} (here : Pos) (locs : Fin n → Pos) : Prop :=
  ∃ j, let v := open Classical in
      if posDist g.x g.y here (locs j) = 0 then g.away * g.a else posDist g.x g.y here (locs j)
    v < g.away * g.a ∨ v < g.away * g.b

/-- the loop `while checker or count >= 10000` (field_generator.py:138-163) for one eddy, run for at most
`fuel` rounds; `none` means that it has not ended by then. `bad q` is the value of `checker` for the
position `q`, `draw k` the `k`-th random position. -/
noncomputable def placeLoop (bad : Pos → Prop) (draw : Nat → Pos) :
    (fuel count : Nat) → (checker : Prop) → Pos → Option Pos
  | 0, count, checker, p => open Classical in if checker ∨ 10000 ≤ count then none else some p
  | fuel + 1, count, checker, p => open Classical in
    if checker ∨ 10000 ≤ count then placeLoop bad draw fuel (count + 1) (bad (draw count)) (draw count)
    else some p

/-- one round of the loop over the eddies (field_generator.py:121-163). `shown` are the positions used for the
first check: random ones for `loc=True` (then the check is forced to fail), the current ones
otherwise. -/
noncomputable def placeOne (g : Gen) {n : Nat} (loc : Bool) (shown : Fin n → Pos) (draw : Nat → Pos) (fuel : Nat)
    (locs : Fin n → Pos) (i : Fin n) : Option (Fin n → Pos) :=
  (placeLoop (fun q => g.tooClose (Function.update locs i q) i) draw fuel 0
    (g.tooCloseFirst (locs i) (if loc then shown else locs) ∨ loc = true) (locs i)).map (Function.update locs i)

/-- `checkposition` (field_generator.py:112-165): all eddies in turn; `draws i k` is the `k`-th position drawn for
eddy `i`. -/
noncomputable def checkPosition (g : Gen) {n : Nat} (loc : Bool) (shown : Fin n → Fin n → Pos)
    (draws : Fin n → Nat → Pos) (fuel : Nat) : List (Fin n) → (Fin n → Pos) → Option (Fin n → Pos)
  | [], locs => some locs
  | i :: is, locs => (placeOne g loc (shown i) (draws i) fuel locs i).bind
      (checkPosition g loc shown draws fuel is)

/-! ### random walk -/

/-- `move_dict` (field_generator.py:37-59, 168-177) -/
def move (k : Nat) (s : Int) : Option (Int × Int) :=
  match k with
  | 1 => some (s, 0)
  | 2 => some (0, s)
  | 3 => some (0, -s)
  | 4 => some (-s, 0)
  | 5 => some (-s, -s)
  | 6 => some (-s, s)
  | 7 => some (s, -s)
  | 8 => some (s, s)
  | _ => none

/-- `make_random_walk` (field_generator.py:167-183) for a pair of indices: two draws, the first move is
overwritten by the second; a draw outside 1..8 would raise `KeyError` -/
def randomWalk (p : Int × Int) (steps : Int) (k1 k2 : Nat) : Option (Int × Int) := do
  let _ ← move k1 steps
  let m ← move k2 steps
  return (p.1 + m.1, p.2 + m.2)

/-! ### layout of the fields -/

/-- row-major flat list of the values on the mesh grid: one row per `y` (`twoD_Gaussian(...).ravel()` with
`X, Y = np.meshgrid(x, y)`, field_generator.py:110, 213) -/
def ravelMesh {K : Type} (f : Nat → Nat → K) (nx ny : Nat) : List K :=
  (List.range ny).flatMap fun r => (List.range nx).map fun c => f c r

/-- `reshape((n0, n1))`: raises `ValueError` if the sizes differ; entry (i, j) afterwards -/
def reshape {K : Type} (l : List K) (n0 n1 : Nat) : Except PyErr (Nat → Nat → Option K) :=
  if l.length = n0 * n1 then .ok fun i j => if j < n1 then l[i * n1 + j]? else none else .error .valueError

/-- sum of the fields of the eddies added entry by entry to an array of zeros -/
noncomputable def addFields (l : List (Nat → Nat → Option ℝ)) (i j : Nat) : Option ℝ :=
  l.foldl (fun acc f => acc.bind fun s => (f i j).map (s + ·)) (some 0)

/-- one frame of `assemble_field` (field_generator.py:185-202) with `xlen`, `ylen`, margin `m`; `eddies` are the
Gaussians as functions of the indices of x and y -/
noncomputable def assembleFrame (xlen ylen m : Nat) (eddies : List (Nat → Nat → ℝ)) :
    Except PyErr (Nat → Nat → Option ℝ) := do
  let gs ← eddies.mapM fun f => reshape (ravelMesh f (xlen + 2 * m) (ylen + 2 * m)) (xlen + 2 * m) (ylen + 2 * m)
  return addFields gs

/-- `reconstruct_field` (field_generator.py:204-214): `pass_args` is called with its default margin 50 -/
noncomputable def reconstruct (xlen ylen : Nat) (eddies : List (Nat → Nat → ℝ)) :
    Except PyErr (Nat → Nat → Option ℝ) := do
  let gs ← eddies.mapM fun f => reshape (ravelMesh f (xlen + 2 * 50) (ylen + 2 * 50)) xlen ylen
  return addFields gs

/-- `np.linspace(lo, hi, n)[k]` -/
noncomputable def linspaceAt (lo hi : ℝ) (n k : Nat) : ℝ := lo + k * ((hi - lo) / (n - 1))

/-- coordinate at which `pass_args` puts an eddy with index `k` on an axis from `lo` to `hi` with `len` entries
(field_generator.py:216-230) -/
noncomputable def placedAt (lo hi : ℝ) (len m k : Nat) : ℝ := linspaceAt lo hi (len + 2 * m) (k + m)

/-! ### makeGaussian -/

/-- entry (r, c) of `makeGaussian` (gaussian_field_functions.py:4-21) -/
noncomputable def makeGaussian (size : Nat) (fwhm : ℝ) (center : Option (ℝ × ℝ)) (r c : Nat) : ℝ :=
  let x0 := match center with | none => ((size / 2 : Nat) : ℝ) | some p => p.1
  let y0 := match center with | none => ((size / 2 : Nat) : ℝ) | some p => p.2
  Real.exp (-4 * Real.log 2 * (((c : ℝ) - x0) ^ 2 + ((r : ℝ) - y0) ^ 2) / fwhm ^ 2)

/-- `moveGaussian` (gaussian_field_functions.py:24-28): array of zeros whose frames are overwritten in turn -/
noncomputable def moveGaussian (size : Nat) (fwhm : ℝ) (center : Nat → ℝ × ℝ) (timestep : Nat) :
    Nat → Nat → Nat → ℝ :=
  (List.range timestep).foldl (fun z tt => Function.update z tt (makeGaussian size fwhm (some (center tt))))
    fun _ _ _ => 0

end Trackeddy
