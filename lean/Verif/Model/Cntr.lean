import Mathlib.Algebra.Order.Field.Basic

/-!
Model of the contour tracer `trackeddy/src/cntr.c` as `extract_contours` (trackeddy/geometry.py:9-42) uses it:
one level, no chunks (`c.trace(level)`: cntr.c:1877-1892 sets `nlevels = 1`, `nchunk = 0`). The branches of
cntr.c that are only taken for two levels (`two_levels` true: slits, `edge_walker`, chunks) are left out.
The optional mask is part of the model although `extract_contours` does not pass one.

* `long` indices are integers; C arrays are functions on the integers, and every access made while tracing
  checks the bounds of the array: an access outside yields `CErr.outOfBounds`.
* The bits of a `Cdata` (cntr.c:240-272) are the fields of `Cell`; `Z_VALUE` is 0 or 1 for one level.
* `double` is an ordered field `K`, NaN (missing data) is `none`. A comparison with `none` is false; a point
  computed from `none` is `none`.
* Loops take a number of rounds; running out of it yields `CErr.fuel`. The theorems show that this does not
  happen.
-/
namespace Trackeddy.Cntr

/-- ways in which tracing can go wrong -/
inductive CErr
  | outOfBounds | fuel | runtimeError
  deriving DecidableEq, Repr

/-- one entry of the data array (cntr.c:240-272) -/
structure Cell where
  z : Bool := false
  ex : Bool := false
  iB : Bool := false
  jB : Bool := false
  i0 : Bool := false
  i1 : Bool := false
  j0 : Bool := false
  j1 : Bool := false
  row : Bool := false
  opn : Bool := false
  allDone : Bool := false
  deriving DecidableEq, Repr, Inhabited

/-- `ANY_START` (cntr.c:283) -/
def Cell.any (c : Cell) : Bool := c.i0 || c.i1 || c.j0 || c.j1

/-- an array indexed by `long` -/
structure Arr (α : Type) where
  get : Int → α

instance {α : Type} : CoeFun (Arr α) fun _ => Int → α := ⟨Arr.get⟩

/-- the arrays handed to `Cntr(x, y, z, mask)` (cntr.c:1778-1874): dimensions, coordinates, values -/
structure Mesh (K : Type) where
  imax : Nat
  jmax : Nat
  x : Arr K
  y : Arr K
  z : Arr (Option K)

variable {K : Type} [Field K] [LinearOrder K]

/-- length of `z`, `x`, `y` and `saddle` -/
def Mesh.ijmax (m : Mesh K) : Int := m.imax * m.jmax

/-- length of `data` and `reg` (cntr.c:1309) -/
def Mesh.nreg (m : Mesh K) : Int := m.imax * m.jmax + m.imax + 1

/-- the comparison `z[ij] > zlev0` (cntr.c:1069, 1096) -/
def Mesh.high (m : Mesh K) (lev : K) (k : Int) : Bool :=
  match m.z k with
  | some v => decide (lev < v)
  | none => false

/-- write to an array -/
def upd {α : Type} (a : Arr α) (k : Int) (v : α) : Arr α := ⟨fun l => if l = k then v else a l⟩

/-- the fields of `Csite` that are used for one level (cntr.c:190-215). `saddle` is `none` for 0 and
`some b` for `SADDLE_SET` with (`b = true`) or without `SADDLE_GT0`. -/
structure Site where
  data : Arr Cell
  saddle : Arr (Option Bool)
  count : Int
  edge0 : Int
  left0 : Int
  edge00 : Int

/-! ### macros (cntr.c:279-285) -/

def FORWARD (left ix : Int) : Int :=
  if left > 0 then (if left > 1 then 1 else -ix) else (if left < -1 then -1 else ix)
def POINT0 (edge fwd : Int) : Int := edge - (if fwd > 0 then fwd else 0)
def POINT1 (edge fwd : Int) : Int := edge + (if fwd < 0 then fwd else 0)
def IS_JEDGE (left : Int) : Bool :=
  if left > 0 then decide (left > 1) else decide (left < -1)

/-- `data[edge] & START_MARK(left)` (cntr.c:284-285) -/
def Cell.start (c : Cell) (left : Int) : Bool :=
  if left > 0 then (if left > 1 then c.j1 else c.i1) else (if left < -1 then c.j0 else c.i0)

/-- `data[edge] &= ~START_MARK(left)` -/
def Cell.unstart (c : Cell) (left : Int) : Cell :=
  if left > 0 then (if left > 1 then { c with j1 := false } else { c with i1 := false })
  else (if left < -1 then { c with j0 := false } else { c with i0 := false })

/-! ### `mask_zones` (cntr.c:1254-1284) -/

/-- body of the double loop (cntr.c:1270-1277) at position `ij` -/
def maskCell (imax : Nat) (mask : Nat → Bool) (reg : Nat → Bool) (ij : Nat) : Nat → Bool :=
  let reg1 : Nat → Bool := fun k => if k = ij ∧ (ij % imax = 0 ∨ ij / imax = 0) then false else reg k
  if mask ij then
    fun k => if k = ij ∨ k = ij + 1 ∨ k = ij + imax ∨ k = ij + imax + 1 then false else reg1 k
  else reg1

/-- `mask_zones`: `reg` before is the freshly allocated memory. The double loop visits `ij` in order. -/
def maskZones (imax jmax : Nat) (mask : Nat → Bool) (reg : Nat → Bool) : Nat → Bool :=
  let r1 : Nat → Bool := fun k => if imax + 1 ≤ k ∧ k < imax * jmax then true else reg k
  let r2 := (List.range (imax * jmax)).foldl (maskCell imax mask) r1
  fun k => if imax * jmax ≤ k ∧ k < imax * jmax + imax + 1 then false else r2 k

/-! ### `data_init` (cntr.c:1014-1231) -/

structure Init where
  data : Arr Cell
  count : Int
  started : Bool
  ichunk : Int
  jchunk : Int

/-- existence of the zone whose lower left corner is (i, j) (cntr.c:1082-1092): taken from `reg`, or all zones of
the mesh if there is none -/
def regFlag (m : Mesh K) (reg : Option (Nat → Bool)) (i j : Nat) : Bool :=
  match reg with
  | some r => r (i + j * m.imax + m.imax + 1)
  | none => decide (i + 1 < m.imax ∧ j + 1 < m.jmax)

/-- translate the zone existence of the next row and the value of the next point (cntr.c:1078-1098) -/
def initFlags (m : Mesh K) (reg : Option (Nat → Bool)) (lev : K) (i j : Nat) (data : Arr Cell) : Arr Cell :=
  let ij : Int := i + j * m.imax
  let d1 := upd data (ij + m.imax + 1) { ex := regFlag m reg i j }
  let d2 := if ij < m.imax then upd d1 (ij + 1) {} else d1
  if ij < m.ijmax - 1 ∧ m.high lev (ij + 1) = true then upd d2 (ij + 1) { d2 (ij + 1) with z := true } else d2

/-- boundary and start marks of the edges at `ij` (cntr.c:1100-1202); the result is the new entry and the
number of start marks made -/
def initMarks (imax : Nat) (ibndy jbndy : Bool) (i j : Nat) (data : Arr Cell) : Cell × Int :=
  let ij : Int := i + j * imax
  let c := data ij
  let iedge : Bool × Bool :=
    if 0 < j ∧ c.z ≠ (data (ij - imax)).z then
      if ibndy then (c.ex, (data (ij + 1)).ex)
      else
        let v0 := c.z
        let vb := (data (ij - imax)).z
        let va := (data (ij - 1)).z
        let vc := (data (ij + 1)).z
        let vd := (data (ij - imax + 1)).z
        (decide (v0 = false ∧ va ≠ v0 ∧ (vc ≠ v0 ∨ vd ≠ v0) ∧ c.ex = true),
         decide (vb = false ∧ va = vb ∧ (vc = vb ∨ vd = vb) ∧ (data (ij + 1)).ex = true))
    else (false, false)
  let jedge : Bool × Bool :=
    if 0 < i ∧ jbndy = true ∧ c.z ≠ (data (ij - 1)).z then (c.ex, (data (ij + imax)).ex) else (false, false)
  ({ c with iB := ibndy, jB := jbndy, i0 := iedge.1, i1 := iedge.2, j0 := jedge.1, j1 := jedge.2 },
   (if iedge.1 then 1 else 0) + (if iedge.2 then 1 else 0) + (if jedge.1 then 1 else 0) +
     (if jedge.2 then 1 else 0))

/-- body of the inner loop (cntr.c:1074-1207). Without chunks `icsize = imax - 1` and `irem = imax`
(cntr.c:1033, 1060). -/
def initCell (m : Mesh K) (reg : Option (Nat → Bool)) (lev : K) (j : Nat) (s : Init) (i : Nat) : Init :=
  let ij : Int := i + j * m.imax
  let data := initFlags m reg lev i j s.data
  let ibndy : Bool := decide ((i : Int) = s.ichunk) || ((data ij).ex != (data (ij + 1)).ex)
  let jbndy : Bool := decide ((j : Int) = s.jchunk) || ((data ij).ex != (data (ij + m.imax)).ex)
  let r := initMarks m.imax ibndy jbndy i j data
  { data := upd data ij r.1
    count := s.count + r.2
    started := s.started
    ichunk := if (i : Int) = s.ichunk then s.ichunk + (m.imax - 1) + (if s.ichunk ≥ m.imax then 1 else 0) else s.ichunk
    jchunk := s.jchunk }

/-- body of the outer loop (cntr.c:1072-1215) -/
def initRow (m : Mesh K) (reg : Option (Nat → Bool)) (lev : K) (s : Init) (j : Nat) : Init :=
  let s1 := (List.range m.imax).foldl (initCell m reg lev j) { s with ichunk := 0 }
  let s2 := if (j : Int) = s1.jchunk then
      { s1 with jchunk := s1.jchunk + (m.jmax - 1) + (if s1.jchunk ≥ m.jmax then 1 else 0) } else s1
  let r : Int := j * m.imax
  if s2.count ≠ 0 ∧ s2.started = false then
    { s2 with data := upd s2.data r { s2.data r with row := true }, started := true }
  else s2

/-- `data_init`; `junk` is the memory before -/
def dataInit (m : Mesh K) (reg : Option (Nat → Bool)) (lev : K) (junk : Arr Cell) (sjunk : Arr (Option Bool)) : Site :=
  let s0 : Init := ⟨upd junk 0 { z := m.high lev 0 }, 0, false, 0, 0⟩
  let s := (List.range m.jmax).foldl (initRow m reg lev) s0
  { data := if s.count = 0 then upd s.data 0 { s.data 0 with allDone := true } else s.data
    saddle := if s.count = 0 then sjunk else ⟨fun k => if 0 ≤ k ∧ k < m.ijmax then none else sjunk k⟩
    count := s.count
    edge0 := 0
    left0 := 0
    edge00 := 0 }

/-! ### `zone_crosser` (cntr.c:326-529) -/

/-- checked read of an array of length `n` -/
def rd {α : Type} (n : Int) (a : Arr α) (k : Int) : Except CErr α :=
  if 0 ≤ k ∧ k < n then .ok (a k) else .error .outOfBounds

/-- a point of a contour; `none` if a coordinate is NaN -/
abbrev Vertex (K : Type) := Option (K × K)

/-- the interpolated point on the edge from `p0` to `p1` (cntr.c:368-370) -/
def interpolate (lev : K) (z0 z1 : Option K) (x0 x1 y0 y1 : K) : Vertex K :=
  match z0, z1 with
  | some a, some b =>
    let zcp := (lev - a) / (b - a)
    some (zcp * (x1 - x0) + x0, zcp * (y1 - y0) + y0)
  | _, _ => none

/-- the point marked on the second pass, with checked access to `z`, `x` and `y` -/
def markPoint (m : Mesh K) (lev : K) (p0 p1 : Int) : Except CErr (Vertex K) := do
  let z0 ← rd m.ijmax m.z p0
  let z1 ← rd m.ijmax m.z p1
  let x0 ← rd m.ijmax m.x p0
  let x1 ← rd m.ijmax m.x p1
  let y0 ← rd m.ijmax m.y p0
  let y1 ← rd m.ijmax m.y p1
  return interpolate lev z0 z1 x0 x1 y0 y1

/-- `zcentre > site->zlevel[0]` (cntr.c:437-438) -/
def centreHigh (lev : K) (a b c d : Option K) : Bool :=
  match a, b, c, d with
  | some a, some b, some c, some d => decide (lev < (a + b + c + d) / 4)
  | _, _, _, _ => false

/-- local variables of `zone_crosser`; `pts` are the points stored so far, `xcp[0..n)` -/
structure Cross (K : Type) where
  edge : Int
  left : Int
  fwd : Int
  jedge : Bool
  n : Nat
  done : Nat
  data : Arr Cell
  saddle : Arr (Option Bool)
  count : Int
  pts : List (Vertex K)

/-- start marks of an i-edge that is passed on the first pass are erased (cntr.c:394-412) -/
def eraseStarts (c : Cell) : Cell × Int :=
  ({ c with i0 := false, i1 := false }, (if c.i0 then 1 else 0) + (if c.i1 then 1 else 0))

/-- the checks on the current edge (cntr.c:374-414); the Boolean says that the loop is left at once -/
def checkEdge (m : Mesh K) (pass2 : Bool) (edge0 left0 : Int) (level0 : Bool) (c : Cross K) :
    Except CErr (Cross K × Bool) :=
  if c.done = 0 ∧ c.jedge = false ∧ c.n ≠ 0 then do
    let cell ← rd m.nreg c.data c.edge
    if pass2 = false ∧ cell.opn = true then return ({ c with done := 4 }, true)
    if c.edge = edge0 ∧ c.left = left0 then
      return (if level0 then { c with done := 3 } else c, false)
    else if pass2 = false then
      let r := eraseStarts cell
      return ({ c with data := upd c.data c.edge r.1, count := c.count - r.2 }, false)
    else return (c, false)
  else return (c, false)

/-- whether the zone is left to the right in a saddle zone (cntr.c:426-447), with the new `saddle` array -/
def saddleTurn (m : Mesh K) (lev : K) (c : Cross K) (p0 p1 : Int) (z1 : Bool) :
    Except CErr (Bool × Arr (Option Bool)) := do
  let zone := c.edge + (if c.left > 0 then c.left else 0)
  let s ← rd m.ijmax c.saddle zone
  let (gt0, saddle) ← match s with
    | some b => pure (b, c.saddle)
    | none => do
      let a ← rd m.ijmax m.z p0
      let b ← rd m.ijmax m.z (p0 + c.left)
      let d ← rd m.ijmax m.z p1
      let e ← rd m.ijmax m.z (p1 + c.left)
      let g := centreHigh lev a b d e
      pure (g, upd c.saddle zone (some g))
  return (if z1 then !gt0 else gt0, saddle)

/-- bend forward (cntr.c:451-458) -/
def bendForward (c : Cross K) (p1 : Int) : Cross K :=
  { c with jedge := !c.jedge, edge := p1 + (if c.left > 0 then c.left else 0), fwd := -c.left, left := c.fwd }

/-- bend backward (cntr.c:463-470) -/
def bendBackward (c : Cross K) (p0 : Int) : Cross K :=
  { c with jedge := !c.jedge, edge := p0 + (if c.left > 0 then c.left else 0), fwd := c.left, left := -c.fwd }

/-- straight across (cntr.c:475) -/
def goStraight (c : Cross K) : Cross K := { c with edge := c.edge + c.left }

/-- cross the current zone to another cut edge (cntr.c:419-476) -/
def crossZone (m : Mesh K) (lev : K) (c : Cross K) (p0 p1 : Int) : Except CErr (Cross K) := do
  let d0 ← rd m.nreg c.data p0
  let d2 ← rd m.nreg c.data (p1 + c.left)
  let d3 ← rd m.nreg c.data (p0 + c.left)
  let z0 := d0.z
  let z1 := !z0
  let z2 := d2.z
  let z3 := d3.z
  if z0 = z2 then
    if z1 = z3 then do
      let (turnRight, saddle) ← saddleTurn m lev c p0 p1 z1
      let c := { c with saddle := saddle }
      return if turnRight then bendForward c p1 else bendBackward c p0
    else return bendForward c p1
  else if z1 = z3 then return bendBackward c p0
  else return goStraight c

/-- the boundary check after a step (cntr.c:497-516) -/
def checkBoundary (m : Mesh K) (pass2 : Bool) (edge0 left0 : Int) (c : Cross K) : Except CErr (Cross K) := do
  let cell ← rd m.nreg c.data c.edge
  if (if c.jedge then cell.jB else cell.iB) = true then
    let left := -c.left
    let c := { c with done := 4, left := left, fwd := -c.fwd }
    if pass2 = false ∧ (c.edge ≠ edge0 ∨ left ≠ left0) ∧ cell.start left = true then
      return { c with data := upd c.data c.edge (cell.unstart left), count := c.count - 1 }
    else return c
  else return c

/-- the endless loop of `zone_crosser` (cntr.c:357-517) -/
def crossLoop (m : Mesh K) (lev : K) (pass2 : Bool) (edge0 left0 : Int) (level0 : Bool) :
    Nat → Cross K → Except CErr (Cross K)
  | 0, _ => .error .fuel
  | fuel + 1, c => do
    let p0 := POINT0 c.edge c.fwd
    let p1 := POINT1 c.edge c.fwd
    let c ← if pass2 then do
        let v ← markPoint m lev p0 p1
        pure { c with pts := c.pts ++ [v] }
      else pure c
    let (c, stop) ← checkEdge m pass2 edge0 left0 level0 c
    if stop then return c
    let c := { c with n := c.n + 1 }
    if c.done ≠ 0 then return c
    let c ← crossZone m lev c p0 p1
    let c ← checkBoundary m pass2 edge0 left0 c
    crossLoop m lev pass2 edge0 left0 level0 fuel c

/-- `zone_crosser` for the curve that starts at `edge0`, `left0`; `level0` says that the start is not on a
boundary (cntr.c:336). The result includes the return value `done`. -/
def zoneCrosser (m : Mesh K) (lev : K) (pass2 : Bool) (fuel : Nat) (s : Site) (edge0 left0 : Int) (level0 : Bool) :
    Except CErr (Cross K) :=
  crossLoop m lev pass2 edge0 left0 level0 fuel
    { edge := edge0, left := left0, fwd := FORWARD left0 m.imax, jedge := IS_JEDGE left0, n := 0, done := 0,
      data := s.data, saddle := s.saddle, count := s.count, pts := [] }

/-! ### `curve_tracer` (cntr.c:825-1010) -/

/-- `while (!(data[edge0] & START_ROW)) edge0 += imax;` (cntr.c:872-873) -/
def scanRows (m : Mesh K) (data : Arr Cell) : Nat → Int → Except CErr Int
  | 0, _ => .error .fuel
  | fuel + 1, e => do
    let c ← rd m.nreg data e
    if c.row then return e else scanRows m data fuel (e + m.imax)

/-- `while (!(data[edge0] & ANY_START)) edge0++;` (cntr.c:924-925) -/
def scanStart (m : Mesh K) (data : Arr Cell) : Nat → Int → Except CErr Int
  | 0, _ => .error .fuel
  | fuel + 1, e => do
    let c ← rd m.nreg data e
    if c.any then return e else scanStart m data fuel (e + 1)

/-- `two_starts` (cntr.c:852-859) -/
def twoStarts (imax left0 : Int) (c : Cell) : Bool :=
  if left0 = 1 then c.i0 || c.j1 || c.j0
  else if left0 = -1 then c.j1 || c.j0
  else if left0 = imax then c.j0
  else false

/-- what the search for the next start yields -/
inductive Start
  | finished (s : Site)
  | here (s : Site) (two : Bool)

/-- first part (cntr.c:861-896): end of the pass, or the place where the search begins -/
def beginSearch (m : Mesh K) (pass2 : Bool) (fuel : Nat) (s : Site) : Except CErr Start := do
  let c ← rd m.nreg s.data s.edge0
  let two := twoStarts m.imax s.left0 c
  if pass2 = true ∨ s.edge0 = 0 then
    if two then return .here s true
    else if c.allDone then return .finished s
    else do
      let e ← scanRows m s.data fuel s.edge0
      let e1 := if s.edge0 = e then e + 1 else e
      let r := e1 - e1 % m.imax
      let data ← if s.edge0 = 0 ∧ pass2 = false then do
          let cr ← rd m.nreg s.data r
          pure (upd s.data r { cr with row := false })
        else pure s.data
      return .here { s with edge0 := e1, data := data } false
  else if s.count ≤ 0 then do
    let c00 ← rd m.nreg s.data s.edge00
    return .finished { s with data := upd s.data s.edge00 { c00 with allDone := true },
                              edge0 := 0, edge00 := 0, left0 := 0 }
  else return .here (if two then s else { s with edge0 := s.edge0 + 1 }) two

/-- second part (cntr.c:898-940): the next start `edge0`, `left0`, and whether it is not on a boundary
(`level == 0`) -/
def findStart (m : Mesh K) (fuel : Nat) (s : Site) (two : Bool) : Except CErr (Int × Int × Bool) := do
  if two then
    let c ← rd m.nreg s.data s.edge0
    if s.left0 = 1 ∧ c.i0 = true then return (s.edge0, -1, !c.iB)
    else if (s.left0 = 1 ∨ s.left0 = -1) ∧ c.j1 = true then return (s.edge0, m.imax, false)
    else return (s.edge0, -m.imax, false)
  else
    let e ← scanStart m s.data fuel s.edge0
    let c ← rd m.nreg s.data e
    let left0 : Int := if c.i1 then 1 else if c.i0 then -1 else if c.j1 then m.imax else -m.imax
    return (e, left0, (c.i1 || c.i0) && !c.iB)

/-- last part (cntr.c:977-1007) on the first pass: `n` with its sign, and the marks -/
def finishPass1 (m : Mesh K) (s : Site) (e l : Int) (level0 : Bool) (c : Cross K) : Except CErr (Int × Site) := do
  let s := { s with data := c.data, saddle := c.saddle, count := c.count, edge0 := e, left0 := l }
  let ce ← rd m.nreg s.data e
  if c.done > 3 ∧ level0 = true then
    let ce := { ce with opn := true }
    let ce := if l > 0 then { ce with i1 := false } else { ce with i0 := false }
    return (-(c.n : Int), { s with data := upd s.data e ce })
  else
    let r := e - (e - s.edge00) % m.imax
    let cr ← rd m.nreg s.data r
    return ((c.n : Int), { s with data := upd s.data r { cr with row := true }, edge00 := e })

/-- `curve_tracer`: the return value, the points stored, and the new state -/
def curveTracer (m : Mesh K) (lev : K) (pass2 : Bool) (fuel : Nat) (s : Site) :
    Except CErr (Int × List (Vertex K) × Site) := do
  match ← beginSearch m pass2 fuel s with
  | .finished s => return (0, [], s)
  | .here s two => do
    let (e, l, level0) ← findStart m fuel s two
    let s := if pass2 then s else { s with count := s.count - 1 }
    let c ← zoneCrosser m lev pass2 fuel s e l level0
    if pass2 then
      return ((c.n : Int), c.pts, { s with data := c.data, saddle := c.saddle, count := c.count, edge0 := e, left0 := l })
    else do
      let (n, s) ← finishPass1 m s e l level0 c
      return (n, [], s)

/-! ### `cntr_trace` (cntr.c:1610-1724) -/

/-- the first pass (cntr.c:1637-1654): `nparts`, `ntotal` -/
def pass1 (m : Mesh K) (lev : K) (fuel : Nat) : Nat → Site → Nat → Int → Except CErr (Nat × Int × Site)
  | 0, _, _, _ => .error .fuel
  | rounds + 1, s, nparts, ntotal => do
    let (n, _, s) ← curveTracer m lev false fuel s
    if n = 0 then return (nparts, ntotal, s)
    else if n > 0 then pass1 m lev fuel rounds s (nparts + 1) (ntotal + n)
    else pass1 m lev fuel rounds s nparts (ntotal - n)

/-- the second pass (cntr.c:1660-1693). `nseg0` has room for `nparts` numbers, `xp0` etc. for `ntotal`; the
points are written before the check of the code (cntr.c:1667) is made, so exceeding `ntotal` is an access out
of bounds. `build_cntr_list_v2` reads all `nparts` entries of `nseg0`, so having written fewer is a read of
memory that was never written. -/
def pass2 (m : Mesh K) (lev : K) (fuel : Nat) (nparts : Nat) (ntotal : Int) :
    Nat → Site → List (List (Vertex K)) → Int → Except CErr (List (List (Vertex K)))
  | 0, _, _, _ => .error .fuel
  | rounds + 1, s, out, ntotal2 => do
    let (n, pts, s) ← curveTracer m lev true fuel s
    if ntotal2 + n > ntotal then throw .outOfBounds
    if n = 0 then
      if out.length = nparts then return out else throw .outOfBounds
    else if n > 0 then
      if out.length < nparts then pass2 m lev fuel nparts ntotal rounds s (out ++ [pts]) (ntotal2 + n)
      else throw .outOfBounds
    else throw .runtimeError

/-! ### `reorder` (cntr.c:1361-1487) -/

/-- the segments (cntr.c:1379-1404); `kind_slit_up` is 3. `none` stands for the return value -1 -/
def findSegs (npts : Nat) (kinds : Nat → Nat) (maxnsegs : Nat) :
    List Nat → Option Nat → List (Nat × Nat) → Option (List (Nat × Nat))
  | [], _, segs => some segs
  | i :: is, some a, segs =>
    if kinds i ≥ 3 ∨ i + 1 = npts then
      if segs.length + 1 = maxnsegs then none else findSegs npts kinds maxnsegs is none (segs ++ [(a, i)])
    else findSegs npts kinds maxnsegs is (some a) segs
  | i :: is, none, segs =>
    if kinds i < 3 ∧ i + 1 < npts then findSegs npts kinds maxnsegs is (some i) segs
    else findSegs npts kinds maxnsegs is none segs

/-- the subpath of the segments after one that is not yet assigned (cntr.c:1428-1440): those that continue
at its end, in order; the rest is left for later subpaths. Equality of points with NaN is false. -/
def takeSubpath [DecidableEq K] (pts : Nat → Vertex K) : Nat → List (Nat × Nat) → List (Nat × Nat) × List (Nat × Nat)
  | _, [] => ([], [])
  | last, (a, b) :: rest =>
    if pts last = pts a ∧ pts last ≠ none then
      let r := takeSubpath pts b rest
      ((a, b) :: r.1, r.2)
    else
      let r := takeSubpath pts last rest
      (r.1, (a, b) :: r.2)

/-- all subpaths (cntr.c:1419-1442) -/
def subpaths [DecidableEq K] (pts : Nat → Vertex K) : Nat → List (Nat × Nat) → List (List (Nat × Nat))
  | 0, _ => []
  | _, [] => []
  | fuel + 1, (a, b) :: rest =>
    let r := takeSubpath pts b rest
    ((a, b) :: r.1) :: subpaths pts fuel r.2

/-- the indices of a segment that are copied (cntr.c:1451-1466) -/
def segIndices (first : Bool) (s : Nat × Nat) : List Nat :=
  let istart := if first then s.1 else s.1 + 1
  (List.range (s.2 + 1 - istart)).map (istart + ·)

def subpathIndices : List (Nat × Nat) → List Nat
  | [] => []
  | s :: rest => segIndices true s ++ rest.flatMap (segIndices false)

/-- `reorder`: the points of a contour in the order in which they are returned, with their codes (1 for
`MOVETO`, 2 for `LINETO`); an error if it returns -1 (`k > npts`, or too many segments) -/
def reorder [DecidableEq K] (pts : List (Vertex K)) (kinds : Nat → Nat) : Except CErr (List (Vertex K × Nat)) :=
  match findSegs pts.length kinds (pts.length / 2 + 1) (List.range pts.length) none [] with
  | none => .error .runtimeError
  | some segs =>
    let get : Nat → Vertex K := fun i => (pts[i]?).join
    let out := (subpaths get segs.length segs).flatMap fun sp =>
      (subpathIndices sp).zipIdx.map fun (i, k) => (get i, if k = 0 then 1 else 2)
    if out.length > pts.length then .error .runtimeError else .ok out

/-! ### `Cntr(x, y, z, mask).trace(level)` -/

/-- `cntr_trace` for one level (cntr.c:1610-1724): the contours before `build_cntr_list_v2` -/
def traceRaw (m : Mesh K) (mask : Option (Nat → Bool)) (lev : K) (fuel : Nat) (junk : Arr Cell)
    (sjunk : Arr (Option Bool)) (rjunk : Nat → Bool) : Except CErr (List (List (Vertex K))) := do
  let reg := mask.map fun k => maskZones m.imax m.jmax k rjunk
  let s := dataInit m reg lev junk sjunk
  let (nparts, ntotal, s) ← pass1 m lev fuel fuel s 0 0
  pass2 m lev fuel nparts ntotal fuel s [] 0

/-- `trace` with the points of each contour and their codes; for one level all kinds are `kind_zone` = 0
(cntr.c:371) -/
def trace [DecidableEq K] (m : Mesh K) (mask : Option (Nat → Bool)) (lev : K) (fuel : Nat) (junk : Arr Cell)
    (sjunk : Arr (Option Bool)) (rjunk : Nat → Bool) : Except CErr (List (List (Vertex K × Nat))) := do
  let parts ← traceRaw m mask lev fuel junk sjunk rjunk
  parts.mapM fun p => reorder p fun _ => 0

end Trackeddy.Cntr
