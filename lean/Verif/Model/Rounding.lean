import Verif.Model.Similarity
import Verif.Model.Contours
import Mathlib.Data.Int.Log

/-!
The floating-point arithmetic of the contour tracer (trackeddy/src/cntr.c:364-371, 426-447) and of the similarity
score (trackeddy/geometry.py:281-328). Every `double` operation yields the exact result sent through a function
`rnd` (IEEE 754: the exact result rounded once). The order of the operations is that of the source, without fused
multiply-add. Overflow and underflow are not modelled: `rnd` has a relative error at every size.
-/
namespace Trackeddy

open Frechet Cntr

section field
variable {K : Type} [Field K] [LinearOrder K]

/-- the interpolated point (cntr.c:368-370, 594-596) with every operation rounded -/
def interpolateR (rnd : K → K) (lev : K) (z0 z1 : Option K) (x0 x1 y0 y1 : K) : Vertex K :=
  match z0, z1 with
  | some a, some b =>
    let zcp := rnd (rnd (lev - a) / rnd (b - a))
    some (rnd (rnd (zcp * rnd (x1 - x0)) + x0), rnd (rnd (zcp * rnd (y1 - y0)) + y0))
  | _, _ => none

/-- `zcentre > site->zlevel[0]` (cntr.c:437-438) with every operation rounded -/
def centreHighR (rnd : K → K) (lev : K) (a b c d : Option K) : Bool :=
  match a, b, c, d with
  | some a, some b, some c, some d => decide (lev < rnd (rnd (rnd (rnd (a + b) + c) + d) / 4))
  | _, _, _, _ => false

/-! ### the tracer with rounded arithmetic

The functions of Model/Cntr.lean and Model/Contours.lean in which the two formulas above occur, or which call one in
which they occur. -/

/-- the point marked on the second pass (cntr.c:365-371) -/
def markPointR (rnd : K → K) (m : Mesh K) (lev : K) (p0 p1 : Int) : Except CErr (Vertex K) := do
  let z0 ← rd m.ijmax m.z p0
  let z1 ← rd m.ijmax m.z p1
  let x0 ← rd m.ijmax m.x p0
  let x1 ← rd m.ijmax m.x p1
  let y0 ← rd m.ijmax m.y p0
  let y1 ← rd m.ijmax m.y p1
  return interpolateR rnd lev z0 z1 x0 x1 y0 y1

/-- the turn in a saddle zone (cntr.c:426-447) -/
def saddleTurnR (rnd : K → K) (m : Mesh K) (lev : K) (c : Cross K) (p0 p1 : Int) (z1 : Bool) :
    Except CErr (Bool × Arr (Option Bool)) := do
  let zone := c.edge + (if c.left > 0 then c.left else 0)
  let s ← rd m.ijmax c.saddle zone
  let (gt0, saddle) ← match s with
    | some b => pure (b, c.saddle)
    | none => do
      let a ← rd m.ijmax m.z p0
      let b ← rd m.ijmax m.z (p0 + c.left)
      let d ← rd m.ijmax m.z p1
      let e ← rd m.ijmax m.z (p1 + c.left)
      let g := centreHighR rnd lev a b d e
      pure (g, upd c.saddle zone (some g))
  return (if z1 then !gt0 else gt0, saddle)

/-- cross the current zone to another cut edge (cntr.c:419-476) -/
def crossZoneR (rnd : K → K) (m : Mesh K) (lev : K) (c : Cross K) (p0 p1 : Int) : Except CErr (Cross K) := do
  let d0 ← rd m.nreg c.data p0
  let d2 ← rd m.nreg c.data (p1 + c.left)
  let d3 ← rd m.nreg c.data (p0 + c.left)
  let z0 := d0.z
  let z1 := !z0
  let z2 := d2.z
  let z3 := d3.z
  if z0 = z2 then
    if z1 = z3 then do
      let (turnRight, saddle) ← saddleTurnR rnd m lev c p0 p1 z1
      let c := { c with saddle := saddle }
      return if turnRight then bendForward c p1 else bendBackward c p0
    else return bendForward c p1
  else if z1 = z3 then return bendBackward c p0
  else return goStraight c

/-- the loop of `zone_crosser` (cntr.c:357-517) -/
def crossLoopR (rnd : K → K) (m : Mesh K) (lev : K) (pass2 : Bool) (edge0 left0 : Int) (level0 : Bool) :
    Nat → Cross K → Except CErr (Cross K)
  | 0, _ => .error .fuel
  | fuel + 1, c => do
    let p0 := POINT0 c.edge c.fwd
    let p1 := POINT1 c.edge c.fwd
    let c ← if pass2 then do
        let v ← markPointR rnd m lev p0 p1
        pure { c with pts := c.pts ++ [v] }
      else pure c
    let (c, stop) ← checkEdge m pass2 edge0 left0 level0 c
    if stop then return c
    let c := { c with n := c.n + 1 }
    if c.done ≠ 0 then return c
    let c ← crossZoneR rnd m lev c p0 p1
    let c ← checkBoundary m pass2 edge0 left0 c
    crossLoopR rnd m lev pass2 edge0 left0 level0 fuel c

/-- `zone_crosser` (cntr.c:326-529) -/
def zoneCrosserR (rnd : K → K) (m : Mesh K) (lev : K) (pass2 : Bool) (fuel : Nat) (s : Site) (edge0 left0 : Int)
    (level0 : Bool) : Except CErr (Cross K) :=
  crossLoopR rnd m lev pass2 edge0 left0 level0 fuel
    { edge := edge0, left := left0, fwd := FORWARD left0 m.imax, jedge := IS_JEDGE left0, n := 0, done := 0,
      data := s.data, saddle := s.saddle, count := s.count, pts := [] }

/-- `curve_tracer` (cntr.c:825-1010) -/
def curveTracerR (rnd : K → K) (m : Mesh K) (lev : K) (pass2 : Bool) (fuel : Nat) (s : Site) :
    Except CErr (Int × List (Vertex K) × Site) := do
  match ← beginSearch m pass2 fuel s with
  | .finished s => return (0, [], s)
  | .here s two => do
    let (e, l, level0) ← findStart m fuel s two
    let s := if pass2 then s else { s with count := s.count - 1 }
    let c ← zoneCrosserR rnd m lev pass2 fuel s e l level0
    if pass2 then
      return ((c.n : Int), c.pts, { s with data := c.data, saddle := c.saddle, count := c.count, edge0 := e, left0 := l })
    else do
      let (n, s) ← finishPass1 m s e l level0 c
      return (n, [], s)

/-- the first pass (cntr.c:1637-1654) -/
def pass1R (rnd : K → K) (m : Mesh K) (lev : K) (fuel : Nat) : Nat → Site → Nat → Int → Except CErr (Nat × Int × Site)
  | 0, _, _, _ => .error .fuel
  | rounds + 1, s, nparts, ntotal => do
    let (n, _, s) ← curveTracerR rnd m lev false fuel s
    if n = 0 then return (nparts, ntotal, s)
    else if n > 0 then pass1R rnd m lev fuel rounds s (nparts + 1) (ntotal + n)
    else pass1R rnd m lev fuel rounds s nparts (ntotal - n)

/-- the second pass (cntr.c:1660-1693) -/
def pass2R (rnd : K → K) (m : Mesh K) (lev : K) (fuel : Nat) (nparts : Nat) (ntotal : Int) :
    Nat → Site → List (List (Vertex K)) → Int → Except CErr (List (List (Vertex K)))
  | 0, _, _, _ => .error .fuel
  | rounds + 1, s, out, ntotal2 => do
    let (n, pts, s) ← curveTracerR rnd m lev true fuel s
    if ntotal2 + n > ntotal then throw .outOfBounds
    if n = 0 then
      if out.length = nparts then return out else throw .outOfBounds
    else if n > 0 then
      if out.length < nparts then pass2R rnd m lev fuel nparts ntotal rounds s (out ++ [pts]) (ntotal2 + n)
      else throw .outOfBounds
    else throw .runtimeError

/-- `cntr_trace` for one level (cntr.c:1610-1724) -/
def traceRawR (rnd : K → K) (m : Mesh K) (mask : Option (Nat → Bool)) (lev : K) (fuel : Nat) (junk : Arr Cell)
    (sjunk : Arr (Option Bool)) (rjunk : Nat → Bool) : Except CErr (List (List (Vertex K))) := do
  let reg := mask.map fun k => maskZones m.imax m.jmax k rjunk
  let s := dataInit m reg lev junk sjunk
  let (nparts, ntotal, s) ← pass1R rnd m lev fuel fuel s 0 0
  pass2R rnd m lev fuel nparts ntotal fuel s [] 0

/-- `trace` (cntr.c:1877-1892) -/
def traceR [DecidableEq K] (rnd : K → K) (m : Mesh K) (mask : Option (Nat → Bool)) (lev : K) (fuel : Nat)
    (junk : Arr Cell) (sjunk : Arr (Option Bool)) (rjunk : Nat → Bool) :
    Except CErr (List (List (Vertex K × Nat))) := do
  let parts ← traceRawR rnd m mask lev fuel junk sjunk rjunk
  parts.mapM fun p => reorder p fun _ => 0

/-- `Cntr(X, Y, Z, mask).trace(level)` (cntr.c:1790-1892) -/
def cntrTraceR [DecidableEq K] (rnd : K → K) (X Y : NdArr K) (Z : NdArr (Option K)) (mask : Option (NdArr Bool))
    (level : K) (fuel : Nat) (mem : Cntr.Memory) : Except CntrErr (List (Item K)) := do
  let (m, k) ← cntrInit X Y Z mask
  match traceR rnd m k level fuel mem.data mem.saddle mem.reg with
  | .ok parts => .ok (buildList parts)
  | .error e => .error (.crash e)

/-- `extract_contours` (geometry.py:9-42) -/
def extractContoursR [DecidableEq K] (rnd : K → K) (X Y : NdArr K) (data : NdArr (Option K)) (level : K) (fuel : Nat)
    (mem : Cntr.Memory) : Except CntrErr (List (Item K) × List (Item K)) := do
  let res ← cntrTraceR rnd X Y data none level fuel mem
  let nseg := res.length / 2
  return (res.take nseg, res.drop nseg)

/-! ### doubles -/

/-- nearest integer, ties to even -/
def nearestEven [FloorRing K] (x : K) : ℤ :=
  if Int.fract x < 1 / 2 then ⌊x⌋
  else if 1 / 2 < Int.fract x then ⌊x⌋ + 1
  else if ⌊x⌋ % 2 = 0 then ⌊x⌋ else ⌊x⌋ + 1

/-- rounding to a `double`: 53 significant bits, ties to even; the range of the exponent is unlimited -/
def double [FloorRing K] (x : K) : K :=
  (nearestEven (x / (2 : K) ^ (Int.log 2 |x| - 52)) : K) * (2 : K) ^ (Int.log 2 |x| - 52)

end field

/-- `np.linalg.norm(p[i] - q[j])` (geometry.py:311-322): the differences, the sum of their squares, the root -/
noncomputable def normR (rnd : ℝ → ℝ) (p q : ℝ × ℝ) : ℝ :=
  let dx := rnd (p.1 - q.1)
  let dy := rnd (p.2 - q.2)
  rnd (Real.sqrt (rnd (rnd (dx * dx) + rnd (dy * dy))))

/-- `math.dist` (geometry.py:293): the differences are rounded; `hyp` is the length of a vector as the C library of
Python computes it -/
noncomputable def mathDistR (rnd : ℝ → ℝ) (hyp : ℝ → ℝ → ℝ) (p q : ℝ × ℝ) : ℝ :=
  hyp (rnd (p.1 - q.1)) (rnd (p.2 - q.2))

/-- the loop of `arc_length` (geometry.py:291-293) -/
noncomputable def arcLoopR (rnd : ℝ → ℝ) (hyp : ℝ → ℝ → ℝ) : ℝ → List (ℝ × ℝ) → ℝ
  | acc, p :: q :: l => arcLoopR rnd hyp (rnd (acc + mathDistR rnd hyp p q)) (q :: l)
  | acc, _ => acc

/-- `arc_length` (geometry.py:281-295) -/
noncomputable def arcLengthR (rnd : ℝ → ℝ) (hyp : ℝ → ℝ → ℝ) (c : List (ℝ × ℝ)) : ℝ := arcLoopR rnd hyp 0 c

/-- `compute_similarity` (geometry.py:298-304) with every operation rounded; the decimal rounding of the result is
exact as in `similarity`. Division by zero as in `similarity`. -/
noncomputable def similarityR (rnd : ℝ → ℝ) (hyp : ℝ → ℝ → ℝ) (limit : Nat) (A B : List (ℝ × ℝ)) :
    Except FrErr (Option ℝ) := do
  let geo := rnd (Real.sqrt (rnd (arcLengthR rnd hyp A * arcLengthR rnd hyp B)))
  let d ← frdist limit (normR rnd) A B
  let avg := rnd (geo / rnd (Real.sqrt 2))
  if avg = 0 then
    return (if d = 0 then none else some (round4 0))
  else
    return some (round4 (max (rnd (1 - rnd (d / avg))) 0))

end Trackeddy
