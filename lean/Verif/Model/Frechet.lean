import Mathlib.Algebra.Order.Field.Basic

/-!
Model of `frdist`, `_c` (trackeddy/geometry.py:307-414).

The numbers live in an arbitrary linearly ordered field `K`; the point type `P` and the
distance `dist` (`np.linalg.norm(p[i] - q[j])`) are parameters.  Floating point rounding and
NaN are not modelled.
-/
namespace Trackeddy.Frechet

/-- Exceptions `frdist` can raise. -/
inductive FrErr
  | recursionError
  | indexError
  deriving DecidableEq, Repr

/-- The array `ca` of geometry.py:410 (`np.ones((len_p, len_q)) * -1`), as a total function;
only in-range cells are ever read or written. -/
abbrev Memo (K : Type*) := Nat → Nat → K

/-- `ca[i, j] = v` (geometry.py:311-326). -/
def Memo.set {K : Type*} (ca : Memo K) (i j : Nat) (v : K) : Memo K :=
  fun a b => if a = i ∧ b = j then v else ca a b

section
variable {K : Type*} [Field K] [LinearOrder K]

/-- `_c(ca, i, j, p, q)` (geometry.py:307-328), branch by branch, the array passed as state.
`d i j` is `np.linalg.norm(p[i] - q[j])`.  The first argument is the number of Python stack frames
still available: a call with none left raises `RecursionError` (`none`).  The last `else` branch of
the source (`float("inf")`) needs a negative index and is never reached from `frdist`. -/
def cRec (d : Nat → Nat → K) : Nat → Nat → Nat → Memo K → Option (K × Memo K)
  | 0, _, _, _ => none
  | fuel + 1, i, j, ca =>
    if -1 < ca i j then some (ca i j, ca)
    else
      match i, j with
      | 0, 0 =>
        let v := d 0 0
        some (v, ca.set 0 0 v)
      | i + 1, 0 => do
        let (r, ca) ← cRec d fuel i 0 ca
        let v := max r (d (i + 1) 0)
        some (v, ca.set (i + 1) 0 v)
      | 0, j + 1 => do
        let (r, ca) ← cRec d fuel 0 j ca
        let v := max r (d 0 (j + 1))
        some (v, ca.set 0 (j + 1) v)
      | i + 1, j + 1 => do
        let (r1, ca) ← cRec d fuel i (j + 1) ca
        let (r2, ca) ← cRec d fuel i j ca
        let (r3, ca) ← cRec d fuel (i + 1) j ca
        let v := max (min (min r1 r2) r3) (d (i + 1) (j + 1))
        some (v, ca.set (i + 1) (j + 1) v)

end

/-- `l[0::c+1]`: Python slice keeping the elements at indices `0, c+1, 2(c+1), ...`
(geometry.py:404-405). -/
def slice0 {P : Type*} (c : Nat) : List P → List P
  | [] => []
  | x :: xs => x :: slice0 c (xs.drop c)
  termination_by l => l.length
  decreasing_by simp; omega

theorem slice0_length_le {P : Type*} (c : Nat) (l : List P) : (slice0 c l).length ≤ l.length := by
  fun_induction slice0 c l with
  | case1 => simp
  | case2 x xs ih => simp at ih ⊢; omega

theorem slice0_length_lt {P : Type*} (c : Nat) (l : List P) (h : 2 ≤ l.length) :
    (slice0 (c + 1) l).length < l.length := by
  match l, h with
  | x :: y :: xs, _ =>
    rw [slice0]
    have := slice0_length_le (c + 1) ((y :: xs).drop (c + 1))
    simp at this ⊢
    omega

/-- The subsampling loop (geometry.py:402-408).  The argument `k` stands for `c = k + 2`
(`c` starts at 2 and is incremented after each round). -/
def subsample {P : Type*} (k : Nat) (p q : List P) : List P × List P :=
  if 300 < p.length ∧ 300 < q.length then
    subsample (k + 1) (slice0 (k + 1) p) (slice0 (k + 1) q)
  else (p, q)
  termination_by p.length
  decreasing_by exact slice0_length_lt k p (by omega)

section
variable {K : Type*} [Field K] [LinearOrder K] {P : Type*}

/-- `np.linalg.norm(p[i] - q[j])`.  Out-of-range indices are an `IndexError` in Python; `frdist`
only evaluates in-range ones, the value `0` for the others is irrelevant. -/
def distAt (dist : P → P → K) (p q : List P) (i j : Nat) : K :=
  match p[i]?, q[j]? with
  | some a, some b => dist a b
  | _, _ => 0

/-- `frdist(P, Q)` (geometry.py:331-414).  `limit` is the number of stack frames available for the
recursion in `_c`.  For an empty curve `ca[-1, -1]` raises `IndexError`. -/
def frdist (limit : Nat) (dist : P → P → K) (A B : List P) : Except FrErr K :=
  let p := if A.length ≥ B.length then A else B
  let q := if A.length ≥ B.length then B else A
  let s := subsample 0 p q
  let p := s.1
  let q := s.2
  if p.length = 0 ∨ q.length = 0 then .error .indexError
  else
    match cRec (distAt dist p q) limit (p.length - 1) (q.length - 1) (fun _ _ => -1) with
    | none => .error .recursionError
    | some (v, _) => .ok v

end

end Trackeddy.Frechet
