import Mathlib.Order.Interval.Finset.Basic
import Mathlib.Data.Int.Interval
import Mathlib.Data.Finset.Prod
import Mathlib.Data.Fintype.Basic

/-!
Directed mesh edges in coordinates, and the step across a zone. Edge (i, j) of kind i joins the points
(i, j-1) and (i, j), of kind j the points (i-1, j) and (i, j); zone (i, j) has the corner (i, j) at its upper
right. A directed edge points into the zone that is crossed next.
-/
namespace Trackeddy.Cntr

/-- the side on which the zone lies: right and left of an i-edge, above and below a j-edge -/
inductive Dir
  | R | L | U | D
  deriving DecidableEq, Repr

instance : Fintype Dir := ⟨{.R, .L, .U, .D}, by intro d; cases d <;> decide⟩

structure DE where
  i : Int
  j : Int
  d : Dir
  deriving DecidableEq, Repr

/-- what the steps depend on -/
structure Topo where
  hi : Int → Int → Bool
  zone : Int → Int → Bool
  sad : Int → Int → Bool

namespace DE

def rev (e : DE) : DE :=
  match e with
  | ⟨i, j, .R⟩ => ⟨i, j, .L⟩
  | ⟨i, j, .L⟩ => ⟨i, j, .R⟩
  | ⟨i, j, .U⟩ => ⟨i, j, .D⟩
  | ⟨i, j, .D⟩ => ⟨i, j, .U⟩

def p0 (e : DE) : Int × Int :=
  match e with
  | ⟨i, j, .R⟩ => (i, j)
  | ⟨i, j, .L⟩ => (i, j - 1)
  | ⟨i, j, .U⟩ => (i - 1, j)
  | ⟨i, j, .D⟩ => (i, j)

def p1 (e : DE) : Int × Int := e.rev.p0

/-- the zone the edge points into -/
def zn (e : DE) : Int × Int :=
  match e with
  | ⟨i, j, .R⟩ => (i + 1, j)
  | ⟨i, j, .L⟩ => (i, j)
  | ⟨i, j, .U⟩ => (i, j + 1)
  | ⟨i, j, .D⟩ => (i, j)

/-- the corner next to `p0` -/
def q0 (e : DE) : Int × Int :=
  match e with
  | ⟨i, j, .R⟩ => (i + 1, j)
  | ⟨i, j, .L⟩ => (i - 1, j - 1)
  | ⟨i, j, .U⟩ => (i - 1, j + 1)
  | ⟨i, j, .D⟩ => (i, j - 1)

/-- the corner next to `p1` -/
def q1 (e : DE) : Int × Int :=
  match e with
  | ⟨i, j, .R⟩ => (i + 1, j - 1)
  | ⟨i, j, .L⟩ => (i - 1, j)
  | ⟨i, j, .U⟩ => (i, j + 1)
  | ⟨i, j, .D⟩ => (i - 1, j - 1)

def straight (e : DE) : DE :=
  match e with
  | ⟨i, j, .R⟩ => ⟨i + 1, j, .R⟩
  | ⟨i, j, .L⟩ => ⟨i - 1, j, .L⟩
  | ⟨i, j, .U⟩ => ⟨i, j + 1, .U⟩
  | ⟨i, j, .D⟩ => ⟨i, j - 1, .D⟩

/-- to the edge between `p1` and `q1` -/
def turnF (e : DE) : DE :=
  match e with
  | ⟨i, j, .R⟩ => ⟨i + 1, j - 1, .D⟩
  | ⟨i, j, .L⟩ => ⟨i, j, .U⟩
  | ⟨i, j, .U⟩ => ⟨i, j + 1, .R⟩
  | ⟨i, j, .D⟩ => ⟨i - 1, j, .L⟩

/-- to the edge between `p0` and `q0` -/
def turnB (e : DE) : DE :=
  match e with
  | ⟨i, j, .R⟩ => ⟨i + 1, j, .U⟩
  | ⟨i, j, .L⟩ => ⟨i, j - 1, .D⟩
  | ⟨i, j, .U⟩ => ⟨i - 1, j + 1, .L⟩
  | ⟨i, j, .D⟩ => ⟨i, j, .R⟩

def isJ (e : DE) : Bool :=
  match e.d with
  | .R => false
  | .L => false
  | .U => true
  | .D => true

theorem rev_rev (e : DE) : e.rev.rev = e := by rcases e with ⟨i, j, _ | _ | _ | _⟩ <;> rfl

theorem rev_ne (e : DE) : e.rev ≠ e := by rcases e with ⟨i, j, _ | _ | _ | _⟩ <;> simp [rev]

theorem rev_inj {a b : DE} (h : a.rev = b.rev) : a = b := by rw [← rev_rev a, h, rev_rev]

theorem p0_rev (e : DE) : e.rev.p0 = e.p1 := rfl

theorem p1_rev (e : DE) : e.rev.p1 = e.p0 := by unfold p1; rw [rev_rev]

end DE

namespace Topo
variable (t : Topo)

def h (p : Int × Int) : Bool := t.hi p.1 p.2
def ex (e : DE) : Bool := t.zone e.zn.1 e.zn.2
def sd (e : DE) : Bool := t.sad e.zn.1 e.zn.2

/-- the level lies between the values at the ends -/
def cut (e : DE) : Prop := t.h e.p0 ≠ t.h e.p1

/-- the edge reached by crossing the zone -/
def next (e : DE) : DE :=
  if t.h e.p0 = t.h e.q1 then
    if (!t.h e.p0) = t.h e.q0 then
      if (if !t.h e.p0 then !t.sd e else t.sd e) then e.turnF else e.turnB
    else e.turnF
  else if (!t.h e.p0) = t.h e.q0 then e.turnB
  else e.straight

theorem next_cases (e : DE) : t.next e = e.turnF ∨ t.next e = e.turnB ∨ t.next e = e.straight := by
  unfold next; split_ifs <;> simp

/-- the new edge points out of the zone -/
theorem zn_rev_next (e : DE) : (t.next e).rev.zn = e.zn := by
  rcases t.next_cases e with h | h | h <;> rw [h] <;> rcases e with ⟨i, j, _ | _ | _ | _⟩ <;>
    simp [DE.turnF, DE.turnB, DE.straight, DE.rev, DE.zn]

theorem ex_rev_next (e : DE) : t.ex (t.next e).rev = t.ex e := by unfold ex; rw [zn_rev_next]

theorem sd_rev_next (e : DE) : t.sd (t.next e).rev = t.sd e := by unfold sd; rw [zn_rev_next]

theorem turnF_p0 (e : DE) : e.turnF.p0 = e.q1 := by
  rcases e with ⟨i, j, _ | _ | _ | _⟩ <;> simp [DE.turnF, DE.p0, DE.q1]
theorem turnF_p1 (e : DE) : e.turnF.p1 = e.p1 := by
  rcases e with ⟨i, j, _ | _ | _ | _⟩ <;> simp [DE.turnF, DE.p1, DE.p0, DE.rev]
theorem turnB_p0 (e : DE) : e.turnB.p0 = e.p0 := by
  rcases e with ⟨i, j, _ | _ | _ | _⟩ <;> simp [DE.turnB, DE.p0]
theorem turnB_p1 (e : DE) : e.turnB.p1 = e.q0 := by
  rcases e with ⟨i, j, _ | _ | _ | _⟩ <;> simp [DE.turnB, DE.p1, DE.p0, DE.rev, DE.q0]
theorem straight_p0 (e : DE) : e.straight.p0 = e.q0 := by
  rcases e with ⟨i, j, _ | _ | _ | _⟩ <;> simp [DE.straight, DE.p0, DE.q0]
theorem straight_p1 (e : DE) : e.straight.p1 = e.q1 := by
  rcases e with ⟨i, j, _ | _ | _ | _⟩ <;> simp [DE.straight, DE.p1, DE.p0, DE.rev, DE.q1]

theorem turnF_rev_q0 (e : DE) : e.turnF.rev.q0 = e.p0 := by
  rcases e with ⟨i, j, _ | _ | _ | _⟩ <;> simp [DE.turnF, DE.rev, DE.q0, DE.p0]
theorem turnF_rev_q1 (e : DE) : e.turnF.rev.q1 = e.q0 := by
  rcases e with ⟨i, j, _ | _ | _ | _⟩ <;> simp [DE.turnF, DE.rev, DE.q0, DE.q1]
theorem turnB_rev_q0 (e : DE) : e.turnB.rev.q0 = e.q1 := by
  rcases e with ⟨i, j, _ | _ | _ | _⟩ <;> simp [DE.turnB, DE.rev, DE.q0, DE.q1]
theorem turnB_rev_q1 (e : DE) : e.turnB.rev.q1 = e.p1 := by
  rcases e with ⟨i, j, _ | _ | _ | _⟩ <;> simp [DE.turnB, DE.rev, DE.q1, DE.p1, DE.p0]
theorem straight_rev_q0 (e : DE) : e.straight.rev.q0 = e.p1 := by
  rcases e with ⟨i, j, _ | _ | _ | _⟩ <;> simp [DE.straight, DE.rev, DE.q0, DE.p1, DE.p0]
theorem straight_rev_q1 (e : DE) : e.straight.rev.q1 = e.p0 := by
  rcases e with ⟨i, j, _ | _ | _ | _⟩ <;> simp [DE.straight, DE.rev, DE.q1, DE.p0]

theorem turnF_rev_turnB (e : DE) : e.turnF.rev.turnB = e.rev := by
  rcases e with ⟨i, j, _ | _ | _ | _⟩ <;> simp [DE.turnF, DE.turnB, DE.rev]
theorem turnB_rev_turnF (e : DE) : e.turnB.rev.turnF = e.rev := by
  rcases e with ⟨i, j, _ | _ | _ | _⟩ <;> simp [DE.turnF, DE.turnB, DE.rev]
theorem straight_rev_straight (e : DE) : e.straight.rev.straight = e.rev := by
  rcases e with ⟨i, j, _ | _ | _ | _⟩ <;> simp [DE.straight, DE.rev]

/-- crossing a zone keeps the values on both sides -/
theorem h_next (e : DE) (hc : t.cut e) : t.h (t.next e).p0 = t.h e.p0 ∧ t.h (t.next e).p1 = t.h e.p1 := by
  unfold cut at hc
  have h1 : t.h e.p1 = !t.h e.p0 := by cases h : t.h e.p1 <;> cases h' : t.h e.p0 <;> simp_all
  rw [h1]
  unfold next
  cases h0 : t.h e.p0 <;> cases h2 : t.h e.q1 <;> cases h3 : t.h e.q0 <;> cases h4 : t.sd e <;>
    simp [turnF_p0, turnF_p1, turnB_p0, turnB_p1, straight_p0, straight_p1, h0, h1, h2, h3]

theorem cut_next {e : DE} (hc : t.cut e) : t.cut (t.next e) := by
  have := t.h_next e hc
  unfold cut at *
  rw [this.1, this.2]; exact hc

theorem cut_rev {e : DE} : t.cut e.rev ↔ t.cut e := by
  unfold cut; rw [DE.p0_rev, DE.p1_rev]; exact ne_comm

/-- crossing back leads back -/
theorem next_rev_next (e : DE) (hc : t.cut e) : t.next (t.next e).rev = e.rev := by
  unfold cut at hc
  have hp := t.h_next e hc
  have hs := t.sd_rev_next e
  have h1 : t.h e.p1 = !t.h e.p0 := by cases h : t.h e.p1 <;> cases h' : t.h e.p0 <;> simp_all
  unfold next at hs ⊢
  cases h0 : t.h e.p0 <;> cases h2 : t.h e.q1 <;> cases h3 : t.h e.q0 <;> cases h4 : t.sd e <;>
    simp [DE.p0_rev, turnF_p1, turnB_p1, straight_p1, turnF_rev_q0, turnF_rev_q1, turnB_rev_q0, turnB_rev_q1,
      straight_rev_q0, straight_rev_q1, turnF_rev_turnB, turnB_rev_turnF, straight_rev_straight, h0, h1, h2, h3, h4] at hs ⊢ <;>
    simp [hs]

end Topo
end Trackeddy.Cntr
