import Verif.Model.Cntr
import Verif.Proofs.Cntr.Geometry
import Mathlib.Tactic.Ring
import Mathlib.Tactic.Linarith
import Mathlib.Data.Int.Order.Basic

/-!
`zone_crosser` follows the steps `Topo.next`.
-/
namespace Trackeddy.Cntr

/-- position of a point in the arrays -/
def idx (imax : Nat) (p : Int × Int) : Int := p.1 + p.2 * imax

namespace DE
variable (imax : Nat)

def edgeOf (e : DE) : Int := idx imax (e.i, e.j)

def leftOf (e : DE) : Int :=
  match e.d with
  | .R => 1
  | .L => -1
  | .U => imax
  | .D => -imax

def fwdOf (e : DE) : Int :=
  match e.d with
  | .R => -imax
  | .L => imax
  | .U => 1
  | .D => -1

variable {imax}

theorem forward_left (h : 2 ≤ imax) (e : DE) : FORWARD (e.leftOf imax) imax = e.fwdOf imax := by
  have h3 : -(imax : Int) < 0 := by omega
  have h6 : -(imax : Int) < -1 := by omega
  have h7 : 0 < imax := by omega
  have h8 : imax ≠ 0 := by omega
  have h9 : 1 < imax := by omega
  rcases e with ⟨i, j, _ | _ | _ | _⟩ <;> simp [leftOf, fwdOf, FORWARD, h3, h6, h7, h8, h9] <;> ring

theorem isJ_left (h : 2 ≤ imax) (e : DE) : IS_JEDGE (e.leftOf imax) = e.isJ := by
  have h3 : -(imax : Int) < 0 := by omega
  have h6 : -(imax : Int) < -1 := by omega
  have h7 : 0 < imax := by omega
  have h8 : imax ≠ 0 := by omega
  have h9 : 1 < imax := by omega
  rcases e with ⟨i, j, _ | _ | _ | _⟩ <;> simp [leftOf, isJ, IS_JEDGE, h3, h6, h7, h8, h9] <;> ring

theorem point0 (h : 2 ≤ imax) (e : DE) : POINT0 (e.edgeOf imax) (e.fwdOf imax) = idx imax e.p0 := by
  have h3 : -(imax : Int) < 0 := by omega
  have h6 : -(imax : Int) < -1 := by omega
  have h7 : 0 < imax := by omega
  have h8 : imax ≠ 0 := by omega
  have h9 : 1 < imax := by omega
  rcases e with ⟨i, j, _ | _ | _ | _⟩ <;> simp [edgeOf, fwdOf, POINT0, p0, idx, h3, h6, h7, h8, h9] <;> ring

theorem point1 (h : 2 ≤ imax) (e : DE) : POINT1 (e.edgeOf imax) (e.fwdOf imax) = idx imax e.p1 := by
  have h3 : -(imax : Int) < 0 := by omega
  have h6 : -(imax : Int) < -1 := by omega
  have h7 : 0 < imax := by omega
  have h8 : imax ≠ 0 := by omega
  have h9 : 1 < imax := by omega
  rcases e with ⟨i, j, _ | _ | _ | _⟩ <;> simp [edgeOf, fwdOf, POINT1, p1, rev, p0, idx, h3, h6, h7, h8, h9] <;>
    first | ring1 | exact if_neg (by omega)

theorem corner0 (e : DE) : idx imax e.p0 + e.leftOf imax = idx imax e.q0 := by
  rcases e with ⟨i, j, _ | _ | _ | _⟩ <;> simp only [leftOf, p0, q0, idx] <;> ring

theorem corner1 (e : DE) : idx imax e.p1 + e.leftOf imax = idx imax e.q1 := by
  rcases e with ⟨i, j, _ | _ | _ | _⟩ <;> simp only [leftOf, p1, rev, p0, q1, idx] <;> ring

theorem zone_idx (h : 2 ≤ imax) (e : DE) :
    e.edgeOf imax + (if e.leftOf imax > 0 then e.leftOf imax else 0) = idx imax e.zn := by
  have h3 : -(imax : Int) < 0 := by omega
  have h6 : -(imax : Int) < -1 := by omega
  have h7 : 0 < imax := by omega
  have h8 : imax ≠ 0 := by omega
  have h9 : 1 < imax := by omega
  rcases e with ⟨i, j, _ | _ | _ | _⟩ <;> simp [leftOf, edgeOf, zn, idx, h3, h6, h7, h8, h9] <;> ring

theorem turnF_edge (h : 2 ≤ imax) (e : DE) :
    idx imax e.p1 + (if e.leftOf imax > 0 then e.leftOf imax else 0) = e.turnF.edgeOf imax := by
  have h3 : -(imax : Int) < 0 := by omega
  have h6 : -(imax : Int) < -1 := by omega
  have h7 : 0 < imax := by omega
  have h8 : imax ≠ 0 := by omega
  have h9 : 1 < imax := by omega
  rcases e with ⟨i, j, _ | _ | _ | _⟩ <;> simp [leftOf, edgeOf, turnF, p1, rev, p0, idx, h3, h6, h7, h8, h9] <;> ring

theorem turnB_edge (h : 2 ≤ imax) (e : DE) :
    idx imax e.p0 + (if e.leftOf imax > 0 then e.leftOf imax else 0) = e.turnB.edgeOf imax := by
  have h3 : -(imax : Int) < 0 := by omega
  have h6 : -(imax : Int) < -1 := by omega
  have h7 : 0 < imax := by omega
  have h8 : imax ≠ 0 := by omega
  have h9 : 1 < imax := by omega
  rcases e with ⟨i, j, _ | _ | _ | _⟩ <;> simp [leftOf, edgeOf, turnB, p0, idx, h3, h6, h7, h8, h9] <;> ring

theorem straight_edge (e : DE) : e.edgeOf imax + e.leftOf imax = e.straight.edgeOf imax := by
  rcases e with ⟨i, j, _ | _ | _ | _⟩ <;> simp only [leftOf, edgeOf, straight, idx] <;> ring

theorem turnF_left (e : DE) : e.turnF.leftOf imax = e.fwdOf imax := by
  rcases e with ⟨i, j, _ | _ | _ | _⟩ <;> rfl
theorem turnF_fwd (e : DE) : e.turnF.fwdOf imax = -e.leftOf imax := by
  rcases e with ⟨i, j, _ | _ | _ | _⟩ <;> simp [fwdOf, leftOf, turnF]
theorem turnF_isJ (e : DE) : e.turnF.isJ = !e.isJ := by
  rcases e with ⟨i, j, _ | _ | _ | _⟩ <;> rfl
theorem turnB_left (e : DE) : e.turnB.leftOf imax = -e.fwdOf imax := by
  rcases e with ⟨i, j, _ | _ | _ | _⟩ <;> simp [fwdOf, leftOf, turnB]
theorem turnB_fwd (e : DE) : e.turnB.fwdOf imax = e.leftOf imax := by
  rcases e with ⟨i, j, _ | _ | _ | _⟩ <;> rfl
theorem turnB_isJ (e : DE) : e.turnB.isJ = !e.isJ := by
  rcases e with ⟨i, j, _ | _ | _ | _⟩ <;> rfl
theorem straight_left (e : DE) : e.straight.leftOf imax = e.leftOf imax := by
  rcases e with ⟨i, j, _ | _ | _ | _⟩ <;> rfl
theorem straight_fwd (e : DE) : e.straight.fwdOf imax = e.fwdOf imax := by
  rcases e with ⟨i, j, _ | _ | _ | _⟩ <;> rfl
theorem straight_isJ (e : DE) : e.straight.isJ = e.isJ := by
  rcases e with ⟨i, j, _ | _ | _ | _⟩ <;> rfl
theorem rev_left (e : DE) : e.rev.leftOf imax = -e.leftOf imax := by
  rcases e with ⟨i, j, _ | _ | _ | _⟩ <;> simp [leftOf, rev]
theorem rev_fwd (e : DE) : e.rev.fwdOf imax = -e.fwdOf imax := by
  rcases e with ⟨i, j, _ | _ | _ | _⟩ <;> simp [fwdOf, rev]
theorem rev_edge (e : DE) : e.rev.edgeOf imax = e.edgeOf imax := by
  rcases e with ⟨i, j, _ | _ | _ | _⟩ <;> rfl
theorem rev_isJ (e : DE) : e.rev.isJ = e.isJ := by
  rcases e with ⟨i, j, _ | _ | _ | _⟩ <;> rfl

end DE

/-! ### ranges -/

def InBox (imax jmax : Nat) (p : Int × Int) : Prop := 0 ≤ p.1 ∧ p.1 < imax ∧ 0 ≤ p.2 ∧ p.2 < jmax

theorem idx_range {imax jmax : Nat} {p : Int × Int} (h : InBox imax jmax p) :
    0 ≤ idx imax p ∧ idx imax p < (imax : Int) * jmax := by
  obtain ⟨h1, h2, h3, h4⟩ := h
  unfold idx
  constructor
  · have := mul_nonneg h3 (Int.natCast_nonneg imax); omega
  · nlinarith

theorem idx_inj {imax : Nat} {p q : Int × Int} (hp : 0 ≤ p.1 ∧ p.1 < imax) (hq : 0 ≤ q.1 ∧ q.1 < imax)
    (h : idx imax p = idx imax q) : p = q := by
  unfold idx at h
  have h2 : p.2 = q.2 := by
    by_contra hne
    rcases lt_or_gt_of_ne hne with hlt | hlt
    · nlinarith
    · nlinarith
  rw [h2] at h
  exact Prod.ext (by linarith) h2

variable {K : Type} [Field K] [LinearOrder K]

/-- the topology of a mesh: values, zones and saddle centres -/
structure TopoOK (m : Mesh K) (lev : K) (t : Topo) : Prop where
  hi : ∀ p : Int × Int, t.h p = m.high lev (idx m.imax p)
  zone : ∀ i j, t.zone i j = true → 1 ≤ i ∧ i < m.imax ∧ 1 ≤ j ∧ j < m.jmax
  sad : ∀ i j, t.sad i j = centreHigh lev (m.z (idx m.imax (i, j))) (m.z (idx m.imax (i - 1, j)))
    (m.z (idx m.imax (i, j - 1))) (m.z (idx m.imax (i - 1, j - 1)))

/-- the data array describes the topology -/
structure Link (m : Mesh K) (t : Topo) (data : Arr Cell) : Prop where
  z : ∀ p, InBox m.imax m.jmax p → (data (idx m.imax p)).z = t.h p
  ib : ∀ i j, InBox m.imax m.jmax (i, j) → t.zone i j = true ∨ t.zone (i + 1) j = true →
    ((data (idx m.imax (i, j))).iB = false ↔ t.zone i j = true ∧ t.zone (i + 1) j = true)
  jb : ∀ i j, InBox m.imax m.jmax (i, j) → t.zone i j = true ∨ t.zone i (j + 1) = true →
    ((data (idx m.imax (i, j))).jB = false ↔ t.zone i j = true ∧ t.zone i (j + 1) = true)

/-- the saddle array holds nothing or the right decision -/
def SadOK (m : Mesh K) (t : Topo) (s : Arr (Option Bool)) : Prop :=
  ∀ i j, InBox m.imax m.jmax (i, j) → s (idx m.imax (i, j)) = none ∨ s (idx m.imax (i, j)) = some (t.sad i j)

section
variable {m : Mesh K} {lev : K} {t : Topo} (ok : TopoOK m lev t)
include ok

theorem TopoOK.imax2 {e : DE} (h : t.ex e = true) : 2 ≤ m.imax := by
  have := ok.zone _ _ h; omega

theorem TopoOK.box {e : DE} (h : t.ex e = true) : InBox m.imax m.jmax e.p0 ∧ InBox m.imax m.jmax e.p1 ∧
    InBox m.imax m.jmax e.q0 ∧ InBox m.imax m.jmax e.q1 ∧ InBox m.imax m.jmax e.zn ∧ InBox m.imax m.jmax (e.i, e.j) := by
  have := ok.zone _ _ h
  rcases e with ⟨i, j, _ | _ | _ | _⟩ <;>
    simp only [InBox, DE.p0, DE.p1, DE.q0, DE.q1, DE.zn, DE.rev] at * <;> omega

theorem TopoOK.box_rev {e : DE} (h : t.ex e.rev = true) : InBox m.imax m.jmax e.p0 ∧ InBox m.imax m.jmax e.p1 ∧
    InBox m.imax m.jmax (e.i, e.j) := by
  have := ok.zone _ _ h
  rcases e with ⟨i, j, _ | _ | _ | _⟩ <;>
    simp only [InBox, DE.p0, DE.p1, DE.zn, DE.rev] at * <;> omega

theorem centreHigh_perm (lev : K) (a b c d a' b' c' d' : Option K)
    (h : (a' = a ∧ b' = b ∧ c' = c ∧ d' = d) ∨ (a' = b ∧ b' = a ∧ c' = d ∧ d' = c) ∨ (a' = d ∧ b' = c ∧ c' = b ∧ d' = a) ∨
      (a' = c ∧ b' = a ∧ c' = d ∧ d' = b) ∨ (a' = b ∧ b' = d ∧ c' = a ∧ d' = c) ∨ (a' = d ∧ b' = b ∧ c' = c ∧ d' = a) ∨
      (a' = a ∧ b' = c ∧ c' = b ∧ d' = d) ∨ (a' = c ∧ b' = d ∧ c' = a ∧ d' = b)) :
    centreHigh lev a' b' c' d' = centreHigh lev a b c d := by
  have key : ∀ (p q r s : Option K), centreHigh lev p q r s =
      match p, q, r, s with
      | some p, some q, some r, some s => decide (lev < (p + q + r + s) / 4)
      | _, _, _, _ => false := fun _ _ _ _ => rfl
  rcases h with h | h | h | h | h | h | h | h <;> obtain ⟨rfl, rfl, rfl, rfl⟩ := h <;>
    cases a' <;> cases b' <;> cases c' <;> cases d' <;> simp only [centreHigh] <;> congr 3 <;> ring

theorem TopoOK.sd {e : DE} : t.sd e = centreHigh lev (m.z (idx m.imax e.p0)) (m.z (idx m.imax e.q0))
    (m.z (idx m.imax e.p1)) (m.z (idx m.imax e.q1)) := by
  unfold Topo.sd
  rw [ok.sad]
  symm
  apply centreHigh_perm ok
  rcases e with ⟨i, j, _ | _ | _ | _⟩ <;> simp [DE.p0, DE.p1, DE.q0, DE.q1, DE.zn, DE.rev]

end

theorem rd_ok {α : Type} {n : Int} {a : Arr α} {k : Int} (h : 0 ≤ k ∧ k < n) : rd n a k = .ok (a k) := by
  unfold rd; rw [if_pos h]

/-- the local variables of `zone_crosser` describe the directed edge `e` -/
structure At (m : Mesh K) (c : Cross K) (e : DE) : Prop where
  edge : c.edge = e.edgeOf m.imax
  left : c.left = e.leftOf m.imax
  fwd : c.fwd = e.fwdOf m.imax
  jedge : c.jedge = e.isJ

theorem range_nreg {m : Mesh K} {p : Int × Int} (h : InBox m.imax m.jmax p) :
    0 ≤ idx m.imax p ∧ idx m.imax p < m.nreg := by
  have := idx_range h
  unfold Mesh.nreg; omega

theorem range_ijmax {m : Mesh K} {p : Int × Int} (h : InBox m.imax m.jmax p) :
    0 ≤ idx m.imax p ∧ idx m.imax p < m.ijmax := idx_range h

theorem SadOK.upd {m : Mesh K} {t : Topo} {s : Arr (Option Bool)} (h : SadOK m t s) {p : Int × Int}
    (hp : InBox m.imax m.jmax p) : SadOK m t (upd s (idx m.imax p) (some (t.sad p.1 p.2))) := by
  intro i j hij
  simp only [Cntr.upd]
  split
  · rename_i he
    have := idx_inj ⟨hij.1, hij.2.1⟩ ⟨hp.1, hp.2.1⟩ he
    right
    rw [← this]
  · exact h i j hij

/-- crossing a zone -/
theorem crossZone_next {m : Mesh K} {lev : K} {t : Topo} (ok : TopoOK m lev t) {c : Cross K} {e : DE}
    (hat : At m c e) (hl : Link m t c.data) (hs : SadOK m t c.saddle) (hex : t.ex e = true) (hcut : t.cut e) :
    ∃ s', SadOK m t s' ∧ ∃ c', At m c' (t.next e) ∧
      crossZone m lev c (idx m.imax e.p0) (idx m.imax e.p1) = .ok c' ∧
      c'.n = c.n ∧ c'.done = c.done ∧ c'.data = c.data ∧ c'.saddle = s' ∧ c'.count = c.count ∧ c'.pts = c.pts := by
  obtain ⟨b0, b1, b2, b3, b4, b5⟩ := ok.box hex
  have h2 := ok.imax2 hex
  have hF : ∀ s', At m (bendForward { c with saddle := s' } (idx m.imax e.p1)) e.turnF := by
    intro s'
    constructor
    · simp only [bendForward]; rw [hat.left, DE.turnF_edge h2]
    · simp only [bendForward]; rw [hat.fwd, DE.turnF_left]
    · simp only [bendForward]; rw [hat.left, DE.turnF_fwd]
    · simp only [bendForward]; rw [hat.jedge, DE.turnF_isJ]
  have hB : ∀ s', At m (bendBackward { c with saddle := s' } (idx m.imax e.p0)) e.turnB := by
    intro s'
    constructor
    · simp only [bendBackward]; rw [hat.left, DE.turnB_edge h2]
    · simp only [bendBackward]; rw [hat.fwd, DE.turnB_left]
    · simp only [bendBackward]; rw [hat.left, DE.turnB_fwd]
    · simp only [bendBackward]; rw [hat.jedge, DE.turnB_isJ]
  have hS : At m (goStraight c) e.straight := by
    constructor
    · simp only [goStraight]; rw [hat.edge, hat.left, DE.straight_edge]
    · simp only [goStraight]; rw [hat.left, DE.straight_left]
    · simp only [goStraight]; rw [hat.fwd, DE.straight_fwd]
    · simp only [goStraight]; rw [hat.jedge, DE.straight_isJ]
  unfold crossZone
  rw [rd_ok (range_nreg b0), hat.left, DE.corner1, rd_ok (range_nreg b3), DE.corner0, rd_ok (range_nreg b2)]
  simp only [bind, Except.bind, pure, Except.pure]
  rw [hl.z _ b0, hl.z _ b3, hl.z _ b2]
  unfold Topo.next
  by_cases a : t.h e.p0 = t.h e.q1
  · simp only [if_pos a]
    by_cases b : (!t.h e.p0) = t.h e.q0
    · simp only [if_pos b]
      have hsad : ∃ s', SadOK m t s' ∧ saddleTurn m lev c (idx m.imax e.p0) (idx m.imax e.p1) (!t.h e.p0) =
          .ok (if (!t.h e.p0) = true then !t.sd e else t.sd e, s') := by
        unfold saddleTurn
        rw [hat.edge, hat.left, DE.zone_idx h2]
        simp only [bind, Except.bind, pure, Except.pure]
        rw [rd_ok (range_ijmax b4)]
        simp only
        rcases hs _ _ b4 with hn | hn
        · change c.saddle (idx m.imax e.zn) = none at hn
          rw [hn]
          simp only
          rw [rd_ok (range_ijmax b0), DE.corner0, rd_ok (range_ijmax b2), rd_ok (range_ijmax b1), DE.corner1,
            rd_ok (range_ijmax b3)]
          simp only
          rw [← ok.sd]
          exact ⟨_, hs.upd b4, rfl⟩
        · change c.saddle (idx m.imax e.zn) = some (t.sd e) at hn
          rw [hn]
          exact ⟨_, hs, rfl⟩
      obtain ⟨s', hs', he⟩ := hsad
      rw [he]
      refine ⟨s', hs', ?_⟩
      simp only
      by_cases g : (if (!t.h e.p0) = true then !t.sd e else t.sd e) = true
      · rw [if_pos g, if_pos g]
        exact ⟨_, hF s', by rw [hat.left], rfl, rfl, rfl, rfl, rfl, rfl⟩
      · rw [if_neg g, if_neg g]
        exact ⟨_, hB s', by rw [hat.left], rfl, rfl, rfl, rfl, rfl, rfl⟩
    · simp only [if_neg b]
      exact ⟨_, hs, _, hF c.saddle, rfl, rfl, rfl, rfl, rfl, rfl, rfl⟩
  · simp only [if_neg a]
    by_cases b : (!t.h e.p0) = t.h e.q0
    · simp only [if_pos b]
      exact ⟨_, hs, _, hB c.saddle, rfl, rfl, rfl, rfl, rfl, rfl, rfl⟩
    · simp only [if_neg b]
      exact ⟨_, hs, _, hS, rfl, rfl, rfl, rfl, rfl, rfl, rfl⟩

/-- the boundary flag of an edge behind which there is a zone -/
theorem bnd_flag {m : Mesh K} {lev : K} {t : Topo} (ok : TopoOK m lev t) {data : Arr Cell} (hl : Link m t data) {e : DE}
    (hex : t.ex e.rev = true) :
    (if e.isJ then (data (e.edgeOf m.imax)).jB else (data (e.edgeOf m.imax)).iB) = !t.ex e := by
  obtain ⟨_, _, b⟩ := ok.box_rev hex
  rcases e with ⟨i, j, _ | _ | _ | _⟩
  · have := hl.ib i j b (Or.inl hex)
    simp only [DE.isJ, DE.edgeOf, Topo.ex, DE.zn, DE.rev] at *
    cases h : (data (idx m.imax (i, j))).iB <;> cases h' : t.zone (i + 1) j <;> simp_all
  · have := hl.ib i j b (Or.inr hex)
    simp only [DE.isJ, DE.edgeOf, Topo.ex, DE.zn, DE.rev] at *
    cases h : (data (idx m.imax (i, j))).iB <;> cases h' : t.zone i j <;> simp_all
  · have := hl.jb i j b (Or.inl hex)
    simp only [DE.isJ, DE.edgeOf, Topo.ex, DE.zn, DE.rev] at *
    cases h : (data (idx m.imax (i, j))).jB <;> cases h' : t.zone i (j + 1) <;> simp_all
  · have := hl.jb i j b (Or.inr hex)
    simp only [DE.isJ, DE.edgeOf, Topo.ex, DE.zn, DE.rev] at *
    cases h : (data (idx m.imax (i, j))).jB <;> cases h' : t.zone i j <;> simp_all

end Trackeddy.Cntr
