import Verif.Proofs.Cntr.Loop

/-!
The loop of `zone_crosser` on the first pass: which start marks it erases.
-/
namespace Trackeddy.Cntr

variable {K : Type} [Field K] [LinearOrder K]

/-! ### start marks -/

def Cell.bit (c : Cell) (d : Dir) : Bool :=
  match d with
  | .R => c.i1
  | .L => c.i0
  | .U => c.j1
  | .D => c.j0

/-- the start mark of a directed edge -/
def mk (imax : Nat) (data : Arr Cell) (e : DE) : Bool := (data (e.edgeOf imax)).bit e.d

theorem start_bit {imax : Nat} (h : 2 ≤ imax) (c : Cell) (e : DE) : c.start (e.leftOf imax) = c.bit e.d := by
  have h3 : -(imax : Int) < 0 := by omega
  have h6 : -(imax : Int) < -1 := by omega
  have h7 : 0 < imax := by omega
  have h8 : imax ≠ 0 := by omega
  have h9 : 1 < imax := by omega
  have h10 : ¬ (imax : Int) < 0 := by omega
  rcases e with ⟨i, j, _ | _ | _ | _⟩ <;> simp [DE.leftOf, Cell.start, Cell.bit, h6, h7, h9, h10]

/-- a cell without its start marks -/
def Cell.bare (c : Cell) : Cell := { c with i0 := false, i1 := false, j0 := false, j1 := false }

/-- only start marks differ -/
def Static (D D' : Arr Cell) : Prop := ∀ k, (D' k).bare = (D k).bare

theorem Static.refl (D : Arr Cell) : Static D D := fun _ => rfl
theorem Static.trans {A B C : Arr Cell} (h : Static A B) (h' : Static B C) : Static A C := fun k => (h' k).trans (h k)

theorem Static.z {D D' : Arr Cell} (h : Static D D') (k : Int) : (D' k).z = (D k).z := by
  have := congrArg Cell.z (h k); exact this
theorem Static.iB {D D' : Arr Cell} (h : Static D D') (k : Int) : (D' k).iB = (D k).iB := by
  have := congrArg Cell.iB (h k); exact this
theorem Static.jB {D D' : Arr Cell} (h : Static D D') (k : Int) : (D' k).jB = (D k).jB := by
  have := congrArg Cell.jB (h k); exact this
theorem Static.opn {D D' : Arr Cell} (h : Static D D') (k : Int) : (D' k).opn = (D k).opn := by
  have := congrArg Cell.opn (h k); exact this
theorem Static.row {D D' : Arr Cell} (h : Static D D') (k : Int) : (D' k).row = (D k).row := by
  have := congrArg Cell.row (h k); exact this
theorem Static.allDone {D D' : Arr Cell} (h : Static D D') (k : Int) : (D' k).allDone = (D k).allDone := by
  have := congrArg Cell.allDone (h k); exact this

theorem Static.link {m : Mesh K} {t : Topo} {D D' : Arr Cell} (h : Static D D') (hl : Link m t D) : Link m t D' := by
  constructor
  · intro p hp; rw [h.z]; exact hl.z p hp
  · intro i j hb; rw [h.iB]; exact hl.ib i j hb
  · intro i j hb; rw [h.jB]; exact hl.jb i j hb

/-- number of start marks of a cell -/
def Cell.bits (c : Cell) : Int :=
  (if c.i0 then 1 else 0) + (if c.i1 then 1 else 0) + (if c.j0 then 1 else 0) + (if c.j1 then 1 else 0)

/-- number of start marks -/
def total (m : Mesh K) (data : Arr Cell) : Int := ∑ k ∈ Finset.range (m.imax * m.jmax), (data (k : Int)).bits

theorem total_upd {m : Mesh K} (data : Arr Cell) {k : Int} (hk : 0 ≤ k ∧ k < m.ijmax) (c : Cell) :
    total m (upd data k c) = total m data - (data k).bits + c.bits := by
  obtain ⟨n, rfl⟩ := Int.eq_ofNat_of_zero_le hk.1
  have hn : n ∈ Finset.range (m.imax * m.jmax) := by
    rw [Finset.mem_range]
    have := hk.2
    unfold Mesh.ijmax at this
    exact_mod_cast this
  unfold total
  rw [← Finset.add_sum_erase _ _ hn, ← Finset.add_sum_erase _ (fun k : ℕ => (data (k : Int)).bits) hn]
  have : ∑ x ∈ (Finset.range (m.imax * m.jmax)).erase n, ((upd data (n : Int) c) (x : Int)).bits =
      ∑ x ∈ (Finset.range (m.imax * m.jmax)).erase n, (data (x : Int)).bits := by
    apply Finset.sum_congr rfl
    intro x hx
    rw [Finset.mem_erase] at hx
    have : ¬ (x : Int) = n := by exact_mod_cast hx.1
    simp only [upd, if_neg this]
  rw [this]
  simp only [upd, if_true]
  ring

theorem total_upd_same {m : Mesh K} (data : Arr Cell) (k : Int) (c : Cell) (h : (data k).bits = c.bits) :
    total m (upd data k c) = total m data := by
  unfold total
  apply Finset.sum_congr rfl
  intro x _
  simp only [upd]
  split
  · rename_i he; rw [he, h]
  · rfl

/-! ### one round -/

/-- the data after the current edge was checked (not the first one, not the last one) -/
def passed (m : Mesh K) (D : Arr Cell) (n : Nat) (e : DE) : Arr Cell :=
  if n ≠ 0 ∧ e.isJ = false then upd D (e.edgeOf m.imax) (eraseStarts (D (e.edgeOf m.imax))).1 else D

theorem passed_static (m : Mesh K) (D : Arr Cell) (n : Nat) (e : DE) : Static D (passed m D n e) := by
  intro k
  unfold passed
  split
  · simp only [upd]
    split
    · rename_i h; rw [h]; rfl
    · rfl
  · rfl

theorem passed_mk {m : Mesh K} (D : Arr Cell) (n : Nat) {e a : DE} (he : InBox m.imax m.jmax (e.i, e.j))
    (ha : InBox m.imax m.jmax (a.i, a.j)) :
    mk m.imax (passed m D n e) a = true ↔
      mk m.imax D a = true ∧ ¬ (n ≠ 0 ∧ e.isJ = false ∧ (a = e ∨ a = e.rev)) := by
  unfold passed
  by_cases h : n ≠ 0 ∧ e.isJ = false
  · rw [if_pos h]
    unfold mk
    simp only [upd]
    by_cases hk : a.edgeOf m.imax = e.edgeOf m.imax
    · rw [if_pos hk]
      have := idx_inj ⟨ha.1, ha.2.1⟩ ⟨he.1, he.2.1⟩ hk
      rw [Prod.mk.injEq] at this
      rw [hk]
      obtain ⟨h1, h2⟩ := this
      rcases a with ⟨i, j, _ | _ | _ | _⟩ <;> rcases e with ⟨i', j', _ | _ | _ | _⟩ <;>
        simp_all [DE.isJ, DE.rev, Cell.bit, eraseStarts]
    · rw [if_neg hk]
      have : ¬ (a = e ∨ a = e.rev) := by
        rintro (rfl | rfl)
        · exact hk rfl
        · exact hk (DE.rev_edge _)
      simp [this]
  · rw [if_neg h]
    have : ¬ (n ≠ 0 ∧ e.isJ = false ∧ (a = e ∨ a = e.rev)) := fun hh => h ⟨hh.1, hh.2.1⟩
    simp only [this, not_false_eq_true, and_true]

/-- the data after a boundary was reached at `e` -/
def ended (m : Mesh K) (D : Arr Cell) (d0 e : DE) : Arr Cell :=
  if e.rev ≠ d0 ∧ mk m.imax D e.rev = true then
    upd D (e.edgeOf m.imax) ((D (e.edgeOf m.imax)).unstart (e.rev.leftOf m.imax)) else D

theorem unstart_bit {imax : Nat} (h : 2 ≤ imax) (c : Cell) (e : DE) (d : Dir) :
    (c.unstart (e.leftOf imax)).bit d = (c.bit d && !decide (d = e.d)) := by
  have h3 : -(imax : Int) < 0 := by omega
  have h6 : -(imax : Int) < -1 := by omega
  have h7 : 0 < imax := by omega
  have h8 : imax ≠ 0 := by omega
  have h9 : 1 < imax := by omega
  have h10 : ¬ (imax : Int) < 0 := by omega
  rcases e with ⟨i, j, _ | _ | _ | _⟩ <;> cases d <;> simp [DE.leftOf, Cell.unstart, Cell.bit, h6, h7, h9, h10]

theorem unstart_bare (c : Cell) (l : Int) : (c.unstart l).bare = c.bare := by
  unfold Cell.unstart; split_ifs <;> rfl

theorem unstart_bits {imax : Nat} (h : 2 ≤ imax) (c : Cell) (e : DE) (hb : c.bit e.d = true) :
    (c.unstart (e.leftOf imax)).bits = c.bits - 1 := by
  have h3 : -(imax : Int) < 0 := by omega
  have h6 : -(imax : Int) < -1 := by omega
  have h7 : 0 < imax := by omega
  have h8 : imax ≠ 0 := by omega
  have h9 : 1 < imax := by omega
  have h10 : ¬ (imax : Int) < 0 := by omega
  rcases e with ⟨i, j, _ | _ | _ | _⟩ <;> simp [Cell.bit] at hb <;>
    simp [DE.leftOf, Cell.unstart, Cell.bits, h6, h7, h9, h10, hb] <;> ring

theorem ended_static (m : Mesh K) (D : Arr Cell) (d0 e : DE) : Static D (ended m D d0 e) := by
  intro k
  unfold ended
  split
  · simp only [upd]
    split
    · rename_i h; rw [h, unstart_bare]
    · rfl
  · rfl

theorem ended_mk {m : Mesh K} (h2 : 2 ≤ m.imax) (D : Arr Cell) (d0 : DE) {e a : DE} (he : InBox m.imax m.jmax (e.i, e.j))
    (ha : InBox m.imax m.jmax (a.i, a.j)) :
    mk m.imax (ended m D d0 e) a = true ↔ mk m.imax D a = true ∧ ¬ (a = e.rev ∧ a ≠ d0) := by
  unfold ended
  by_cases h : e.rev ≠ d0 ∧ mk m.imax D e.rev = true
  · rw [if_pos h]
    unfold mk
    simp only [upd]
    by_cases hk : a.edgeOf m.imax = e.edgeOf m.imax
    · rw [if_pos hk, unstart_bit h2, hk]
      have := idx_inj ⟨ha.1, ha.2.1⟩ ⟨he.1, he.2.1⟩ hk
      rw [Prod.mk.injEq] at this
      have hiff : a.d = e.rev.d ↔ a = e.rev := by
        constructor
        · intro hd
          rcases a with ⟨i, j, _ | _ | _ | _⟩ <;> rcases e with ⟨i', j', _ | _ | _ | _⟩ <;> simp_all [DE.rev]
        · rintro rfl; rfl
      by_cases hae : a = e.rev
      · have hdd := hiff.mpr hae
        have hne : a ≠ d0 := by rw [hae]; exact h.1
        simp [hdd, hae, h.1]
      · have hdd : ¬ a.d = e.rev.d := fun x => hae (hiff.mp x)
        simp [hdd, hae]
    · rw [if_neg hk]
      have : ¬ a = e.rev := by
        rintro rfl
        exact hk (DE.rev_edge _)
      simp [this]
  · rw [if_neg h]
    constructor
    · intro hm
      refine ⟨hm, ?_⟩
      rintro ⟨rfl, hne⟩
      exact h ⟨hne, hm⟩
    · exact fun hh => hh.1

section
variable {m : Mesh K} {lev : K} {t : Topo} (ok : TopoOK m lev t)
include ok

/-- the boundary check on the first pass -/
theorem boundary1 {c : Cross K} {e d0 : DE} (hat : At m c e) (hl : Link m t c.data)
    (hex : t.ex e.rev = true) (hb0 : InBox m.imax m.jmax (d0.i, d0.j)) :
    ∃ c1, checkBoundary m false (d0.edgeOf m.imax) (d0.leftOf m.imax) c = .ok c1 ∧ c1.n = c.n ∧ c1.pts = c.pts ∧
      c1.saddle = c.saddle ∧ c1.count - total m c1.data = c.count - total m c.data ∧
      (t.ex e = true → c1 = c) ∧
      (t.ex e = false → c1.data = ended m c.data d0 e ∧ At m c1 e.rev ∧ c1.done = 4) := by
  obtain ⟨_, _, b⟩ := ok.box_rev hex
  have h2 := ok.imax2 hex
  unfold checkBoundary
  have hb := bnd_flag ok hl hex
  have hr : rd m.nreg c.data (e.edgeOf m.imax) = .ok (c.data (e.edgeOf m.imax)) := rd_ok (range_nreg b)
  rw [hat.edge, hr]
  simp only [bind, Except.bind, pure, Except.pure]
  rw [hat.jedge]
  simp only [hb]
  cases hx : t.ex e
  · simp only [Bool.not_false, if_true]
    have hcond : (e.edgeOf m.imax ≠ d0.edgeOf m.imax ∨ -c.left ≠ d0.leftOf m.imax) ↔ e.rev ≠ d0 := by
      rw [hat.left, ← DE.rev_left, ← DE.rev_edge]
      constructor
      · rintro hh rfl
        rcases hh with hh | hh <;> exact hh rfl
      · intro hne
        by_contra hh
        push Not at hh
        exact hne (code_inj h2 (by rcases e with ⟨i, j, _ | _ | _ | _⟩ <;> exact b) hb0 hh.1 hh.2)
    have hst : (c.data (e.edgeOf m.imax)).start (-c.left) = mk m.imax c.data e.rev := by
      rw [hat.left, ← DE.rev_left, start_bit h2]
      unfold mk
      rw [DE.rev_edge]
    have hst' : (c.data c.edge).start (-c.left) = mk m.imax c.data e.rev := by rw [hat.edge]; exact hst
    rw [← hat.edge] at hcond
    simp only [← hat.edge, ← hat.jedge]
    have hflip := hat.flip ok
    by_cases hh : e.rev ≠ d0 ∧ mk m.imax c.data e.rev = true
    · rw [if_pos ⟨trivial, hcond.mpr hh.1, by rw [hst']; exact hh.2⟩]
      refine ⟨_, rfl, rfl, rfl, rfl, ?_, by simp, fun _ => ⟨?_, ⟨hflip.edge, hflip.left, hflip.fwd, hflip.jedge⟩, rfl⟩⟩
      · simp only
        rw [hat.edge, total_upd (k := e.edgeOf m.imax) _ (range_ijmax b)]
        have : (c.data (e.edgeOf m.imax)).bit e.rev.d = true := by
          have := hh.2; unfold mk at this; rwa [DE.rev_edge] at this
        rw [hat.left, ← DE.rev_left, unstart_bits h2 _ _ this]
        unfold DE.edgeOf
        ring
      · simp only
        unfold ended
        rw [if_pos hh, hat.edge, hat.left, DE.rev_left]
    · rw [if_neg (fun h => hh ⟨hcond.mp h.2.1, by rw [← hst']; exact h.2.2⟩)]
      refine ⟨_, rfl, rfl, rfl, rfl, rfl, by simp, fun _ => ⟨?_, hflip, rfl⟩⟩
      unfold ended
      rw [if_neg hh]
  · simp only [Bool.not_true, Bool.false_eq_true, if_false]
    exact ⟨c, rfl, rfl, rfl, rfl, rfl, fun _ => rfl, by simp⟩

/-- one round of the first pass that neither closes the curve nor meets an open end -/
theorem loop1_step {c : Cross K} {e d0 : DE} {level0 : Bool} (fuel : Nat) (hat : At m c e) (hl : Link m t c.data)
    (hs : SadOK m t c.saddle) (hex : t.ex e = true) (hcut : t.cut e) (hb0 : InBox m.imax m.jmax (d0.i, d0.j))
    (hd : c.done = 0) (hn : c.n = 0 ∨ e ≠ d0) (ho : c.n = 0 ∨ e.isJ = true ∨ (c.data (e.edgeOf m.imax)).opn = false) :
    ∃ c1, crossLoop m lev false (d0.edgeOf m.imax) (d0.leftOf m.imax) level0 (fuel + 1) c =
        crossLoop m lev false (d0.edgeOf m.imax) (d0.leftOf m.imax) level0 fuel c1 ∧
      c1.n = c.n + 1 ∧ c1.pts = c.pts ∧ SadOK m t c1.saddle ∧
      c1.count - total m c1.data = c.count - total m c.data ∧
      (t.ex (t.next e) = true → At m c1 (t.next e) ∧ c1.done = 0 ∧ c1.data = passed m c.data c.n e) ∧
      (t.ex (t.next e) = false → At m c1 (t.next e).rev ∧ c1.done = 4 ∧
        c1.data = ended m (passed m c.data c.n e) d0 (t.next e)) := by
  obtain ⟨b0, b1, b2, b3, b4, b5⟩ := ok.box hex
  have h2 := ok.imax2 hex
  have hce : ∃ cnt, cnt - total m (passed m c.data c.n e) = c.count - total m c.data ∧
      checkEdge m false (d0.edgeOf m.imax) (d0.leftOf m.imax) level0 c =
        .ok ({ c with data := passed m c.data c.n e, count := cnt }, false) := by
    unfold checkEdge
    by_cases hjn : c.jedge = false ∧ c.n ≠ 0
    · rw [if_pos ⟨hd, hjn.1, hjn.2⟩]
      have hr : rd m.nreg c.data (e.edgeOf m.imax) = .ok (c.data (e.edgeOf m.imax)) := rd_ok (range_nreg b5)
      have hp : passed m c.data c.n e = upd c.data (e.edgeOf m.imax) (eraseStarts (c.data (e.edgeOf m.imax))).1 := by
        unfold passed
        rw [if_pos ⟨hjn.2, by rw [← hat.jedge]; exact hjn.1⟩]
      have hopn : (c.data (e.edgeOf m.imax)).opn = false := by
        rcases ho with h | h | h
        · exact absurd h hjn.2
        · rw [← hat.jedge, hjn.1] at h; exact absurd h (by simp)
        · exact h
      have hne : ¬ (c.edge = d0.edgeOf m.imax ∧ c.left = d0.leftOf m.imax) := by
        rw [hat.edge, hat.left]
        rintro ⟨x, y⟩
        rcases hn with hn | hn
        · exact hjn.2 hn
        · exact hn (code_inj h2 b5 hb0 x y)
      rw [hat.edge] at hne ⊢
      rw [hr]
      simp only [bind, Except.bind, pure, Except.pure, hopn, Bool.false_eq_true, and_false, if_false]
      rw [if_neg hne]
      simp only [if_true]
      refine ⟨_, ?_, by rw [hp]⟩
      rw [hp, total_upd (k := e.edgeOf m.imax) _ (range_ijmax b5)]
      generalize c.data (e.edgeOf m.imax) = q
      rcases q with ⟨_, _, _, _, _ | _, _ | _, _ | _, _ | _, _, _, _⟩ <;> simp [eraseStarts, Cell.bits] <;> ring
    · rw [if_neg (fun h => hjn h.2)]
      have hp : passed m c.data c.n e = c.data := by
        unfold passed
        rw [if_neg (fun h => hjn ⟨by rw [hat.jedge]; exact h.2, h.1⟩)]
      rw [hp]
      exact ⟨c.count, rfl, rfl⟩
  obtain ⟨cnt, hcnt, hce⟩ := hce
  rw [crossLoop]
  simp only [Bool.false_eq_true, if_false, bind, Except.bind, pure, Except.pure]
  rw [hce]
  simp only [Bool.false_eq_true, if_false]
  rw [if_neg (by simp [hd]), hat.edge, hat.fwd, DE.point0 h2, DE.point1 h2, ← hat.edge, ← hat.fwd]
  have hat' : At m { c with data := passed m c.data c.n e, count := cnt, n := c.n + 1 } e :=
    ⟨hat.edge, hat.left, hat.fwd, hat.jedge⟩
  have hlp : Link m t (passed m c.data c.n e) := (passed_static m c.data c.n e).link hl
  obtain ⟨s', hs', c', ha', hz, e1, e2, e3, e4, e5, e6⟩ := crossZone_next ok hat' hlp hs hex hcut
  rw [hz]
  simp only
  have hl' : Link m t c'.data := by rw [e3]; exact hlp
  obtain ⟨c1, f0, f1, f2, f3, f4, f5, f6⟩ := boundary1 ok (d0 := d0) ha' hl' (by rw [t.ex_rev_next]; exact hex) hb0
  rw [f0]
  refine ⟨c1, rfl, by rw [f1, e1], by rw [f2, e6], by rw [f3, e4]; exact hs', ?_, ?_, ?_⟩
  · rw [f4, e3, e5]; exact hcnt
  · intro hx
    have := f5 hx
    subst this
    exact ⟨ha', by rw [e2]; exact hd, e3⟩
  · intro hx
    obtain ⟨g1, g2, g3⟩ := f6 hx
    refine ⟨g2, g3, by rw [g1, e3]⟩

/-- the last round after a boundary was reached -/
theorem loop1_end (c : Cross K) (edge0 left0 : Int) (level0 : Bool) (fuel : Nat) (hd : c.done = 4) :
    crossLoop m lev false edge0 left0 level0 (fuel + 1) c = .ok { c with n := c.n + 1 } := by
  rw [crossLoop]
  simp only [Bool.false_eq_true, if_false, bind, Except.bind, pure, Except.pure, checkEdge, hd]
  rw [if_neg (by omega)]
  simp [hd]

/-- the round that closes the curve -/
theorem loop1_close {c : Cross K} {e : DE} (fuel : Nat) (hat : At m c e) (hex : t.ex e = true)
    (hJ : e.isJ = false) (hd : c.done = 0) (hn : c.n ≠ 0) (ho : (c.data (e.edgeOf m.imax)).opn = false) :
    crossLoop m lev false (e.edgeOf m.imax) (e.leftOf m.imax) true (fuel + 1) c =
      .ok { c with n := c.n + 1, done := 3 } := by
  obtain ⟨b0, b1, b2, b3, b4, b5⟩ := ok.box hex
  have hr : rd m.nreg c.data (e.edgeOf m.imax) = .ok (c.data (e.edgeOf m.imax)) := rd_ok (range_nreg b5)
  rw [crossLoop]
  simp [bind, Except.bind, pure, Except.pure, checkEdge, hd, hn, hat.jedge, hJ, hr, hat.edge, hat.left, ho]

/-- the round that meets an open end -/
theorem loop1_open {c : Cross K} {e : DE} (edge0 left0 : Int) (level0 : Bool) (fuel : Nat) (hat : At m c e) (hex : t.ex e = true)
    (hJ : e.isJ = false) (hd : c.done = 0) (hn : c.n ≠ 0) (ho : (c.data (e.edgeOf m.imax)).opn = true) :
    crossLoop m lev false edge0 left0 level0 (fuel + 1) c = .ok { c with done := 4 } := by
  obtain ⟨b0, b1, b2, b3, b4, b5⟩ := ok.box hex
  have hr : rd m.nreg c.data (e.edgeOf m.imax) = .ok (c.data (e.edgeOf m.imax)) := rd_ok (range_nreg b5)
  rw [crossLoop]
  simp [bind, Except.bind, pure, Except.pure, checkEdge, hd, hn, hat.jedge, hJ, hr, hat.edge, ho]

end

/-- the start marks erased in `r` steps from `e` if `n` points are already there -/
def Clr (t : Topo) (n r : Nat) (e d0 a : DE) : Prop :=
  (∃ s < r, n + s ≠ 0 ∧ (t.next^[s] e).isJ = false ∧ (a = t.next^[s] e ∨ a = (t.next^[s] e).rev)) ∨
  (t.ex (t.next^[r] e) = false ∧ a = (t.next^[r] e).rev ∧ a ≠ d0)

theorem Clr_succ (t : Topo) (n r : Nat) (e d0 a : DE) :
    Clr t n (r + 1) e d0 a ↔ (n ≠ 0 ∧ e.isJ = false ∧ (a = e ∨ a = e.rev)) ∨ Clr t (n + 1) r (t.next e) d0 a := by
  unfold Clr
  constructor
  · rintro (⟨s, hs, h1, h2⟩ | h)
    · cases s with
      | zero => exact Or.inl ⟨by omega, h2⟩
      | succ s => exact Or.inr (Or.inl ⟨s, by omega, by omega, h2⟩)
    · exact Or.inr (Or.inr h)
  · rintro (h | ⟨s, hs, h1, h2⟩ | h)
    · exact Or.inl ⟨0, by omega, by omega, h.2⟩
    · exact Or.inl ⟨s + 1, by omega, by omega, h2⟩
    · exact Or.inr h

/-- `zone_crosser` on the first pass: `r` zones are crossed until a boundary is reached, the curve closes or an
open end is met -/
theorem loop1_run {m : Mesh K} {lev : K} {t : Topo} (ok : TopoOK m lev t) {d0 : DE} {level0 : Bool}
    (hb0 : InBox m.imax m.jmax (d0.i, d0.j)) (r : Nat) :
    ∀ (c : Cross K) (e : DE) (fuel : Nat), At m c e → Link m t c.data → SadOK m t c.saddle → t.cut e → c.done = 0 →
      1 ≤ r → r + 1 ≤ fuel → (∀ s < r, t.ex (t.next^[s] e) = true) →
      (∀ s < r, c.n ≠ 0 ∨ s ≠ 0 → t.next^[s] e ≠ d0 ∧
        ((t.next^[s] e).isJ = true ∨ (c.data ((t.next^[s] e).edgeOf m.imax)).opn = false)) →
      (t.ex (t.next^[r] e) = true → (t.next^[r] e).isJ = false ∧
        ((c.data ((t.next^[r] e).edgeOf m.imax)).opn = true ∨ level0 = true ∧ t.next^[r] e = d0)) →
      ∃ c', crossLoop m lev false (d0.edgeOf m.imax) (d0.leftOf m.imax) level0 fuel c = .ok c' ∧
        (c'.n = c.n + r + if t.ex (t.next^[r] e) = true ∧ (c.data ((t.next^[r] e).edgeOf m.imax)).opn = true then 0 else 1) ∧
        Static c.data c'.data ∧ SadOK m t c'.saddle ∧ c'.count - total m c'.data = c.count - total m c.data ∧
        (c'.done = if t.ex (t.next^[r] e) = true ∧ (c.data ((t.next^[r] e).edgeOf m.imax)).opn = false then 3 else 4) ∧
        (∀ a, InBox m.imax m.jmax (a.i, a.j) →
          (mk m.imax c'.data a = true ↔ mk m.imax c.data a = true ∧ ¬ Clr t c.n r e d0 a)) := by
  induction r with
  | zero => intro c e fuel _ _ _ _ _ h; omega
  | succ r ih =>
    intro c e fuel hat hl hs hcut hd _ hf hin hnc hend
    obtain ⟨fuel, rfl⟩ : ∃ f, fuel = f + 1 := ⟨fuel - 1, by omega⟩
    have hex : t.ex e = true := hin 0 (by omega)
    have b5 := (ok.box hex).2.2.2.2.2
    have h2 := ok.imax2 hex
    have h0 := hnc 0 (by omega)
    obtain ⟨c1, e0, e1, e2, e3, e4, e5, e6⟩ := loop1_step ok fuel hat hl hs hex hcut hb0 hd (level0 := level0) (by
      by_cases h : c.n = 0
      · exact Or.inl h
      · exact Or.inr (h0 (Or.inl h)).1) (by
      by_cases h : c.n = 0
      · exact Or.inl h
      · exact Or.inr (h0 (Or.inl h)).2)
    rw [e0]
    have hps := passed_static m c.data c.n e
    obtain ⟨fuel, rfl⟩ : ∃ f, fuel = f + 1 := ⟨fuel - 1, by omega⟩
    by_cases hx : t.ex (t.next e) = true
    · obtain ⟨ha, hd0, hdat⟩ := e5 hx
      rcases Nat.eq_zero_or_pos r with h0 | hpos
      · subst h0
        have hclr : ∀ a, ¬ Clr t (c.n + 1) 0 (t.next e) d0 a := by
          rintro a (⟨s, hs, _⟩ | ⟨h, _⟩)
          · omega
          · have h' : t.ex (t.next e) = false := h
            rw [hx] at h'; exact absurd h' (by simp)
        have hmk : ∀ a, InBox m.imax m.jmax (a.i, a.j) →
            (mk m.imax c1.data a = true ↔ mk m.imax c.data a = true ∧ ¬ Clr t c.n 1 e d0 a) := by
          intro a hba
          rw [hdat, passed_mk _ _ b5 hba, Clr_succ]
          simp only [hclr, or_false]
        change t.ex (t.next e) = true → (t.next e).isJ = false ∧ ((c.data ((t.next e).edgeOf m.imax)).opn = true ∨
          level0 = true ∧ t.next e = d0) at hend
        change ∃ c' : Cross K, _ ∧ (c'.n = c.n + 1 + if t.ex (t.next e) = true ∧ (c.data ((t.next e).edgeOf m.imax)).opn = true then 0 else 1) ∧
          _ ∧ _ ∧ _ ∧ (c'.done = if t.ex (t.next e) = true ∧ (c.data ((t.next e).edgeOf m.imax)).opn = false then 3 else 4) ∧ _
        obtain ⟨hJ, ho⟩ := hend hx
        have hopn : (c1.data ((t.next e).edgeOf m.imax)).opn = (c.data ((t.next e).edgeOf m.imax)).opn := by
          rw [hdat, hps.opn]
        cases hoo : (c.data ((t.next e).edgeOf m.imax)).opn
        · rw [hoo] at hopn ho
          simp only [Bool.false_eq_true, false_or] at ho
          obtain ⟨hlv, hee⟩ := ho
          subst hlv
          rw [← hee] at hmk ⊢
          rw [loop1_close ok _ ha hx hJ hd0 (by omega) hopn]
          refine ⟨_, rfl, by simp [e1], ?_, e3, e4, by simp [hx], hmk⟩
          simp only; rw [hdat]; exact hps
        · rw [hoo] at hopn
          rw [loop1_open ok _ _ _ _ ha hx hJ hd0 (by omega) hopn]
          refine ⟨_, rfl, by simp [e1, hx], ?_, e3, e4, by simp, hmk⟩
          simp only; rw [hdat]; exact hps
      · have hopn : ∀ a : DE, (c1.data (a.edgeOf m.imax)).opn = (c.data (a.edgeOf m.imax)).opn := by
          intro a; rw [hdat, hps.opn]
        obtain ⟨c', g0, g1, g2, g3, g4, g5, g6⟩ := ih c1 (t.next e) (fuel + 1) ha (by rw [hdat]; exact hps.link hl) e3
          (t.cut_next hcut) hd0 hpos (by omega) (fun s hs => hin (s + 1) (by omega))
          (fun s hs _ => by rw [hopn]; exact hnc (s + 1) (by omega) (Or.inr (by omega))) (by rw [hopn]; exact hend)
        rw [hopn] at g1 g5
        refine ⟨c', g0, ?_, ?_, g3, g4.trans e4, g5, ?_⟩
        · rw [g1, e1, Function.iterate_succ_apply]; omega
        · rw [hdat] at g2; exact hps.trans g2
        · intro a hba
          rw [g6 a hba, hdat, passed_mk _ _ b5 hba, Clr_succ, e1, not_or, and_assoc]
    · have hx' : t.ex (t.next e) = false := by simpa using hx
      obtain ⟨ha, hd4, hdat⟩ := e6 hx'
      have hr0 : r = 0 := by
        by_contra hne
        exact hx (hin 1 (by omega))
      subst hr0
      rw [loop1_end ok _ _ _ _ _ hd4]
      have hb : InBox m.imax m.jmax ((t.next e).i, (t.next e).j) :=
        (ok.box_rev (by rw [t.ex_rev_next]; exact hex)).2.2
      refine ⟨_, rfl, ?_, ?_, e3, e4, ?_, ?_⟩
      · rw [if_neg (fun h => hx h.1)]
        simp only
        rw [e1]
      · simp only; rw [hdat]; exact hps.trans (ended_static _ _ _ _)
      · rw [if_neg (fun h => hx h.1)]
        exact hd4
      · intro a hba
        simp only
        rw [hdat, ended_mk h2 _ _ hb hba, passed_mk _ _ b5 hba, Clr_succ]
        have : Clr t (c.n + 1) 0 (t.next e) d0 a ↔ a = (t.next e).rev ∧ a ≠ d0 := by
          unfold Clr
          constructor
          · rintro (⟨s, hs, _⟩ | ⟨_, h⟩)
            · omega
            · exact h
          · exact fun h => Or.inr ⟨hx', h⟩
        rw [this, not_or, and_assoc]

end Trackeddy.Cntr
