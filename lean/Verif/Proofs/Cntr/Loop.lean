import Verif.Proofs.Cntr.Cross
import Mathlib.Tactic.FieldSimp
import Mathlib.Algebra.BigOperators.Group.Finset.Basic
import Mathlib.Algebra.BigOperators.Intervals

/-!
The loop of `zone_crosser`: one round, and the whole loop on both passes.
-/
namespace Trackeddy.Cntr

variable {K : Type} [Field K] [LinearOrder K]

/-- the point on an edge -/
def vtx (m : Mesh K) (lev : K) (e : DE) : Vertex K :=
  interpolate lev (m.z (idx m.imax e.p0)) (m.z (idx m.imax e.p1)) (m.x (idx m.imax e.p0)) (m.x (idx m.imax e.p1))
    (m.y (idx m.imax e.p0)) (m.y (idx m.imax e.p1))

theorem interpolate_comm (lev : K) (z0 z1 : Option K) (x0 x1 y0 y1 : K) (h : z0 ≠ z1) :
    interpolate lev z0 z1 x0 x1 y0 y1 = interpolate lev z1 z0 x1 x0 y1 y0 := by
  cases z0 with
  | none => cases z1 <;> rfl
  | some a =>
    cases z1 with
    | none => rfl
    | some b =>
      have hab : a ≠ b := fun e => h (by rw [e])
      have h1 : b - a ≠ 0 := sub_ne_zero.mpr (Ne.symm hab)
      have h2 : a - b ≠ 0 := sub_ne_zero.mpr hab
      have h3 : (lev - b) / (a - b) = 1 - (lev - a) / (b - a) := by
        rw [eq_sub_iff_add_eq, div_add_div _ _ h2 h1, div_eq_one_iff_eq (mul_ne_zero h2 h1)]
        ring
      simp only [interpolate, h3]
      congr 2 <;> ring

theorem vtx_rev {m : Mesh K} {lev : K} {t : Topo} (ok : TopoOK m lev t) {e : DE} (h : t.cut e) :
    vtx m lev e.rev = vtx m lev e := by
  unfold vtx
  rw [DE.p0_rev, DE.p1_rev]
  apply interpolate_comm
  intro he
  apply h
  rw [ok.hi, ok.hi]
  unfold Mesh.high
  rw [he]

theorem markPoint_ok {m : Mesh K} {lev : K} {e : DE} (h0 : InBox m.imax m.jmax e.p0) (h1 : InBox m.imax m.jmax e.p1) :
    markPoint m lev (idx m.imax e.p0) (idx m.imax e.p1) = .ok (vtx m lev e) := by
  unfold markPoint
  rw [rd_ok (range_ijmax h0), rd_ok (range_ijmax h1), rd_ok (range_ijmax h0), rd_ok (range_ijmax h1),
    rd_ok (range_ijmax h0), rd_ok (range_ijmax h1)]
  rfl

/-- codes of directed edges are injective in the mesh -/
theorem code_inj {m : Mesh K} (h2 : 2 ≤ m.imax) {a b : DE} (ha : InBox m.imax m.jmax (a.i, a.j))
    (hb : InBox m.imax m.jmax (b.i, b.j)) (he : a.edgeOf m.imax = b.edgeOf m.imax)
    (hl : a.leftOf m.imax = b.leftOf m.imax) : a = b := by
  have := idx_inj ⟨ha.1, ha.2.1⟩ ⟨hb.1, hb.2.1⟩ he
  rw [Prod.mk.injEq] at this
  obtain ⟨h3, h4⟩ := this
  rcases a with ⟨i, j, _ | _ | _ | _⟩ <;> rcases b with ⟨i', j', _ | _ | _ | _⟩ <;>
    simp only [DE.leftOf] at hl <;> first | (simp only at h3 h4; subst h3; subst h4; rfl) | omega

section
variable {m : Mesh K} {lev : K} {t : Topo} (ok : TopoOK m lev t)
include ok

/-- the boundary check on the second pass -/
theorem boundary2 {c : Cross K} {e : DE} (edge0 left0 : Int) (hat : At m c e) (hl : Link m t c.data)
    (hex : t.ex e.rev = true) :
    checkBoundary m true edge0 left0 c = .ok (if t.ex e = true then c else
      { c with done := 4, left := -c.left, fwd := -c.fwd }) := by
  obtain ⟨_, _, b⟩ := ok.box_rev hex
  unfold checkBoundary
  rw [hat.edge, DE.edgeOf, rd_ok (range_nreg b)]
  have hb := bnd_flag ok hl hex
  rw [DE.edgeOf] at hb
  simp only [bind, Except.bind, pure, Except.pure]
  rw [hat.jedge]
  simp only [hb]
  cases t.ex e <;> simp

theorem At.flip {c : Cross K} {e : DE} (hat : At m c e) :
    At m { c with done := 4, left := -c.left, fwd := -c.fwd } e.rev := by
  constructor
  · simp only; rw [hat.edge, DE.rev_edge]
  · simp only; rw [hat.left, DE.rev_left]
  · simp only; rw [hat.fwd, DE.rev_fwd]
  · simp only; rw [hat.jedge, DE.rev_isJ]

/-- one round of the second pass that does not close the curve -/
theorem loop2_step {c : Cross K} {e d0 : DE} {level0 : Bool} (fuel : Nat) (hat : At m c e) (hl : Link m t c.data)
    (hs : SadOK m t c.saddle) (hex : t.ex e = true) (hcut : t.cut e) (hb0 : InBox m.imax m.jmax (d0.i, d0.j))
    (hd : c.done = 0) (hn : c.n = 0 ∨ ¬ (level0 = true ∧ e = d0)) :
    ∃ c1, crossLoop m lev true (d0.edgeOf m.imax) (d0.leftOf m.imax) level0 (fuel + 1) c =
        crossLoop m lev true (d0.edgeOf m.imax) (d0.leftOf m.imax) level0 fuel c1 ∧
      c1.n = c.n + 1 ∧ c1.pts = c.pts ++ [vtx m lev e] ∧ c1.data = c.data ∧ SadOK m t c1.saddle ∧ c1.count = c.count ∧
      (t.ex (t.next e) = true → At m c1 (t.next e) ∧ c1.done = 0) ∧
      (t.ex (t.next e) = false → At m c1 (t.next e).rev ∧ c1.done = 4) := by
  obtain ⟨b0, b1, b2, b3, b4, b5⟩ := ok.box hex
  have h2 := ok.imax2 hex
  have hce : ∀ pts, checkEdge m true (d0.edgeOf m.imax) (d0.leftOf m.imax) level0 { c with pts := pts } =
      .ok ({ c with pts := pts }, false) := by
    intro pts
    unfold checkEdge
    split
    · rename_i h
      simp only
      rw [hat.edge]
      have hr : rd m.nreg c.data (e.edgeOf m.imax) = .ok (c.data (e.edgeOf m.imax)) := rd_ok (range_nreg b5)
      rw [hr]
      simp only [bind, Except.bind, pure, Except.pure, Bool.true_eq_false, false_and, if_false]
      by_cases hh : e.edgeOf m.imax = d0.edgeOf m.imax ∧ c.left = d0.leftOf m.imax
      · rw [if_pos hh]
        rw [hat.left] at hh
        have := code_inj h2 b5 hb0 hh.1 hh.2
        rcases hn with hn | hn
        · exact absurd hn h.2.2
        · have : level0 = false := by
            cases level0
            · rfl
            · exact absurd ⟨rfl, this⟩ hn
          rw [this]; rfl
      · rw [if_neg hh]
    · rfl
  rw [crossLoop]
  simp only [if_true]
  rw [hat.edge, hat.fwd, DE.point0 h2, DE.point1 h2, markPoint_ok b0 b1]
  simp only [bind, Except.bind, pure, Except.pure]
  rw [show ({ edge := e.edgeOf m.imax, left := c.left, fwd := e.fwdOf m.imax, jedge := c.jedge, n := c.n, done := c.done, data := c.data, saddle := c.saddle, count := c.count, pts := c.pts ++ [vtx m lev e] } : Cross K) = { c with pts := c.pts ++ [vtx m lev e] } by rw [← hat.edge, ← hat.fwd]]
  rw [hce]
  simp only [Bool.false_eq_true, if_false]
  rw [if_neg (by simp [hd])]
  have hat' : At m { c with n := c.n + 1, pts := c.pts ++ [vtx m lev e] } e := ⟨hat.edge, hat.left, hat.fwd, hat.jedge⟩
  obtain ⟨s', hs', c', ha', hz, e1, e2, e3, e4, e5, e6⟩ := crossZone_next ok hat' hl hs hex hcut
  rw [hz]
  simp only
  have hl' : Link m t c'.data := by rw [e3]; exact hl
  rw [boundary2 ok _ _ ha' hl' (by rw [t.ex_rev_next]; exact hex)]
  simp only
  refine ⟨_, rfl, ?_⟩
  cases hx : t.ex (t.next e)
  · simp only [Bool.false_eq_true, if_false]
    refine ⟨e1, e6, e3, by rw [e4]; exact hs', e5, by simp, fun _ => ⟨ha'.flip ok, trivial⟩⟩
  · simp only [if_true]
    refine ⟨e1, e6, e3, by rw [e4]; exact hs', e5, fun _ => ⟨ha', by rw [e2]; exact hd⟩, by simp⟩

/-- the round that closes the curve -/
theorem loop2_close {c : Cross K} {e : DE} (fuel : Nat) (hat : At m c e) (hex : t.ex e = true)
    (hJ : e.isJ = false) (hd : c.done = 0) (hn : c.n ≠ 0) :
    crossLoop m lev true (e.edgeOf m.imax) (e.leftOf m.imax) true (fuel + 1) c =
      .ok { c with n := c.n + 1, pts := c.pts ++ [vtx m lev e], done := 3 } := by
  obtain ⟨b0, b1, b2, b3, b4, b5⟩ := ok.box hex
  have h2 := ok.imax2 hex
  rw [crossLoop]
  simp only [if_true]
  rw [hat.edge, hat.fwd, DE.point0 h2, DE.point1 h2, markPoint_ok b0 b1]
  have hr : rd m.nreg c.data (e.edgeOf m.imax) = .ok (c.data (e.edgeOf m.imax)) := rd_ok (range_nreg b5)
  simp only [bind, Except.bind, pure, Except.pure, checkEdge, hd, hn, hat.jedge, hJ, hr, hat.left, ne_eq,
    not_false_eq_true, and_self, if_true, Bool.true_eq_false, false_and, if_false, reduceCtorEq, Bool.false_eq_true]


/-- the last round after a boundary was reached -/
theorem loop2_end {c : Cross K} {e : DE} (edge0 left0 : Int) (level0 : Bool) (fuel : Nat) (hat : At m c e) (hex : t.ex e = true)
    (hd : c.done = 4) :
    crossLoop m lev true edge0 left0 level0 (fuel + 1) c =
      .ok { c with n := c.n + 1, pts := c.pts ++ [vtx m lev e] } := by
  obtain ⟨b0, b1, b2, b3, b4, b5⟩ := ok.box hex
  have h2 := ok.imax2 hex
  rw [crossLoop]
  simp only [if_true]
  rw [hat.edge, hat.fwd, DE.point0 h2, DE.point1 h2, markPoint_ok b0 b1]
  simp only [bind, Except.bind, pure, Except.pure, checkEdge, hd]
  rw [if_neg (by omega)]
  simp

end

/-- the directed edges passed in `r` steps -/
def path (t : Topo) : Nat → DE → List DE
  | 0, e => [e]
  | r + 1, e => e :: path t r (t.next e)

theorem path_length (t : Topo) (r : Nat) (e : DE) : (path t r e).length = r + 1 := by
  induction r generalizing e with
  | zero => rfl
  | succ r ih => simp [path, ih]

theorem path_get (t : Topo) (r : Nat) (e : DE) (s : Nat) (hs : s ≤ r) : (path t r e)[s]? = some (t.next^[s] e) := by
  induction r generalizing e s with
  | zero => obtain rfl : s = 0 := by omega
            rfl
  | succ r ih =>
    cases s with
    | zero => rfl
    | succ s => rw [path, List.getElem?_cons_succ, ih _ _ (by omega)]; rfl

theorem iter_cut {t : Topo} {e : DE} (h : t.cut e) (s : Nat) : t.cut (t.next^[s] e) := by
  induction s with
  | zero => exact h
  | succ s ih => rw [Function.iterate_succ_apply']; exact t.cut_next ih

/-- `zone_crosser` on the second pass: `r` zones are crossed until a boundary is reached or the curve closes -/
theorem loop2_run {m : Mesh K} {lev : K} {t : Topo} (ok : TopoOK m lev t) {d0 : DE} {level0 : Bool}
    (hb0 : InBox m.imax m.jmax (d0.i, d0.j)) (hJ : level0 = true → d0.isJ = false) (r : Nat) :
    ∀ (c : Cross K) (e : DE) (fuel : Nat), At m c e → Link m t c.data → SadOK m t c.saddle → t.cut e → c.done = 0 →
      1 ≤ r → r + 1 ≤ fuel → (∀ s < r, t.ex (t.next^[s] e) = true) →
      (∀ s < r, c.n ≠ 0 ∨ s ≠ 0 → ¬ (level0 = true ∧ t.next^[s] e = d0)) →
      (t.ex (t.next^[r] e) = true → level0 = true ∧ t.next^[r] e = d0) →
      ∃ c', crossLoop m lev true (d0.edgeOf m.imax) (d0.leftOf m.imax) level0 fuel c = .ok c' ∧
        c'.n = c.n + r + 1 ∧ c'.pts = c.pts ++ (path t r e).map (vtx m lev) ∧ c'.data = c.data ∧ SadOK m t c'.saddle ∧
        c'.count = c.count ∧ c'.done = if t.ex (t.next^[r] e) then 3 else 4 := by
  induction r with
  | zero => intro c e fuel _ _ _ _ _ h; omega
  | succ r ih =>
    intro c e fuel hat hl hs hcut hd _ hf hin hnc hend
    obtain ⟨fuel, rfl⟩ : ∃ f, fuel = f + 1 := ⟨fuel - 1, by omega⟩
    have hex := hin 0 (by omega)
    obtain ⟨c1, e0, e1, e2, e3, e4, e5, e6, e7⟩ := loop2_step ok fuel hat hl hs hex hcut hb0 hd (level0 := level0) (by
      by_cases h : c.n = 0
      · exact Or.inl h
      · exact Or.inr (hnc 0 (by omega) (Or.inl h)))
    rw [e0]
    obtain ⟨fuel, rfl⟩ : ∃ f, fuel = f + 1 := ⟨fuel - 1, by omega⟩
    rcases Nat.eq_zero_or_pos r with h0 | hpos
    · subst h0
      simp only [path, List.map_cons, List.map_nil]
      change t.ex (t.next e) = true → level0 = true ∧ t.next e = d0 at hend
      change ∃ c' : Cross K, _ ∧ _ ∧ _ ∧ _ ∧ _ ∧ _ ∧ c'.done = if t.ex (t.next e) then 3 else 4
      cases hx : t.ex (t.next e)
      · obtain ⟨ha, hd4⟩ := e7 hx
        have hr : t.ex (t.next e).rev = true := by rw [t.ex_rev_next]; exact hex
        rw [loop2_end ok _ _ _ _ ha hr hd4]
        refine ⟨_, rfl, by simp only; omega, ?_, e3, e4, e5, hd4⟩
        simp only
        rw [e2, vtx_rev ok (t.cut_next hcut)]
        simp
      · obtain ⟨ha, hd0⟩ := e6 hx
        obtain ⟨hlv, hee⟩ := hend hx
        subst hlv
        rw [← hee, loop2_close ok _ ha hx (by rw [hee]; exact hJ rfl) hd0 (by omega)]
        refine ⟨_, rfl, by simp only; omega, ?_, e3, e4, e5, rfl⟩
        simp only
        rw [e2]
        simp
    · have hx : t.ex (t.next e) = true := hin 1 (by omega)
      obtain ⟨ha, hd0⟩ := e6 hx
      obtain ⟨c', g0, g1, g2, g3, g4, g5, g6⟩ := ih c1 (t.next e) (fuel + 1) ha (by rw [e3]; exact hl) e4 (t.cut_next hcut) hd0
        hpos (by omega) (fun s hs => hin (s + 1) (by omega))
        (fun s hs _ => hnc (s + 1) (by omega) (Or.inr (by omega))) hend
      refine ⟨c', g0, by omega, ?_, by rw [g3, e3], g4, by rw [g5, e5], g6⟩
      rw [g2, e2]
      simp [path]

end Trackeddy.Cntr
