import Verif.Proofs.Cntr.Reorder
import Verif.Spec.Contour

/-!
From directed edges of the tracer to the sides of grid cells.
-/
namespace Trackeddy.Cntr

open Trackeddy.Spec

variable {K : Type} [Field K] [LinearOrder K]

/-- the data of a mesh by coordinates -/
def gridOf (m : Mesh K) (mask : Option (Nat → Bool)) : Grid K where
  nx := m.imax
  ny := m.jmax
  x p := m.x ((p.1 + p.2 * m.imax : ℕ) : Int)
  y p := m.y ((p.1 + p.2 * m.imax : ℕ) : Int)
  z p := m.z ((p.1 + p.2 * m.imax : ℕ) : Int)
  masked p := match mask with
    | some k => k (p.1 + p.2 * m.imax)
    | none => false

def topoOf (m : Mesh K) (mask : Option (Nat → Bool)) (rjunk : Nat → Bool) (lev : K) : Topo :=
  mkTopo m (mask.map fun k => maskZones m.imax m.jmax k rjunk) lev

def DE.side (e : DE) : Side :=
  match e with
  | ⟨i, j, .R⟩ => ⟨i.toNat, j.toNat - 1, true⟩
  | ⟨i, j, .L⟩ => ⟨i.toNat, j.toNat - 1, true⟩
  | ⟨i, j, .U⟩ => ⟨i.toNat - 1, j.toNat, false⟩
  | ⟨i, j, .D⟩ => ⟨i.toNat - 1, j.toNat, false⟩

theorem DE.side_rev (e : DE) : e.rev.side = e.side := by rcases e with ⟨i, j, _ | _ | _ | _⟩ <;> rfl

/-- grid coordinates -/
def toN (p : Int × Int) : ℕ × ℕ := (p.1.toNat, p.2.toNat)

section
variable {m : Mesh K} {mask : Option (Nat → Bool)} {rjunk : Nat → Bool} {lev : K}

theorem idx_toN {p : Int × Int} (h : 0 ≤ p.1 ∧ 0 ≤ p.2) : (((toN p).1 + (toN p).2 * m.imax : ℕ) : Int) = idx m.imax p := by
  unfold toN idx
  push_cast
  rw [Int.toNat_of_nonneg h.1, Int.toNat_of_nonneg h.2]

theorem above_iff {p : Int × Int} (h : 0 ≤ p.1 ∧ 0 ≤ p.2) :
    (gridOf m mask).Above lev (toN p) ↔ (topoOf m mask rjunk lev).h p = true := by
  have : (topoOf m mask rjunk lev).h p = m.high lev (idx m.imax p) := rfl
  rw [this]
  unfold Grid.Above gridOf Mesh.high
  simp only
  rw [idx_toN h]
  cases m.z (idx m.imax p) <;> simp

theorem zone_iff (i j : Int) : (topoOf m mask rjunk lev).zone i j = true ↔
    1 ≤ i ∧ 1 ≤ j ∧ (gridOf m mask).IsCell (i.toNat - 1, j.toNat - 1) := by
  unfold topoOf mkTopo Grid.IsCell gridOf cornersOf
  simp only [Bool.and_eq_true, decide_eq_true_eq]
  constructor
  · rintro ⟨⟨h1, h2, h3, h4⟩, hz⟩
    refine ⟨h1, h3, by omega, by omega, ?_⟩
    have hb : InBox m.imax m.jmax (i, j) := ⟨by simp only; omega, h2, by simp only; omega, h4⟩
    obtain ⟨e1, e2, e3, e4, e5⟩ := idx_toNat hb
    cases mask with
    | none => simp
    | some k =>
      unfold zf at hz
      split at hz
      · simp at hz
      · simp only [Option.map_some] at hz
        rw [maskZones_iff (by omega)] at hz
        obtain ⟨_, _, _, a1, a2, a3, a4⟩ := hz
        obtain ⟨u, hu⟩ : ∃ u, i.toNat = u + 1 := ⟨i.toNat - 1, by omega⟩
        obtain ⟨v, hv⟩ : ∃ v, j.toNat = v + 1 := ⟨j.toNat - 1, by omega⟩
        rw [e1, hu, hv] at a1 a2 a3 a4
        rw [hu, hv]
        simp only [Nat.add_sub_cancel, List.mem_cons, List.not_mem_nil, or_false, forall_eq_or_imp, forall_eq]
        have g1 : u + 1 + (v + 1) * m.imax - 1 = u + (v + 1) * m.imax := by omega
        have g2 : u + 1 + (v + 1) * m.imax - m.imax = u + 1 + v * m.imax := by rw [Nat.add_mul]; omega
        rw [g1] at a2
        rw [g2] at a3 a4
        rw [show u + 1 + v * m.imax - 1 = u + v * m.imax by omega] at a4
        exact ⟨a4, a3, a2, a1⟩
  · rintro ⟨h1, h3, h2, h4, hc⟩
    have hb : InBox m.imax m.jmax (i, j) := ⟨by simp only; omega, by simp only; omega, by simp only; omega, by simp only; omega⟩
    obtain ⟨e1, e2, e3, e4, e5⟩ := idx_toNat hb
    refine ⟨⟨h1, by omega, h3, by omega⟩, ?_⟩
    obtain ⟨u, hu⟩ : ∃ u, i.toNat = u + 1 := ⟨i.toNat - 1, by omega⟩
    obtain ⟨v, hv⟩ : ∃ v, j.toNat = v + 1 := ⟨j.toNat - 1, by omega⟩
    have hlt : ¬ (idx m.imax (i, j)).toNat ≤ m.imax := by
      rw [e1, hu, hv, Nat.add_mul]
      omega
    unfold zf
    rw [if_neg hlt]
    cases mask with
    | none =>
      simp only [Option.map_none, decide_eq_true_eq]
      rw [e1, hu, hv]
      have : u + 1 + (v + 1) * m.imax - m.imax - 1 = u + v * m.imax := by rw [Nat.add_mul]; omega
      rw [this, Nat.add_mul_mod_self_right, Nat.add_mul_div_right _ _ (by omega), Nat.mod_eq_of_lt (by omega),
        Nat.div_eq_of_lt (by omega)]
      omega
    | some k =>
      simp only [Option.map_some]
      rw [maskZones_iff (by omega)]
      rw [hu, hv] at hc
      simp only [Nat.add_sub_cancel, List.mem_cons, List.not_mem_nil, or_false, forall_eq_or_imp, forall_eq] at hc
      obtain ⟨a4, a3, a2, a1⟩ := hc
      refine ⟨e5, by omega, by omega, ?_⟩
      rw [e1, hu, hv]
      have g1 : u + 1 + (v + 1) * m.imax - 1 = u + (v + 1) * m.imax := by omega
      have g2 : u + 1 + (v + 1) * m.imax - m.imax = u + 1 + v * m.imax := by rw [Nat.add_mul]; omega
      rw [g1, g2, show u + 1 + v * m.imax - 1 = u + v * m.imax by omega]
      exact ⟨a1, a2, a3, a4⟩

/-- the cell a directed edge points into -/
def DE.cell (e : DE) : ℕ × ℕ := (e.zn.1.toNat - 1, e.zn.2.toNat - 1)

theorem ex_cell {e : DE} (h : (topoOf m mask rjunk lev).ex e = true) : (gridOf m mask).IsCell e.cell ∧ e.side ∈ sidesOf e.cell ∧
    1 ≤ e.zn.1 ∧ 1 ≤ e.zn.2 := by
  unfold Topo.ex at h
  rw [zone_iff] at h
  refine ⟨h.2.2, ?_, h.1, h.2.1⟩
  obtain ⟨h1, h2, _⟩ := h
  unfold DE.cell sidesOf
  rcases e with ⟨i, j, _ | _ | _ | _⟩ <;> simp only [DE.zn, DE.side] at h1 h2 ⊢ <;>
    simp only [List.mem_cons, Side.mk.injEq, Bool.false_eq_true, Bool.true_eq_false, and_false, and_true, List.not_mem_nil,
      or_false, false_or, true_and, eq_self_iff_true] <;> omega

/-- end points of a side -/
theorem side_ends {e : DE} (h0 : 0 ≤ e.p0.1 ∧ 0 ≤ e.p0.2) (h1 : 0 ≤ e.p1.1 ∧ 0 ≤ e.p1.2) :
    (e.side.a = toN e.p0 ∧ e.side.b = toN e.p1) ∨ (e.side.a = toN e.p1 ∧ e.side.b = toN e.p0) := by
  rcases e with ⟨i, j, _ | _ | _ | _⟩ <;> simp only [DE.p0, DE.p1, DE.rev] at h0 h1
  · right
    simp only [DE.side, Side.a, Side.b, toN, DE.p0, DE.p1, DE.rev, if_true, Prod.mk.injEq, true_and]
    omega
  · left
    simp only [DE.side, Side.a, Side.b, toN, DE.p0, DE.p1, DE.rev, if_true, Prod.mk.injEq, true_and]
    omega
  · left
    simp only [DE.side, Side.a, Side.b, toN, DE.p0, DE.p1, DE.rev, Bool.false_eq_true, if_false, Prod.mk.injEq, and_true]
    omega
  · right
    simp only [DE.side, Side.a, Side.b, toN, DE.p0, DE.p1, DE.rev, Bool.false_eq_true, if_false, Prod.mk.injEq, and_true]
    omega

theorem side_crossed {e : DE} (h0 : 0 ≤ e.p0.1 ∧ 0 ≤ e.p0.2) (h1 : 0 ≤ e.p1.1 ∧ 0 ≤ e.p1.2) :
    (gridOf m mask).Crossed lev e.side ↔ (topoOf m mask rjunk lev).cut e := by
  unfold Grid.Crossed Topo.cut
  rcases side_ends h0 h1 with ⟨ha, hb⟩ | ⟨ha, hb⟩
  · rw [ha, hb, above_iff (rjunk := rjunk) h0, above_iff (rjunk := rjunk) h1]
    cases (topoOf m mask rjunk lev).h e.p0 <;> cases (topoOf m mask rjunk lev).h e.p1 <;> simp
  · rw [ha, hb, above_iff (rjunk := rjunk) h0, above_iff (rjunk := rjunk) h1]
    cases (topoOf m mask rjunk lev).h e.p0 <;> cases (topoOf m mask rjunk lev).h e.p1 <;> simp

theorem interpolate_eq (lev : K) (z0 z1 : Option K) (x0 x1 y0 y1 : K) :
    interpolate lev z0 z1 x0 x1 y0 y1 = match z0, z1 with
      | some u, some v => some (x0 + (lev - u) / (v - u) * (x1 - x0), y0 + (lev - u) / (v - u) * (y1 - y0))
      | _, _ => none := by
  cases z0 <;> cases z1 <;> simp only [interpolate]
  rw [add_comm x0, add_comm y0]

theorem vtx_point {e : DE} (h0 : 0 ≤ e.p0.1 ∧ 0 ≤ e.p0.2) (h1 : 0 ≤ e.p1.1 ∧ 0 ≤ e.p1.2)
    (hc : (topoOf m mask rjunk lev).cut e) : vtx m lev e = (gridOf m mask).point lev e.side := by
  have ok : TopoOK m lev (topoOf m mask rjunk lev) := mkTopo_ok m _ lev
  rcases side_ends h0 h1 with ⟨ha, hb⟩ | ⟨ha, hb⟩
  · unfold Grid.point
    rw [ha, hb]
    unfold vtx gridOf
    simp only
    rw [idx_toN h0, idx_toN h1, interpolate_eq]
    rfl
  · rw [← vtx_rev ok hc]
    unfold Grid.point
    rw [ha, hb]
    unfold vtx gridOf
    simp only
    rw [idx_toN h0, idx_toN h1, interpolate_eq, DE.p0_rev, DE.p1_rev]
    rfl

theorem ex_nonneg {e : DE} (h : (topoOf m mask rjunk lev).ex e = true ∨ (topoOf m mask rjunk lev).ex e.rev = true) :
    (0 ≤ e.p0.1 ∧ 0 ≤ e.p0.2) ∧ (0 ≤ e.p1.1 ∧ 0 ≤ e.p1.2) := by
  have ok : TopoOK m lev (topoOf m mask rjunk lev) := mkTopo_ok m _ lev
  rcases h with h | h
  · obtain ⟨h0, h1, _⟩ := ok.box h
    exact ⟨⟨h0.1, h0.2.2.1⟩, ⟨h1.1, h1.2.2.1⟩⟩
  · obtain ⟨h0, h1, _⟩ := ok.box_rev h
    exact ⟨⟨h0.1, h0.2.2.1⟩, ⟨h1.1, h1.2.2.1⟩⟩

/-- the cells on both sides of an edge -/
theorem side_cells {e : DE} (h0 : 0 ≤ e.p0.1 ∧ 0 ≤ e.p0.2) (h1 : 0 ≤ e.p1.1 ∧ 0 ≤ e.p1.2) (c : ℕ × ℕ) :
    ((gridOf m mask).IsCell c ∧ e.side ∈ sidesOf c) ↔
      ((topoOf m mask rjunk lev).ex e = true ∧ c = e.cell) ∨ ((topoOf m mask rjunk lev).ex e.rev = true ∧ c = e.rev.cell) := by
  constructor
  · rintro ⟨hc, hs⟩
    have key : (1 ≤ e.zn.1 ∧ 1 ≤ e.zn.2 ∧ c = e.cell) ∨ (1 ≤ e.rev.zn.1 ∧ 1 ≤ e.rev.zn.2 ∧ c = e.rev.cell) := by
      obtain ⟨c1, c2⟩ := c
      unfold sidesOf at hs
      rcases e with ⟨i, j, _ | _ | _ | _⟩ <;> simp only [DE.p0, DE.p1, DE.rev, DE.side, DE.cell, DE.zn] at h0 h1 hs ⊢ <;>
        simp only [List.mem_cons, Side.mk.injEq, Bool.false_eq_true, Bool.true_eq_false, and_false, and_true, List.not_mem_nil,
          or_false, false_or, Prod.mk.injEq] at hs ⊢ <;> omega
    rcases key with ⟨k1, k2, rfl⟩ | ⟨k1, k2, rfl⟩
    · left
      refine ⟨?_, rfl⟩
      unfold Topo.ex
      rw [zone_iff]
      exact ⟨k1, k2, hc⟩
    · right
      refine ⟨?_, rfl⟩
      unfold Topo.ex
      rw [zone_iff]
      exact ⟨k1, k2, hc⟩
  · rintro (⟨h, rfl⟩ | ⟨h, rfl⟩)
    · exact ⟨(ex_cell h).1, (ex_cell h).2.1⟩
    · have := ex_cell h
      rw [DE.side_rev] at this
      exact ⟨this.1, this.2.1⟩

theorem side_inMesh {e : DE} (h0 : 0 ≤ e.p0.1 ∧ 0 ≤ e.p0.2) (h1 : 0 ≤ e.p1.1 ∧ 0 ≤ e.p1.2) :
    (gridOf m mask).InMesh e.side ↔ (topoOf m mask rjunk lev).ex e = true ∨ (topoOf m mask rjunk lev).ex e.rev = true := by
  unfold Grid.InMesh
  simp only [side_cells (rjunk := rjunk) (lev := lev) h0 h1]
  constructor
  · rintro ⟨c, h | h⟩
    · exact Or.inl h.1
    · exact Or.inr h.1
  · rintro (h | h)
    · exact ⟨_, Or.inl ⟨h, rfl⟩⟩
    · exact ⟨_, Or.inr ⟨h, rfl⟩⟩

theorem side_border {e : DE} (h : (topoOf m mask rjunk lev).ex e = true) (h' : (topoOf m mask rjunk lev).ex e.rev = false) :
    (gridOf m mask).Border e.side := by
  obtain ⟨h0, h1⟩ := ex_nonneg (Or.inl h)
  refine ⟨e.cell, (side_cells (rjunk := rjunk) (lev := lev) h0 h1 _).mpr (Or.inl ⟨h, rfl⟩), ?_⟩
  intro c hc
  rcases (side_cells (rjunk := rjunk) (lev := lev) h0 h1 c).mp hc with h2 | h2
  · exact h2.2
  · rw [h'] at h2; simp at h2

theorem side_inj {a b : DE} (ha0 : 0 ≤ a.p0.1 ∧ 0 ≤ a.p0.2) (ha1 : 0 ≤ a.p1.1 ∧ 0 ≤ a.p1.2)
    (hb0 : 0 ≤ b.p0.1 ∧ 0 ≤ b.p0.2) (hb1 : 0 ≤ b.p1.1 ∧ 0 ≤ b.p1.2) (h : a.side = b.side) : a = b ∨ a = b.rev := by
  rcases a with ⟨i, j, _ | _ | _ | _⟩ <;> rcases b with ⟨i', j', _ | _ | _ | _⟩ <;>
    simp only [DE.side, DE.p0, DE.p1, DE.rev, Side.mk.injEq, Bool.false_eq_true, Bool.true_eq_false, and_false, and_true] at * <;>
    simp only [DE.mk.injEq, reduceCtorEq, and_false, and_true, or_false, false_or] <;> omega

theorem side_surj {e : Side} (hm : (gridOf m mask).InMesh e) (hc : (gridOf m mask).Crossed lev e) :
    ∃ d : DE, d.side = e ∧ (topoOf m mask rjunk lev).up d ∧
      ((topoOf m mask rjunk lev).ex d = true ∨ (topoOf m mask rjunk lev).ex d.rev = true) := by
  have key : ∃ d : DE, d.side = e ∧ (0 ≤ d.p0.1 ∧ 0 ≤ d.p0.2) ∧ (0 ≤ d.p1.1 ∧ 0 ≤ d.p1.2) := by
    obtain ⟨i, j, v⟩ := e
    cases v
    · refine ⟨⟨i + 1, j, .U⟩, ?_, ?_, ?_⟩
      · simp only [DE.side, Side.mk.injEq, and_true]; omega
      · simp only [DE.p0]; omega
      · simp only [DE.p1, DE.p0, DE.rev]; omega
    · refine ⟨⟨i, j + 1, .R⟩, ?_, ?_, ?_⟩
      · simp only [DE.side, Side.mk.injEq, and_true]; omega
      · simp only [DE.p0]; omega
      · simp only [DE.p1, DE.p0, DE.rev]; omega
  obtain ⟨d, rfl, h0, h1⟩ := key
  have hx := (side_inMesh (rjunk := rjunk) (lev := lev) h0 h1).mp hm
  have hcut := (side_crossed (rjunk := rjunk) h0 h1).mp hc
  rcases Topo.up_or hcut with hu | hu
  · exact ⟨d, rfl, hu, hx⟩
  · exact ⟨d.rev, d.side_rev, hu, by rw [DE.rev_rev]; exact hx.symm⟩

theorem centre_iff {i j : Int} (hi : 1 ≤ i) (hj : 1 ≤ j) :
    (gridOf m mask).CentreAbove lev (i.toNat - 1, j.toNat - 1) ↔ (topoOf m mask rjunk lev).sad i j = true := by
  have e : ∀ (a b : ℕ), (((a + b * m.imax : ℕ) : Int)) = idx m.imax ((a : Int), (b : Int)) := by
    intro a b; unfold idx; push_cast; ring
  unfold topoOf mkTopo Grid.CentreAbove gridOf
  simp only [e]
  have c1 : ((i.toNat - 1 : ℕ) : Int) = i - 1 := by omega
  have c2 : ((j.toNat - 1 : ℕ) : Int) = j - 1 := by omega
  have c3 : ((i.toNat - 1 + 1 : ℕ) : Int) = i := by omega
  have c4 : ((j.toNat - 1 + 1 : ℕ) : Int) = j := by omega
  rw [c1, c2, c3, c4]
  generalize m.z (idx m.imax (i - 1, j - 1)) = a
  generalize m.z (idx m.imax (i, j - 1)) = b
  generalize m.z (idx m.imax (i - 1, j)) = c
  generalize m.z (idx m.imax (i, j)) = d
  constructor
  · rintro ⟨p, q, r, s, rfl, rfl, rfl, rfl, h⟩
    simp only [centreHigh, decide_eq_true_eq]
    rw [show s + r + q + p = p + q + r + s by ring]
    exact h
  · intro h
    cases a <;> cases b <;> cases c <;> cases d <;> simp only [centreHigh, Bool.false_eq_true, decide_eq_true_eq] at h
    rename_i p q r s
    refine ⟨p, q, r, s, rfl, rfl, rfl, rfl, ?_⟩
    rw [show s + r + q + p = p + q + r + s by ring] at h
    exact h

theorem sides_around {e : DE} (h : (topoOf m mask rjunk lev).ex e = true) :
    (e.turnF.side ∈ sidesOf e.cell ∧ e.turnB.side ∈ sidesOf e.cell ∧ e.straight.side ∈ sidesOf e.cell) ∧
    (e.side ≠ e.turnF.side ∧ e.side ≠ e.turnB.side ∧ e.side ≠ e.straight.side) := by
  obtain ⟨_, _, h1, h2⟩ := ex_cell h
  have h3 := (ex_nonneg (Or.inl h)).1
  have h4 := (ex_nonneg (Or.inl h)).2
  unfold sidesOf
  rcases e with ⟨i, j, _ | _ | _ | _⟩ <;> simp only [DE.p0, DE.p1, DE.rev, DE.zn, DE.cell, DE.side, DE.turnF, DE.turnB, DE.straight] at h1 h2 h3 h4 ⊢ <;>
    simp only [List.mem_cons, Side.mk.injEq, Bool.false_eq_true, Bool.true_eq_false, and_false, and_true, List.not_mem_nil,
      or_false, false_or, ne_eq, not_false_eq_true, true_and, reduceCtorEq] <;> omega

theorem joined_next {e : DE} (h : (topoOf m mask rjunk lev).ex e = true) (hc : (topoOf m mask rjunk lev).cut e) :
    (gridOf m mask).Joined lev e.side ((topoOf m mask rjunk lev).next e).side := by
  set t := topoOf m mask rjunk lev with ht
  have ok : TopoOK m lev t := mkTopo_ok m _ lev
  obtain ⟨hcell, hside, z1, z2⟩ := ex_cell h
  obtain ⟨⟨m1, m2, m3⟩, n1, n2, n3⟩ := sides_around h
  obtain ⟨hp0, hp1⟩ := ex_nonneg (Or.inl h)
  have hxr : t.ex (t.next e).rev = true := by rw [t.ex_rev_next]; exact h
  obtain ⟨hn0, hn1⟩ := ex_nonneg (e := t.next e) (Or.inr hxr)
  have hcn := t.cut_next hc
  refine ⟨e.cell, hcell, hside, ?_, ?_, (side_crossed (rjunk := rjunk) hp0 hp1).mpr hc,
    (side_crossed (rjunk := rjunk) hn0 hn1).mpr hcn, ?_⟩
  · rcases t.next_cases e with h' | h' | h' <;> rw [h'] <;> assumption
  · rcases t.next_cases e with h' | h' | h' <;> rw [h'] <;> assumption
  · intro hall
    obtain ⟨_, _, bq0, bq1, _⟩ := ok.box h
    have q0n : 0 ≤ e.q0.1 ∧ 0 ≤ e.q0.2 := ⟨bq0.1, bq0.2.2.1⟩
    have q1n : 0 ≤ e.q1.1 ∧ 0 ≤ e.q1.2 := ⟨bq1.1, bq1.2.2.1⟩
    have cF : t.cut e.turnF := (side_crossed (rjunk := rjunk) (by rw [Topo.turnF_p0]; exact q1n)
      (by rw [Topo.turnF_p1]; exact hp1)).mp (hall _ m1)
    have cB : t.cut e.turnB := (side_crossed (rjunk := rjunk) (by rw [Topo.turnB_p0]; exact hp0)
      (by rw [Topo.turnB_p1]; exact q0n)).mp (hall _ m2)
    unfold Topo.cut at cF cB hc
    rw [Topo.turnF_p0, Topo.turnF_p1] at cF
    rw [Topo.turnB_p0, Topo.turnB_p1] at cB
    have hce : (gridOf m mask).CentreAbove lev e.cell ↔ t.sd e = true := by
      unfold DE.cell Topo.sd
      exact centre_iff z1 z2
    have ends := side_ends hp0 hp1
    have hq : t.h e.p0 = t.h e.q1 := by
      cases g0 : t.h e.p0 <;> cases g1 : t.h e.p1 <;> cases g2 : t.h e.q1 <;> simp_all
    have hq' : (!t.h e.p0) = t.h e.q0 := by
      cases g0 : t.h e.p0 <;> cases g2 : t.h e.q0 <;> simp_all
    have h1' : t.h e.p1 = !t.h e.p0 := by
      cases g0 : t.h e.p0 <;> cases g2 : t.h e.p1 <;> simp_all
    by_cases hturn : (if !t.h e.p0 then !t.sd e else t.sd e) = true
    · have hnx : t.next e = e.turnF := by
        unfold Topo.next
        rw [if_pos hq, if_pos hq', if_pos hturn]
      have endsF := side_ends (e := e.turnF) (by rw [Topo.turnF_p0]; exact q1n) (by rw [Topo.turnF_p1]; exact hp1)
      rw [Topo.turnF_p0, Topo.turnF_p1] at endsF
      refine ⟨toN e.p1, ?_, ?_, ?_⟩
      · rcases ends with ⟨a, b⟩ | ⟨a, b⟩
        · exact Or.inr b.symm
        · exact Or.inl a.symm
      · rw [hnx]
        rcases endsF with ⟨a, b⟩ | ⟨a, b⟩
        · exact Or.inr b.symm
        · exact Or.inl a.symm
      · rw [hce, above_iff (rjunk := rjunk) hp1, ← ht, h1']
        generalize t.h e.p0 = u at hturn ⊢
        generalize t.sd e = v at hturn ⊢
        revert u v
        decide
    · have hnx : t.next e = e.turnB := by
        unfold Topo.next
        rw [if_pos hq, if_pos hq', if_neg hturn]
      have endsB := side_ends (e := e.turnB) (by rw [Topo.turnB_p0]; exact hp0) (by rw [Topo.turnB_p1]; exact q0n)
      rw [Topo.turnB_p0, Topo.turnB_p1] at endsB
      refine ⟨toN e.p0, ?_, ?_, ?_⟩
      · rcases ends with ⟨a, b⟩ | ⟨a, b⟩
        · exact Or.inl a.symm
        · exact Or.inr b.symm
      · rw [hnx]
        rcases endsB with ⟨a, b⟩ | ⟨a, b⟩
        · exact Or.inl a.symm
        · exact Or.inr b.symm
      · rw [hce, above_iff (rjunk := rjunk) hp0, ← ht]
        generalize t.h e.p0 = u at hturn ⊢
        generalize t.sd e = v at hturn ⊢
        revert u v
        decide

end
end Trackeddy.Cntr
