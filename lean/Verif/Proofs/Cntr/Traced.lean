import Verif.Proofs.Cntr.Starts
import Verif.Spec.Traced

/-!
Start, direction and order of the contour lines in terms of the sides of the grid cells.
-/
namespace Trackeddy.Cntr
open Trackeddy.Spec

variable {K : Type} [Field K] [LinearOrder K]

section
variable {m : Mesh K} {reg : Option (Nat → Bool)} {lev : K} {s : Site} {fl : Option Nat}

/-- which directed edges `data_init` marks as starts -/
theorem inited_marks (hi : Inited m reg lev s fl) (hr : RegOK m reg) (a : DE) :
    marked m s.data a ↔ (mkTopo m reg lev).ex a = true ∧ (mkTopo m reg lev).cut a ∧
      ((mkTopo m reg lev).ex a.rev = false ∨ InnerStart (mkTopo m reg lev) a) := by
  have ok := mkTopo_ok m reg lev
  have hl := inited_link hi hr
  have mo := inited_marksOK hi hr
  have hbit : ∀ {i j : Int} (d : Dir), InBox m.imax m.jmax (i, j) →
      mk m.imax s.data ⟨i, j, d⟩ = (F m reg lev (idx m.imax (i, j)).toNat).bit d := by
    intro i j d hb
    unfold mk DE.edgeOf
    simp only
    rw [inited_cell hi hb]
    cases d <;> rfl
  have hiB : ∀ {i j : Int}, InBox m.imax m.jmax (i, j) →
      (F m reg lev (idx m.imax (i, j)).toNat).iB = (s.data (idx m.imax (i, j))).iB := by
    intro i j hb; rw [inited_cell hi hb]
  constructor
  · intro ha
    refine ⟨mo.ex a ha, mo.cut a ha, ?_⟩
    cases hex : (mkTopo m reg lev).ex a.rev
    · exact Or.inl rfl
    right
    have hJ := (mo.inner a ha hex).1
    obtain ⟨hb, hm⟩ := ha
    obtain ⟨i, j, d⟩ := a
    simp only at hb
    rw [hbit d hb] at hm
    obtain ⟨_, _, _, c1, c2, c3, c4, _⟩ := F_coord (lev := lev) hr hb
    cases d <;> simp only [Cell.bit] at hm
    · obtain ⟨_, _, hz, h | h⟩ := c1.mp hm
      · have := (hl.ib i j hb (Or.inr hz)).mpr ⟨hex, hz⟩
        rw [hiB hb, this] at h; simp at h
      · exact h
    · obtain ⟨_, _, hz, h | h⟩ := c2.mp hm
      · have := (hl.ib i j hb (Or.inl hz)).mpr ⟨hz, hex⟩
        rw [hiB hb, this] at h; simp at h
      · exact h
    · simp [DE.isJ] at hJ
    · simp [DE.isJ] at hJ
  · rintro ⟨hex, hcut, h | h⟩
    · exact mo.bnd a hcut hex h
    · obtain ⟨i, j, d⟩ := a
      have hb : InBox m.imax m.jmax (i, j) := (ok.box hex).2.2.2.2.2
      have hzz := ok.zone _ _ hex
      refine ⟨hb, ?_⟩
      rw [hbit d hb]
      obtain ⟨_, _, _, c1, c2, c3, c4, _⟩ := F_coord (lev := lev) hr hb
      unfold Topo.cut at hcut
      simp only [Topo.ex] at hex
      rcases h with h | h
      · have hd : d = .R := h.1
        subst hd
        simp only [Cell.bit]
        simp only [DE.zn, DE.rev, DE.p0, DE.p1] at hex hzz hcut
        exact c1.mpr ⟨by omega, hcut, hex, Or.inr (Or.inl h)⟩
      · have hd : d = .L := h.1
        subst hd
        simp only [Cell.bit]
        simp only [DE.zn, DE.rev, DE.p0, DE.p1] at hex hzz hcut
        exact c2.mpr ⟨by omega, hcut.symm, hex, Or.inr (Or.inr h)⟩
end

/-- the scan order in coordinates -/
theorem before_of_key {imax jmax : Nat} {a b : DE} (ha : InBox imax jmax (a.i, a.j)) (hb : InBox imax jmax (b.i, b.j))
    (h0 : 0 ≤ a.p0.1 ∧ 0 ≤ a.p0.2) (h1 : 0 ≤ a.p1.1 ∧ 0 ≤ a.p1.2) (g0 : 0 ≤ b.p0.1 ∧ 0 ≤ b.p0.2) (g1 : 0 ≤ b.p1.1 ∧ 0 ≤ b.p1.2)
    (hs : a.side ≠ b.side) (h : a.key imax ≤ b.key imax) : a.side.Before b.side := by
  have hbb : ∀ {e : DE}, (0 ≤ e.p0.1 ∧ 0 ≤ e.p0.2) → (0 ≤ e.p1.1 ∧ 0 ≤ e.p1.2) → e.side.b = (e.i.toNat, e.j.toNat) ∧
      (e.side.vert = true ↔ e.d.rank < 2) := by
    clear h0 h1 g0 g1 hs h ha hb
    rintro ⟨i, j, _ | _ | _ | _⟩ h0 h1 <;>
      simp only [DE.p0, DE.p1, DE.rev] at h0 h1 <;>
      simp only [DE.side, Side.b, Dir.rank, if_true, if_false, Bool.false_eq_true, Prod.mk.injEq] <;>
      refine ⟨⟨by first | trivial | omega, by first | trivial | omega⟩, by simp⟩
  obtain ⟨ea, va⟩ := hbb h0 h1
  obtain ⟨eb, vb⟩ := hbb g0 g1
  unfold Side.Before
  rw [ea, eb]
  obtain ⟨a1, a2, a3, a4⟩ := ha
  obtain ⟨b1, b2, b3, b4⟩ := hb
  simp only at a1 a2 a3 a4 b1 b2 b3 b4 ⊢
  have ra := a.d.rank_range
  have rb := b.d.rank_range
  unfold DE.key DE.edgeOf idx at h
  simp only at h
  rcases lt_trichotomy a.j b.j with hj | hj | hj
  · left; omega
  · right
    rw [hj] at h ⊢
    refine ⟨rfl, ?_⟩
    rcases lt_trichotomy a.i b.i with hi | hi | hi
    · left; omega
    · right
      rw [hi] at h ⊢
      refine ⟨rfl, ?_⟩
      have hr : a.d.rank ≤ b.d.rank := by linarith
      by_contra hcon
      apply hs
      have hv : a.side.vert = b.side.vert := by
        cases h1 : a.side.vert <;> cases h2 : b.side.vert
        · rfl
        · exfalso
          rw [h1] at va; rw [h2] at vb
          simp at va vb
          omega
        · exact absurd ⟨h1, h2⟩ hcon
        · rfl
      have : a.side.b = b.side.b := by rw [ea, eb, hi, hj]
      generalize a.side = A at this hv ⊢
      generalize b.side = B at this hv ⊢
      obtain ⟨i, j, v⟩ := A
      obtain ⟨i', j', v'⟩ := B
      simp only at hv
      subst hv
      cases v <;> simp [Side.b] at this ⊢ <;> exact this
    · exfalso
      have : a.i + b.j * imax ≥ b.i + b.j * imax + 1 := by omega
      linarith
  · exfalso
    have : (b.j + 1) * (imax : Int) ≤ a.j * imax := mul_le_mul_of_nonneg_right (by omega) (by omega)
    linarith

/-- two sides have at most one cell in common -/
theorem shared_cell {c c' : ℕ × ℕ} {e f : Side} (hne : e ≠ f) (h1 : e ∈ sidesOf c) (h2 : f ∈ sidesOf c) (h3 : e ∈ sidesOf c')
    (h4 : f ∈ sidesOf c') : c = c' := by
  obtain ⟨a1, a2⟩ := c
  obtain ⟨b1, b2⟩ := c'
  obtain ⟨i, j, v⟩ := e
  obtain ⟨i', j', v'⟩ := f
  simp only [sidesOf, List.mem_cons, List.not_mem_nil, or_false, Side.mk.injEq, ne_eq, Prod.mk.injEq] at *
  cases v <;> cases v' <;> simp only [Bool.false_eq_true, Bool.true_eq_false, and_false, and_true, or_false, false_or, not_false_eq_true] at * <;> omega

section
variable {m : Mesh K} {mask : Option (Nat → Bool)} {rjunk : Nat → Bool} {lev : K}

theorem leftAbove_iff {e : DE} (h : (topoOf m mask rjunk lev).ex e = true) :
    (gridOf m mask).LeftAbove lev e.side e.cell ↔ (topoOf m mask rjunk lev).h e.p0 = true := by
  obtain ⟨h0, h1⟩ := ex_nonneg (Or.inl h)
  obtain ⟨_, _, z1, z2⟩ := ex_cell h
  rw [← above_iff (mask := mask) (rjunk := rjunk) h0]
  unfold Grid.LeftAbove
  rcases e with ⟨i, j, _ | _ | _ | _⟩ <;> simp only [DE.p0, DE.p1, DE.rev, DE.zn] at h0 h1 z1 z2
  · have hc : DE.cell ⟨i, j, .R⟩ = (DE.side ⟨i, j, .R⟩).a := by
      simp only [DE.cell, DE.zn, DE.side, Side.a, Prod.mk.injEq, true_and, and_true]; omega
    have hb : (DE.side ⟨i, j, .R⟩).b = toN (DE.p0 ⟨i, j, .R⟩) := by
      simp only [DE.side, Side.b, toN, DE.p0, if_true, Prod.mk.injEq, true_and]; omega
    rw [hb]
    have : (DE.side ⟨i, j, .R⟩).vert = true := rfl
    simp [hc, this]
  · have hc : DE.cell ⟨i, j, .L⟩ ≠ (DE.side ⟨i, j, .L⟩).a := by
      simp only [DE.cell, DE.zn, DE.side, Side.a, ne_eq, Prod.mk.injEq]; omega
    have hb : (DE.side ⟨i, j, .L⟩).a = toN (DE.p0 ⟨i, j, .L⟩) := by
      simp only [DE.side, Side.a, toN, DE.p0, Prod.mk.injEq, true_and]; omega
    have : (DE.side ⟨i, j, .L⟩).vert = true := rfl
    simp only [this, hc, iff_true, not_false_eq_true, true_and, false_and, false_or]
    rw [hb]
  · have hc : DE.cell ⟨i, j, .U⟩ = (DE.side ⟨i, j, .U⟩).a := by
      simp only [DE.cell, DE.zn, DE.side, Side.a, Prod.mk.injEq, true_and, and_true]; omega
    have hb : (DE.side ⟨i, j, .U⟩).a = toN (DE.p0 ⟨i, j, .U⟩) := by
      simp only [DE.side, Side.a, toN, DE.p0, Prod.mk.injEq, and_true]; omega
    have : (DE.side ⟨i, j, .U⟩).vert = false := rfl
    simp only [this, hc, Bool.false_eq_true, iff_false, not_true_eq_false, not_false_eq_true, true_and, false_and, false_or]
    rw [hb]
  · have hc : DE.cell ⟨i, j, .D⟩ ≠ (DE.side ⟨i, j, .D⟩).a := by
      simp only [DE.cell, DE.zn, DE.side, Side.a, ne_eq, Prod.mk.injEq]; omega
    have hb : (DE.side ⟨i, j, .D⟩).b = toN (DE.p0 ⟨i, j, .D⟩) := by
      simp only [DE.side, Side.b, toN, DE.p0, Bool.false_eq_true, if_false, Prod.mk.injEq, and_true]; omega
    have : (DE.side ⟨i, j, .D⟩).vert = false := rfl
    simp only [this, hc, Bool.false_eq_true, not_true_eq_false, true_and, false_and, or_false, iff_self]
    rw [hb]

theorem innerStart_up {t : Topo} {a : DE} (h : InnerStart t a) : t.up a := by
  obtain ⟨i, j, d⟩ := a
  rcases h with ⟨h1, h2, h3, _⟩ | ⟨h1, h2, h3, _⟩ <;> simp only at h1 h2 h3 <;> subst h1
  · exact ⟨h2, h3⟩
  · exact ⟨h3, h2⟩

/-- the edges marked inside are the starts -/
theorem start_iff {a : DE} (hx : (topoOf m mask rjunk lev).ex a = true) (hxr : (topoOf m mask rjunk lev).ex a.rev = true)
    (hu : (topoOf m mask rjunk lev).up a) :
    (gridOf m mask).Start lev a.side ↔ InnerStart (topoOf m mask rjunk lev) a := by
  obtain ⟨h0, h1⟩ := ex_nonneg (Or.inl hx)
  obtain ⟨_, _, z1, z2⟩ := ex_cell hx
  obtain ⟨_, _, y1, y2⟩ := ex_cell hxr
  have ab : ∀ (u v : ℕ) (p : Int × Int), 0 ≤ p.1 ∧ 0 ≤ p.2 → u = p.1.toNat → v = p.2.toNat →
      ((gridOf m mask).Above lev (u, v) ↔ (topoOf m mask rjunk lev).h p = true) := by
    intro u v p hp hu hv
    rw [← above_iff (mask := mask) (rjunk := rjunk) hp, hu, hv]; rfl
  have nb : ∀ b : Bool, ¬ b = true ↔ b = false := by decide
  unfold Grid.Start InnerStart
  rcases a with ⟨i, j, _ | _ | _ | _⟩ <;> simp only [DE.p0, DE.p1, DE.rev, DE.zn] at h0 h1 z1 z2 y1 y2
  · have hu' : (topoOf m mask rjunk lev).h (i, j) = true ∧ (topoOf m mask rjunk lev).h (i, j - 1) = false := hu
    simp only [DE.side, true_and, reduceCtorEq, false_and, or_false]
    rw [ab _ _ (i, j) (by simp only; omega) rfl (by simp only; omega), ab _ _ (i, j - 1) (by simp only; omega) rfl (by simp only; omega),
      ab _ _ (i - 1, j) (by simp only; omega) (by simp only; omega) (by simp only; omega),
      ab _ _ (i + 1, j) (by simp only; omega) (by simp only; omega) (by simp only; omega),
      ab _ _ (i + 1, j - 1) (by simp only; omega) (by simp only; omega) (by simp only; omega)]
    simp only [hu'.1, hu'.2, true_and, not_true_eq_false, Bool.false_eq_true, not_false_eq_true, false_and, or_false, nb]
    exact ⟨fun h => h.2, fun h => ⟨by omega, h⟩⟩
  · have hu' : (topoOf m mask rjunk lev).h (i, j - 1) = true ∧ (topoOf m mask rjunk lev).h (i, j) = false := hu
    simp only [DE.side, true_and, reduceCtorEq, false_and, false_or]
    rw [ab _ _ (i, j) (by simp only; omega) rfl (by simp only; omega), ab _ _ (i, j - 1) (by simp only; omega) rfl (by simp only; omega),
      ab _ _ (i - 1, j) (by simp only; omega) (by simp only; omega) (by simp only; omega),
      ab _ _ (i + 1, j) (by simp only; omega) (by simp only; omega) (by simp only; omega),
      ab _ _ (i + 1, j - 1) (by simp only; omega) (by simp only; omega) (by simp only; omega)]
    simp only [hu'.1, hu'.2, true_and, Bool.false_eq_true, not_false_eq_true, false_and, false_or]
    exact ⟨fun h => h.2, fun h => ⟨by omega, h⟩⟩
  · simp [DE.side]
  · simp [DE.side]

theorem not_border {a : DE} (hx : (topoOf m mask rjunk lev).ex a = true) (hxr : (topoOf m mask rjunk lev).ex a.rev = true) :
    ¬ (gridOf m mask).Border a.side := by
  intro hb
  obtain ⟨h1, h2, z1, z2⟩ := ex_cell hx
  obtain ⟨g1, g2, y1, y2⟩ := ex_cell hxr
  rw [DE.side_rev] at g2
  have := hb.unique ⟨h1, h2⟩ ⟨g1, g2⟩
  rcases a with ⟨i, j, _ | _ | _ | _⟩ <;> simp only [DE.cell, DE.rev, DE.zn, Prod.mk.injEq] at this z1 z2 y1 y2 <;> omega

theorem along_get (t : Topo) (w : DE) (r s : Nat) (h : s ≤ r) : (sidesAlong t w r)[s]? = some (t.next^[s] w).side := by
  rw [along_eq, List.getElem?_map, List.getElem?_range (by omega)]
  rfl

theorem along_length (t : Topo) (w : DE) (r : Nat) : (sidesAlong t w r).length = r + 1 := by rw [along_eq]; simp

theorem along_mem {t : Topo} {w : DE} {r : Nat} {f : Side} : f ∈ sidesAlong t w r ↔ ∃ s ≤ r, f = (t.next^[s] w).side := by
  rw [along_eq, List.mem_map]
  constructor
  · rintro ⟨s, hs, rfl⟩
    rw [List.mem_range] at hs
    exact ⟨s, by omega, rfl⟩
  · rintro ⟨s, hs, rfl⟩
    exact ⟨s, by rw [List.mem_range]; omega, rfl⟩

theorem highLeft_iff {l : List Side} {e : DE} (h : (topoOf m mask rjunk lev).ex e = true) (hc : (topoOf m mask rjunk lev).cut e)
    (h0 : l[0]? = some e.side) (h1 : l[1]? = some ((topoOf m mask rjunk lev).next e).side) :
    (gridOf m mask).HighLeft lev l ↔ (topoOf m mask rjunk lev).h e.p0 = true := by
  obtain ⟨hcell, hside, _, _⟩ := ex_cell h
  have hne : e.side ≠ ((topoOf m mask rjunk lev).next e).side := by
    obtain ⟨_, _, _, _, hne, _⟩ := joined_next h hc
    exact hne
  have hx : (topoOf m mask rjunk lev).ex ((topoOf m mask rjunk lev).next e).rev = true := by rw [Topo.ex_rev_next]; exact h
  have hside' : ((topoOf m mask rjunk lev).next e).side ∈ sidesOf e.cell := by
    have h2 := (ex_cell hx).2.1
    rw [DE.side_rev] at h2
    have : ((topoOf m mask rjunk lev).next e).rev.cell = e.cell := by
      unfold DE.cell; rw [Topo.zn_rev_next]
    rwa [this] at h2
  rw [← leftAbove_iff (mask := mask) h]
  constructor
  · rintro ⟨a, b, c, ha, hb, hc, ca, cb, hl⟩
    rw [h0] at ha
    rw [h1] at hb
    cases ha
    cases hb
    rw [← shared_cell hne ca cb hside hside']
    exact hl
  · intro hl
    exact ⟨_, _, _, h0, h1, hcell, hside, hside', hl⟩

/-- the contour lines along the routes from the kept starts -/
theorem traced_of_starts {W : List DE} {L : DE → Nat} {M0 : DE → Prop} (hM : ∀ a, M0 a ↔ (topoOf m mask rjunk lev).ex a = true ∧
      (topoOf m mask rjunk lev).cut a ∧ ((topoOf m mask rjunk lev).ex a.rev = false ∨ InnerStart (topoOf m mask rjunk lev) a))
    (mo : MarksOK (topoOf m mask rjunk lev) M0) (hL : ∀ w ∈ W, Route (topoOf m mask rjunk lev) w (L w))
    {S : St} (hS : Runs m.imax (topoOf m mask rjunk lev) (St.init M0) 0 S) (hW : S.W = W)
    (hcs : Contours (gridOf m mask) lev (W.map fun w => sidesAlong (topoOf m mask rjunk lev) w (L w))) :
    Traced (gridOf m mask) lev (W.map fun w => sidesAlong (topoOf m mask rjunk lev) w (L w)) := by
  set t := topoOf m mask rjunk lev with ht
  have ok : TopoOK m lev t := mkTopo_ok m _ lev
  obtain ⟨hkeys, hsub, hcyc, hpth⟩ := starts ok mo hS
  rw [hW] at hkeys hsub hcyc hpth
  have nn : ∀ {a : DE}, t.ex a = true ∨ t.ex a.rev = true → (0 ≤ a.p0.1 ∧ 0 ≤ a.p0.2) ∧ (0 ≤ a.p1.1 ∧ 0 ≤ a.p1.2) := fun h => ex_nonneg h
  have bx : ∀ {a : DE}, t.ex a = true → InBox m.imax m.jmax (a.i, a.j) := fun h => (ok.box h).2.2.2.2.2
  have bf : ∀ {a b : DE}, t.ex a = true → t.ex b = true → a.side ≠ b.side → a.key m.imax ≤ b.key m.imax → a.side.Before b.side := by
    intro a b ha hb hs hk
    exact before_of_key (bx ha) (bx hb) (nn (Or.inl ha)).1 (nn (Or.inl ha)).2 (nn (Or.inl hb)).1 (nn (Or.inl hb)).2 hs hk
  have hl : ∀ w ∈ W, ((sidesAlong t w (L w)).head? = (sidesAlong t w (L w)).getLast? ↔ t.ex w.rev = true) := by
    intro w hw
    rw [along_head, along_last, Option.some.injEq]
    exact (hL w hw).head_last
  refine ⟨hcs, ?_, ?_, ?_⟩
  · intro es hes hcl
    rw [List.mem_map] at hes
    obtain ⟨w, hw, rfl⟩ := hes
    have hr := hL w hw
    have hxr := (hl w hw).mp hcl
    obtain ⟨hu, hk⟩ := hcyc w hw _ hr hxr
    have hx : t.ex w = true := hr.mid 0 hr.pos
    have hm := (hM w).mp (hsub w hw)
    refine ⟨?_, w.side, along_head _ _ _, ?_, ?_⟩
    · exact (highLeft_iff hx hr.cut (along_get t w _ 0 (Nat.zero_le _)) (along_get t w _ 1 hr.pos)).mpr hu.1
    · rcases hm.2.2 with h | h
      · rw [h] at hxr; simp at hxr
      · exact (start_iff hx hxr hu).mpr h
    · intro f hf hne hst
      obtain ⟨s, hs, rfl⟩ := along_mem.mp hf
      have hs' : s < L w := by
        rcases Nat.lt_or_ge s (L w) with h | h
        · exact h
        · exfalso
          have : s = L w := by omega
          rw [this, hr.close hxr] at hne
          exact hne rfl
      have s0 : 0 < s := by
        rcases Nat.eq_zero_or_pos s with h | h
        · exfalso; rw [h] at hne; exact hne rfl
        · exact h
      have hxs := hr.mid s hs'
      have hxrs := hr.ex_rev s0 hs'.le
      have hus := hu.iter s
      have hms : M0 (t.next^[s] w) := (hM _).mpr ⟨hxs, hus.cut, Or.inr ((start_iff hxs hxrs hus).mp hst)⟩
      exact bf hx hxs hne.symm (hk s hms)
  · intro es hes hop
    rw [List.mem_map] at hes
    obtain ⟨w, hw, rfl⟩ := hes
    have hr := hL w hw
    have hpos := hr.pos
    have hxr : t.ex w.rev = false := by
      cases h : t.ex w.rev
      · rfl
      · exact absurd ((hl w hw).mpr h) hop
    have hx : t.ex w = true := hr.mid 0 hr.pos
    have hstop := hr.stop hxr
    -- the line in the other direction
    have hxe : t.ex (t.next^[L w] w).rev = true := hr.ex_rev hpos le_rfl
    have hce : t.cut (t.next^[L w] w).rev := t.cut_rev.mpr (iter_cut hr.cut _)
    have hrev0 : (sidesAlong t w (L w)).reverse[0]? = some (t.next^[L w] w).rev.side := by
      rw [List.getElem?_reverse (by rw [along_length]; omega), along_length, DE.side_rev]
      exact along_get t w _ _ (by omega)
    have hrev1 : (sidesAlong t w (L w)).reverse[1]? = some (t.next (t.next^[L w] w).rev).side := by
      rw [List.getElem?_reverse (by rw [along_length]; omega), along_length]
      have := Topo.iter_rev hr.cut (L w) 1 hpos
      simp only [Function.iterate_one] at this
      rw [this, DE.side_rev]
      exact along_get t w _ _ (by omega)
    have hA := highLeft_iff (mask := mask) hx hr.cut (along_get t w (L w) 0 (Nat.zero_le _)) (along_get t w _ 1 hr.pos)
    have hB := highLeft_iff (mask := mask) hxe hce hrev0 hrev1
    rw [← ht] at hA hB
    rcases hpth w hw _ hr hxr with ⟨hu, a, s, hs, ha, hma, hk⟩ | ⟨hu, hk⟩
    · left
      refine ⟨hA.mpr hu.1, ?_, _, along_last _ _ _, ?_⟩
      · rw [hB, DE.p0_rev, (hu.iter _).2]; simp
      · intro hF
        have hma' := (hM a).mp hma
        have hxa := hma'.1
        have hua : t.up a := by rw [ha]; exact hu.iter s
        have hne : a.side ≠ (t.next^[L w] w).side := by
          intro he
          rcases side_inj (nn (Or.inl hxa)).1 (nn (Or.inl hxa)).2 (nn (Or.inr hxe)).1 (nn (Or.inr hxe)).2 he with h | h
          · rw [h, hstop] at hxa; simp at hxa
          · rw [h] at hua
            exact (hu.iter _).not_rev hua
        have h1 := hF a.side (along_mem.mpr ⟨s, hs.le, by rw [ha]⟩) hne (by
          cases hxar : t.ex a.rev
          · exact Or.inr (side_border hxa hxar)
          · rcases hma'.2.2 with h | h
            · rw [h] at hxar; simp at hxar
            · exact Or.inl ((start_iff hxa hxar hua).mpr h))
        have h2 := bf hxa hxe (by rw [DE.side_rev]; exact hne) hk.le
        rw [DE.side_rev] at h2
        unfold Side.Before at h1 h2
        rcases h1 with h1 | ⟨h1, h1' | ⟨h1', h3, h4⟩⟩ <;> rcases h2 with h2 | ⟨h2, h2' | ⟨h2', h5, h6⟩⟩ <;> first | omega | (rw [h3] at h6; simp at h6)
    · right
      refine ⟨hB.mpr ?_, ?_, _, along_head _ _ _, ?_⟩
      · exact (hu.iter_rev _).1
      · rw [hA]
        have := hu.2
        rw [DE.p1_rev] at this
        rw [this]; simp
      · intro f hf hne hst
        obtain ⟨s, hs, rfl⟩ := along_mem.mp hf
        have s0 : 0 < s := by
          rcases Nat.eq_zero_or_pos s with h | h
          · exfalso; rw [h] at hne; exact hne rfl
          · exact h
        have hxs : t.ex (t.next^[s] w).rev = true := hr.ex_rev s0 hs
        have hus : t.up (t.next^[s] w).rev := hu.iter_rev s
        have hms : M0 (t.next^[s] w).rev := by
          refine (hM _).mpr ⟨hxs, hus.cut, ?_⟩
          cases hxsr : t.ex (t.next^[s] w).rev.rev
          · exact Or.inl rfl
          · right
            rw [← start_iff hxs hxsr hus]
            rcases hst with h | h
            · rw [DE.side_rev]; exact h
            · rw [← DE.side_rev] at h
              exact absurd h (not_border hxs hxsr)
        have := bf hx hxs (by rw [DE.side_rev]; exact hne.symm) (hk _ s s0 hs rfl hms).le
        rwa [DE.side_rev] at this
  · rw [List.pairwise_map]
    have hnd := (List.nodup_flatMap.mp hcs.once).2
    rw [List.pairwise_map] at hnd
    refine (hkeys.and hnd).imp_of_mem ?_
    rintro a b ha hb ⟨hk, hd⟩
    refine ⟨a.side, b.side, along_head _ _ _, along_head _ _ _, ?_⟩
    have hxa : t.ex a = true := (hL a ha).mid 0 (hL a ha).pos
    have hxb : t.ex b = true := (hL b hb).mid 0 (hL b hb).pos
    refine bf hxa hxb ?_ hk.le
    intro he
    have hbody : ∀ c ∈ W, c.side ∈ body (sidesAlong t c (L c)) := by
      intro c hc
      rw [((hL c hc).body_perm).mem_iff, List.mem_map]
      refine ⟨t.norm c, ?_, Topo.side_norm t c⟩
      rw [mem_edgesOf]
      refine ⟨0, ?_, rfl⟩
      unfold lenOf
      have := (hL c hc).pos
      split <;> omega
    have h1 := hbody a ha
    rw [he] at h1
    exact hd h1 (hbody b hb)

end

/-- the sides along the contours are determined by the topology: neither the memory before the call nor the bound on
the number of steps nor the coordinates matter, nor the field of numbers -/
theorem trace_same [DecidableEq K] (m : Mesh K) (mask : Option (Nat → Bool)) (lev : K) :
    ∃ cs : List (List Side), Traced (gridOf m mask) lev cs ∧
      ∀ {K' : Type} [Field K'] [LinearOrder K'] [DecidableEq K'] (m' : Mesh K') (mask' : Option (Nat → Bool)) (lev' : K') (fuel : Nat) (junk : Arr Cell)
        (sjunk : Arr (Option Bool)) (rjunk : Nat → Bool), m'.imax = m.imax → m'.jmax = m.jmax →
        topoOf m' mask' rjunk lev' = topoOf m mask rjunk lev → 4 * (m.imax * m.jmax) + 2 ≤ fuel →
        trace m' mask' lev' fuel junk sjunk rjunk =
          .ok (cs.map fun es => (es.map ((gridOf m' mask').point lev')).zip (codes es.length)) := by
  obtain ⟨W, L, h1, ⟨S, hS, hSW⟩, h3, _⟩ := trace_curves (fuel := 4 * (m.imax * m.jmax) + 2) m mask lev ⟨fun _ => default⟩
    ⟨fun _ => none⟩ (fun _ => false) le_rfl
  set t := topoOf m mask (fun _ => false) lev with ht
  have hT : Traced (gridOf m mask) lev (W.map fun w => sidesAlong t w (L w)) := by
    obtain ⟨fl, hinit⟩ := dataInit_spec m (mask.map fun k => maskZones m.imax m.jmax k fun _ => false) lev
      ⟨fun _ => default⟩ ⟨fun _ => none⟩
    exact traced_of_starts (inited_marks hinit (reg_ok m mask _)) (inited_marksOK hinit (reg_ok m mask _)) h1 hS hSW h3
  refine ⟨_, hT, ?_⟩
  intro K' _ _ _ m' mask' lev' fuel junk sjunk rjunk hi hj htop hfuel
  have htt : topoOf m' mask' rjunk lev' = t := htop.trans (topoOf_junk m mask _ _ lev)
  obtain ⟨W', L', h1', ⟨S', hS', hSW'⟩, _, h4'⟩ := trace_curves (fuel := fuel) m' mask' lev' junk sjunk rjunk (by rw [hi, hj]; exact hfuel)
  rw [htt] at h1' h4' hS'
  rw [hi] at hS'
  have hSS : S = S' := by
    obtain ⟨fl, hinit⟩ := dataInit_spec m (mask.map fun k => maskZones m.imax m.jmax k fun _ => false) lev
      ⟨fun _ => default⟩ ⟨fun _ => none⟩
    have mo := inited_marksOK hinit (reg_ok m mask _)
    have ok : TopoOK m lev t := mkTopo_ok m _ lev
    rw [hi.symm] at hS'
    rw [marks_same hi hj (htt.trans ht) (junk' := ⟨fun _ => default⟩) (sjunk' := ⟨fun _ => none⟩), hi] at hS'
    refine hS.unique (fun a ha => ha.1) ?_ hS'
    intro a ha _
    have := edge_pos ok (mo.ex a ha)
    have h4 := a.d.rank_range
    unfold DE.key
    omega
  subst hSS
  rw [hSW] at hSW'
  subst hSW'
  rw [h4']
  congr 2
  apply List.map_congr_left
  intro w hw
  rw [(h1 w hw).unique (h1' w hw)]

end Trackeddy.Cntr
