import Verif.Proofs.Cntr.Orbit
import Mathlib.Data.Finset.Max

/-!
On every closed curve there is an i-edge that `data_init` marks as a start.
-/
namespace Trackeddy.Cntr

variable {K : Type} [Field K] [LinearOrder K]

/-- the condition for a start on an i-edge inside (cntr.c:1136-1163), in coordinates -/
def InnerStart (t : Topo) (e : DE) : Prop :=
  (e.d = .R ∧ t.h (e.i, e.j) = true ∧ t.h (e.i, e.j - 1) = false ∧ t.h (e.i - 1, e.j) = false ∧
    (t.h (e.i + 1, e.j) = false ∨ t.h (e.i + 1, e.j - 1) = false)) ∨
  (e.d = .L ∧ t.h (e.i, e.j) = false ∧ t.h (e.i, e.j - 1) = true ∧ t.h (e.i - 1, e.j) = true ∧
    (t.h (e.i + 1, e.j) = true ∨ t.h (e.i + 1, e.j - 1) = true))

theorem idx_lt_row {imax jmax : Nat} {p q : Int × Int} (hp : InBox imax jmax p) (hq : InBox imax jmax q) (h : p.2 < q.2) :
    idx imax p < idx imax q := by
  obtain ⟨h1, h2, h3, h4⟩ := hp
  obtain ⟨g1, g2, g3, g4⟩ := hq
  unfold idx
  have : (p.2 + 1) * (imax : Int) ≤ q.2 * imax := mul_le_mul_of_nonneg_right (by omega) (by omega)
  linarith

section
variable {m : Mesh K} {lev : K} {t : Topo} (ok : TopoOK m lev t) {x : DE} {r : Nat} (hc : IsCycle t x r)
include ok hc

omit ok in
theorem cycle_pred (s : Nat) : ∃ s', t.next (t.next^[s'] x) = t.next^[s] x := by
  refine ⟨s + (r - 1), ?_⟩
  rw [← Function.iterate_succ_apply' t.next, show (s + (r - 1)).succ = s + r by have := hc.pos; omega,
    Function.iterate_add_apply, hc.close]

/-- below an edge that is crossed upwards there is an i-edge of the curve -/
theorem cycle_up_row (n : Nat) : ∀ s, (t.next^[s] x).d = .U → (t.next^[s] x).j.toNat = n →
    ∃ s', (t.next^[s'] x).isJ = false ∧ (t.next^[s'] x).j ≤ (t.next^[s] x).j := by
  induction n with
  | zero =>
    intro s hd hn
    have hb := ok.zone _ _ (hc.ex_rev_all s)
    rcases he : t.next^[s] x with ⟨i, j, d⟩
    rw [he] at hd hn hb
    simp only at hd
    subst hd
    simp only [DE.rev, DE.zn] at hb hn
    omega
  | succ n ih =>
    intro s hd hn
    obtain ⟨s', hs'⟩ := cycle_pred hc s
    have hb := ok.zone _ _ (hc.ex_rev_all s)
    rcases he : t.next^[s] x with ⟨i, j, d⟩
    rw [he] at hd hn hb hs'
    simp only at hd
    subst hd
    rcases ha : t.next^[s'] x with ⟨i', j', d'⟩
    rw [ha] at hs'
    rcases t.next_cases ⟨i', j', d'⟩ with h | h | h <;> rw [h] at hs' <;> cases d' <;>
      simp only [DE.turnF, DE.turnB, DE.straight, DE.mk.injEq, reduceCtorEq, and_false, and_true] at hs'
    · exact ⟨s', by rw [ha]; rfl, by rw [ha]; simp only; omega⟩
    · exact ⟨s', by rw [ha]; rfl, by rw [ha]; simp only; omega⟩
    · have hb' := ok.zone _ _ (hc.ex_rev_all s')
      rw [ha] at hb'
      simp only [DE.rev, DE.zn] at hb hb' hn
      obtain ⟨s'', h1, h2⟩ := ih s' (by rw [ha]) (by rw [ha]; simp only; omega)
      refine ⟨s'', h1, ?_⟩
      rw [ha] at h2
      simp only at h2 ⊢
      omega

/-- below an edge that is crossed downwards there is an i-edge of the curve -/
theorem cycle_down_row (n : Nat) : ∀ s, (t.next^[s] x).d = .D → (t.next^[s] x).j.toNat = n →
    ∃ s', (t.next^[s'] x).isJ = false ∧ (t.next^[s'] x).j ≤ (t.next^[s] x).j := by
  induction n with
  | zero =>
    intro s hd hn
    have hb := ok.zone _ _ (hc.ex_all s)
    rcases he : t.next^[s] x with ⟨i, j, d⟩
    rw [he] at hd hn hb
    simp only at hd
    subst hd
    simp only [DE.zn] at hb hn
    omega
  | succ n ih =>
    intro s hd hn
    have hs' : t.next^[s + 1] x = t.next (t.next^[s] x) := Function.iterate_succ_apply' _ _ _
    have hb := ok.zone _ _ (hc.ex_all s)
    rcases he : t.next^[s] x with ⟨i, j, d⟩
    rw [he] at hd hn hb hs'
    simp only at hd
    subst hd
    rcases t.next_cases ⟨i, j, .D⟩ with h | h | h <;> rw [h] at hs' <;>
      simp only [DE.turnF, DE.turnB, DE.straight] at hs'
    · exact ⟨s + 1, by rw [hs']; rfl, by rw [hs']⟩
    · exact ⟨s + 1, by rw [hs']; rfl, by rw [hs']⟩
    · simp only [DE.zn] at hb hn
      obtain ⟨s'', h1, h2⟩ := ih (s + 1) (by rw [hs']) (by rw [hs']; simp only; omega)
      refine ⟨s'', h1, ?_⟩
      rw [hs'] at h2
      simp only at h2 ⊢
      omega

theorem cycle_iedge : ∃ s, (t.next^[s] x).isJ = false := by
  rcases hx : x with ⟨i, j, d⟩
  cases d
  · exact ⟨0, rfl⟩
  · exact ⟨0, rfl⟩
  · obtain ⟨s, h, _⟩ := cycle_up_row ok hc _ 0 (by simp only [Function.iterate_zero, id_eq]; rw [hx]) rfl
    rw [← hx]; exact ⟨s, h⟩
  · obtain ⟨s, h, _⟩ := cycle_down_row ok hc _ 0 (by simp only [Function.iterate_zero, id_eq]; rw [hx]) rfl
    rw [← hx]; exact ⟨s, h⟩

theorem cycle_start : ∃ s, InnerStart t (t.next^[s] x) := by
  classical
  obtain ⟨s0, hs0⟩ := cycle_iedge ok hc
  have hne : ((Finset.range r).filter fun s => (t.next^[s] x).isJ = false).Nonempty := by
    refine ⟨s0 % r, ?_⟩
    rw [Finset.mem_filter, Finset.mem_range]
    exact ⟨Nat.mod_lt _ hc.pos, by rw [← hc.iter_mod]; exact hs0⟩
  obtain ⟨s, hs, hmin⟩ := Finset.exists_min_image _ (fun s => (t.next^[s] x).edgeOf m.imax) hne
  rw [Finset.mem_filter, Finset.mem_range] at hs
  have hmin' : ∀ s', (t.next^[s'] x).isJ = false → (t.next^[s] x).edgeOf m.imax ≤ (t.next^[s'] x).edgeOf m.imax := by
    intro s' hs'
    have := hmin (s' % r) (by
      rw [Finset.mem_filter, Finset.mem_range]
      exact ⟨Nat.mod_lt _ hc.pos, by rw [← hc.iter_mod]; exact hs'⟩)
    rwa [← hc.iter_mod] at this
  have hbox : ∀ s, InBox m.imax m.jmax ((t.next^[s] x).i, (t.next^[s] x).j) := fun s => (ok.box (hc.ex_all s)).2.2.2.2.2
  -- no i-edge of the curve lies lower
  have hrow : ∀ s', (t.next^[s'] x).isJ = false → (t.next^[s] x).j ≤ (t.next^[s'] x).j := by
    intro s' hs'
    by_contra hlt
    have := idx_lt_row (hbox s') (hbox s) (by simp only; omega)
    have h2 := hmin' s' hs'
    unfold DE.edgeOf at h2
    omega
  have hU : ∀ s', (t.next^[s'] x).d = .U → (t.next^[s] x).j ≤ (t.next^[s'] x).j := by
    intro s' hd
    obtain ⟨s'', h1, h2⟩ := cycle_up_row ok hc _ s' hd rfl
    exact le_trans (hrow s'' h1) h2
  have hD : ∀ s', (t.next^[s'] x).d = .D → (t.next^[s] x).j ≤ (t.next^[s'] x).j := by
    intro s' hd
    obtain ⟨s'', h1, h2⟩ := cycle_down_row ok hc _ s' hd rfl
    exact le_trans (hrow s'' h1) h2
  refine ⟨s, ?_⟩
  obtain ⟨p, hp⟩ := cycle_pred hc s
  have hn : t.next^[s + 1] x = t.next (t.next^[s] x) := Function.iterate_succ_apply' _ _ _
  have hup := hc.up.iter s
  have hupp := hc.up.iter p
  have hupn := hc.up.iter (s + 1)
  have hDn := hD (s + 1)
  have hmn := hmin' (s + 1)
  have hUp := hU p
  have hmp := hmin' p
  rcases he : t.next^[s] x with ⟨i, j, d⟩
  rcases ha : t.next^[p] x with ⟨i', j', d'⟩
  rw [he] at hp hn hup hDn hmn hUp hmp hs
  rw [ha] at hp hupp hUp hmp
  cases d
  · -- R
    left
    obtain ⟨h0, h1⟩ := hup
    simp only [DE.p0, DE.p1, DE.rev] at h0 h1
    refine ⟨rfl, h0, h1, ?_, ?_⟩
    · rcases t.next_cases ⟨i', j', d'⟩ with h | h | h <;> rw [h] at hp <;> cases d' <;>
        simp only [DE.turnF, DE.turnB, DE.straight, DE.mk.injEq, reduceCtorEq, and_false, and_true] at hp
      · have := hUp rfl
        simp only at this; omega
      · obtain ⟨_, g⟩ := hupp
        simp only [DE.p1, DE.rev, DE.p0] at g
        rw [hp.1, hp.2] at g
        exact g
      · have := hmp rfl
        unfold DE.edgeOf idx at this
        simp only at this
        rw [hp.2] at this
        omega
    · by_contra hcon
      have g0 : t.h (i + 1, j) = true := by
        cases hh : t.h (i + 1, j)
        · exact absurd (Or.inl hh) hcon
        · rfl
      have g1 : t.h (i + 1, j - 1) = true := by
        cases hh : t.h (i + 1, j - 1)
        · exact absurd (Or.inr hh) hcon
        · rfl
      have : t.next ⟨i, j, .R⟩ = ⟨i + 1, j - 1, .D⟩ := by
        unfold Topo.next
        simp only [DE.p0, DE.q0, DE.q1, h0, g0, g1, DE.turnF]
        simp
      rw [this] at hn
      rw [hn] at hDn
      have := hDn rfl
      simp only at this; omega
  · -- L
    right
    obtain ⟨h0, h1⟩ := hup
    simp only [DE.p0, DE.p1, DE.rev] at h0 h1
    refine ⟨rfl, h1, h0, ?_, ?_⟩
    · rcases t.next_cases ⟨i, j, .L⟩ with h | h | h <;> rw [h] at hn <;>
        simp only [DE.turnF, DE.turnB, DE.straight] at hn <;> rw [hn] at hupn hDn hmn
      · exact hupn.1
      · have := hDn rfl
        simp only at this; omega
      · have := hmn rfl
        unfold DE.edgeOf idx at this
        simp only at this
        omega
    · rcases t.next_cases ⟨i', j', d'⟩ with h | h | h <;> rw [h] at hp <;> cases d' <;>
        simp only [DE.turnF, DE.turnB, DE.straight, DE.mk.injEq, reduceCtorEq, and_false, and_true] at hp
      · left
        have g := hupp.1
        simp only [DE.p0] at g
        rw [show i' = i + 1 by omega, hp.2] at g
        exact g
      · have := hUp rfl
        simp only at this; omega
      · right
        have g := hupp.1
        simp only [DE.p0] at g
        rw [show i' = i + 1 by omega, hp.2] at g
        exact g
  · simp [DE.isJ] at hs
  · simp [DE.isJ] at hs

end
end Trackeddy.Cntr
