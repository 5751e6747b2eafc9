import Verif.Proofs.Cntr.Loop1
import Mathlib.Data.Finset.Card
import Mathlib.Data.Finset.Image
import Mathlib.Data.Fintype.Card
import Mathlib.Logic.Function.Iterate

/-!
The curves of a topology: every cut edge lies on a path from boundary to boundary or on a cycle.
-/
namespace Trackeddy.Cntr

variable {K : Type} [Field K] [LinearOrder K]

namespace Topo
variable {t : Topo}

/-- cut, with the high point first -/
def up (t : Topo) (e : DE) : Prop := t.h e.p0 = true ∧ t.h e.p1 = false

theorem up.cut {e : DE} (h : t.up e) : t.cut e := by unfold Topo.cut; rw [h.1, h.2]; simp

theorem up_or {e : DE} (h : t.cut e) : t.up e ∨ t.up e.rev := by
  unfold Topo.cut at h
  unfold up
  rw [DE.p0_rev, DE.p1_rev]
  cases h0 : t.h e.p0 <;> cases h1 : t.h e.p1 <;> simp_all

theorem up.not_rev {e : DE} (h : t.up e) : ¬ t.up e.rev := by
  unfold up
  rw [DE.p0_rev, DE.p1_rev, h.1]; simp

theorem up.next {e : DE} (h : t.up e) : t.up (t.next e) := by
  have := t.h_next e h.cut
  exact ⟨this.1.trans h.1, this.2.trans h.2⟩

theorem up.iter {e : DE} (h : t.up e) (s : Nat) : t.up (t.next^[s] e) := by
  induction s with
  | zero => exact h
  | succ s ih => rw [Function.iterate_succ_apply']; exact ih.next

theorem up.iter_rev {e : DE} (h : t.up e.rev) (s : Nat) : t.up (t.next^[s] e).rev := by
  have hc : t.cut (t.next^[s] e) := iter_cut (t.cut_rev.mp h.cut) s
  rcases up_or hc with h' | h'
  · exfalso
    have : ∀ s, t.h (t.next^[s] e).p0 = false := by
      intro s
      induction s with
      | zero =>
        have := h.2
        rwa [DE.p1_rev] at this
      | succ s ih =>
        rw [Function.iterate_succ_apply', (t.h_next _ (iter_cut (t.cut_rev.mp h.cut) s)).1]; exact ih
    have := this s
    rw [h'.1] at this; simp at this
  · exact h'

theorem next_inj {a b : DE} (ha : t.cut a) (hb : t.cut b) (h : t.next a = t.next b) : a = b := by
  have h1 := t.next_rev_next a ha
  rw [h, t.next_rev_next b hb] at h1
  exact (DE.rev_inj h1).symm

theorem iter_inj {a b : DE} (ha : t.cut a) (hb : t.cut b) (s : Nat) (h : t.next^[s] a = t.next^[s] b) : a = b := by
  induction s with
  | zero => exact h
  | succ s ih =>
    rw [Function.iterate_succ_apply', Function.iterate_succ_apply'] at h
    exact ih (next_inj (iter_cut ha s) (iter_cut hb s) h)

/-- going back along the curve -/
theorem iter_rev {e : DE} (h : t.cut e) : ∀ (r s : Nat), s ≤ r → t.next^[s] (t.next^[r] e).rev = (t.next^[r - s] e).rev := by
  intro r s
  induction s with
  | zero => intro _; rfl
  | succ s ih =>
    intro hs
    rw [Function.iterate_succ_apply', ih (by omega)]
    obtain ⟨q, hq⟩ : ∃ q, r - s = q + 1 := ⟨r - s - 1, by omega⟩
    rw [hq, Function.iterate_succ_apply', t.next_rev_next _ (iter_cut h q)]
    congr 2
    omega

theorem iter_ex_rev {e : DE} (s : Nat) : t.ex (t.next^[s + 1] e).rev = t.ex (t.next^[s] e) := by
  rw [Function.iterate_succ_apply', t.ex_rev_next]

/-- cancelling steps -/
theorem iter_cancel {a b : DE} (ha : t.cut a) (hb : t.cut b) {s s' : Nat} (hle : s ≤ s')
    (h : t.next^[s] a = t.next^[s'] b) : a = t.next^[s' - s] b := by
  have : t.next^[s] a = t.next^[s] (t.next^[s' - s] b) := by
    rw [h, ← Function.iterate_add_apply]; congr 2; omega
  exact iter_inj ha (iter_cut hb _) s this

end Topo

/-- a curve from boundary to boundary, `x` its first edge (seen with the high side as `p0`) -/
structure IsPath (t : Topo) (x : DE) (r : Nat) : Prop where
  up : t.up x
  pos : 1 ≤ r
  first : t.ex x.rev = false
  mid : ∀ s < r, t.ex (t.next^[s] x) = true
  last : t.ex (t.next^[r] x) = false

/-- a closed curve -/
structure IsCycle (t : Topo) (x : DE) (r : Nat) : Prop where
  up : t.up x
  pos : 1 ≤ r
  mid : ∀ s < r, t.ex (t.next^[s] x) = true
  close : t.next^[r] x = x
  least : ∀ s, 0 < s → s < r → t.next^[s] x ≠ x

namespace IsPath
variable {t : Topo} {x y : DE} {r r' : Nat}

theorem not_back (h : IsPath t x r) {s : Nat} (hs : s < r) : t.next^[s + 1] x ≠ x := by
  intro he
  have := Topo.iter_ex_rev (t := t) (e := x) s
  rw [he, h.first, h.mid s hs] at this
  simp at this

theorem inj (h : IsPath t x r) {s s' : Nat} (hs : s ≤ r) (hs' : s' ≤ r) (he : t.next^[s] x = t.next^[s'] x) : s = s' := by
  rcases lt_trichotomy s s' with hlt | heq | hlt
  · have := Topo.iter_cancel h.up.cut h.up.cut (le_of_lt hlt) he
    obtain ⟨q, hq⟩ : ∃ q, s' - s = q + 1 := ⟨s' - s - 1, by omega⟩
    rw [hq] at this
    exact absurd this.symm (h.not_back (by omega))
  · exact heq
  · have := Topo.iter_cancel h.up.cut h.up.cut (le_of_lt hlt) he.symm
    obtain ⟨q, hq⟩ : ∃ q, s - s' = q + 1 := ⟨s - s' - 1, by omega⟩
    rw [hq] at this
    exact absurd this.symm (h.not_back (by omega))

theorem meet_aux (h : IsPath t x r) (h' : IsPath t y r') {s s' : Nat} (hs' : s' ≤ r') (hle : s ≤ s')
    (he : t.next^[s] x = t.next^[s'] y) : x = y ∧ s = s' := by
  have := Topo.iter_cancel h.up.cut h'.up.cut hle he
  rcases Nat.eq_zero_or_pos (s' - s) with h0 | h0
  · rw [h0] at this
    exact ⟨this, by omega⟩
  · obtain ⟨q, hq⟩ : ∃ q, s' - s = q + 1 := ⟨s' - s - 1, by omega⟩
    rw [hq] at this
    have h1 := Topo.iter_ex_rev (t := t) (e := y) q
    rw [← this, h.first, h'.mid q (by omega)] at h1
    simp at h1

theorem meet (h : IsPath t x r) (h' : IsPath t y r') {s s' : Nat} (hs : s ≤ r) (hs' : s' ≤ r')
    (he : t.next^[s] x = t.next^[s'] y) : x = y ∧ s = s' := by
  rcases le_total s s' with hle | hle
  · exact h.meet_aux h' hs' hle he
  · have := h'.meet_aux h hs hle he.symm
    exact ⟨this.1.symm, this.2.symm⟩

theorem len_unique (h : IsPath t x r) (h' : IsPath t x r') : r = r' := by
  rcases lt_trichotomy r r' with hlt | heq | hlt
  · have := h'.mid r hlt; rw [h.last] at this; simp at this
  · exact heq
  · have := h.mid r' hlt; rw [h'.last] at this; simp at this

end IsPath

namespace IsCycle
variable {t : Topo} {x y : DE} {r r' : Nat}

theorem iter_mod (h : IsCycle t x r) (s : Nat) : t.next^[s] x = t.next^[s % r] x := by
  conv_lhs => rw [← Nat.mod_add_div s r]
  rw [Function.iterate_add_apply]
  congr 1
  generalize s / r = k
  induction k with
  | zero => rfl
  | succ k ih => rw [Nat.mul_succ, Function.iterate_add_apply, h.close]; exact ih

theorem ex_all (h : IsCycle t x r) (s : Nat) : t.ex (t.next^[s] x) = true := by
  rw [h.iter_mod]; exact h.mid _ (Nat.mod_lt _ h.pos)

theorem ex_rev_all (h : IsCycle t x r) (s : Nat) : t.ex (t.next^[s] x).rev = true := by
  have : t.next^[s] x = t.next^[s + (r - 1) + 1] x := by
    rw [show s + (r - 1) + 1 = s + r by have := h.pos; omega, Function.iterate_add_apply, h.close]
  rw [this, Topo.iter_ex_rev]; exact h.ex_all _

theorem inj (h : IsCycle t x r) {s s' : Nat} (hs : s < r) (hs' : s' < r) (he : t.next^[s] x = t.next^[s'] x) : s = s' := by
  rcases lt_trichotomy s s' with hlt | heq | hlt
  · have := Topo.iter_cancel h.up.cut h.up.cut (le_of_lt hlt) he
    exact absurd this.symm (h.least _ (by omega) (by omega))
  · exact heq
  · have := Topo.iter_cancel h.up.cut h.up.cut (le_of_lt hlt) he.symm
    exact absurd this.symm (h.least _ (by omega) (by omega))

theorem rotate (h : IsCycle t x r) (s : Nat) : IsCycle t (t.next^[s] x) r := by
  refine ⟨h.up.iter s, h.pos, ?_, ?_, ?_⟩
  · intro q _
    rw [← Function.iterate_add_apply]; exact h.ex_all _
  · rw [← Function.iterate_add_apply, Nat.add_comm, Function.iterate_add_apply, h.close]
  · intro q h0 hq he
    rw [← Function.iterate_add_apply, Nat.add_comm, Function.iterate_add_apply] at he
    exact h.least q h0 hq (Topo.iter_inj (iter_cut h.up.cut _) h.up.cut s he)

/-- two cycles that meet have the same edges -/
theorem meet (h : IsCycle t x r) (h' : IsCycle t y r') {s s' : Nat} (he : t.next^[s] x = t.next^[s'] y) :
    ∃ k, y = t.next^[k] x := by
  refine ⟨s + (s' * r' - s'), ?_⟩
  have hr := h'.pos
  have hle : s' ≤ s' * r' := Nat.le_mul_of_pos_right _ hr
  rw [Nat.add_comm, Function.iterate_add_apply, he, ← Function.iterate_add_apply,
    show s' * r' - s' + s' = s' * r' by omega, h'.iter_mod, Nat.mul_mod_left]
  rfl

end IsCycle

theorem path_cycle {t : Topo} {x y : DE} {r r' s s' : Nat} (h : IsPath t x r) (h' : IsCycle t y r') (hs : s ≤ r) :
    t.next^[s] x ≠ t.next^[s'] y := by
  intro he
  have : t.next^[r] x = t.next^[r - s + s'] y := by
    rw [Function.iterate_add_apply, ← he, ← Function.iterate_add_apply]; congr 2; omega
  have h1 := h.last
  rw [this, h'.ex_all] at h1
  simp at h1

/-! ### finiteness -/

/-- all directed edges of the mesh -/
def allDE (imax jmax : Nat) : Finset DE :=
  ((Finset.range imax ×ˢ Finset.range jmax) ×ˢ (Finset.univ : Finset Dir)).image fun q => ⟨q.1.1, q.1.2, q.2⟩

theorem mem_allDE {imax jmax : Nat} {e : DE} : e ∈ allDE imax jmax ↔ InBox imax jmax (e.i, e.j) := by
  unfold allDE InBox
  simp only [Finset.mem_image, Finset.mem_product, Finset.mem_range, Finset.mem_univ, and_true, Prod.exists]
  constructor
  · rintro ⟨a, b, d, ⟨h1, h2⟩, rfl⟩
    simp only at *
    omega
  · intro ⟨h1, h2, h3, h4⟩
    refine ⟨e.i.toNat, e.j.toNat, e.d, ⟨by omega, by omega⟩, ?_⟩
    rcases e with ⟨i, j, d⟩
    simp only [DE.mk.injEq, and_true] at *
    omega

theorem card_allDE (imax jmax : Nat) : (allDE imax jmax).card ≤ 4 * (imax * jmax) := by
  unfold allDE
  refine le_trans Finset.card_image_le ?_
  rw [Finset.card_product, Finset.card_product, Finset.card_range, Finset.card_range]
  have : (Finset.univ : Finset Dir).card = 4 := rfl
  rw [this]; omega

/-- an injective run of edges of the mesh is not longer than there are edges -/
theorem run_le {imax jmax : Nat} {f : Nat → DE} {r : Nat} (hin : ∀ s < r, f s ∈ allDE imax jmax)
    (hinj : ∀ s < r, ∀ s' < r, f s = f s' → s = s') : r ≤ 4 * (imax * jmax) := by
  have : ((Finset.range r).image f).card = r := by
    rw [Finset.card_image_of_injOn, Finset.card_range]
    intro a ha b hb hab
    exact hinj a (by simpa using ha) b (by simpa using hb) hab
  rw [← this]
  refine le_trans (Finset.card_le_card ?_) (card_allDE imax jmax)
  intro e he
  simp only [Finset.mem_image, Finset.mem_range] at he
  obtain ⟨s, hs, rfl⟩ := he
  exact hin s hs

section
variable {m : Mesh K} {lev : K} {t : Topo} (ok : TopoOK m lev t)
include ok

theorem TopoOK.mem {e : DE} (h : t.ex e = true) : e ∈ allDE m.imax m.jmax := mem_allDE.mpr (ok.box h).2.2.2.2.2

theorem TopoOK.mem_rev {e : DE} (h : t.ex e.rev = true) : e ∈ allDE m.imax m.jmax := mem_allDE.mpr (ok.box_rev h).2.2

theorem IsPath.len_le {x : DE} {r : Nat} (h : IsPath t x r) : r ≤ 4 * (m.imax * m.jmax) :=
  run_le (fun s hs => ok.mem (h.mid s hs)) fun _ hs _ hs' he => h.inj (le_of_lt hs) (le_of_lt hs') he

theorem IsCycle.len_le {x : DE} {r : Nat} (h : IsCycle t x r) : r ≤ 4 * (m.imax * m.jmax) :=
  run_le (fun s hs => ok.mem (h.mid s hs)) fun _ hs _ hs' he => h.inj hs hs' he

/-- following a curve one leaves the mesh or comes back -/
theorem escape {e : DE} (hc : t.cut e) :
    (∃ s, t.ex (t.next^[s] e) = false) ∨ (∃ p, 0 < p ∧ t.next^[p] e = e ∧ ∀ s, t.ex (t.next^[s] e) = true) := by
  by_cases h : ∃ s, t.ex (t.next^[s] e) = false
  · exact Or.inl h
  · right
    push Not at h
    have h' : ∀ s, t.ex (t.next^[s] e) = true := fun s => by simpa using h s
    have : ¬ ∀ s < 4 * (m.imax * m.jmax) + 1, ∀ s' < 4 * (m.imax * m.jmax) + 1, t.next^[s] e = t.next^[s'] e → s = s' := by
      intro hinj
      have := run_le (fun s (_ : s < 4 * (m.imax * m.jmax) + 1) => ok.mem (h' s)) hinj
      omega
    push Not at this
    obtain ⟨s, _, s', _, he, hne⟩ := this
    rcases lt_or_gt_of_ne hne with hlt | hlt
    · exact ⟨s' - s, by omega, (Topo.iter_cancel hc hc (le_of_lt hlt) he).symm, h'⟩
    · exact ⟨s - s', by omega, (Topo.iter_cancel hc hc (le_of_lt hlt) he.symm).symm, h'⟩

theorem cycle_of {e : DE} (hu : t.up e) {p : Nat} (hp : 0 < p) (he : t.next^[p] e = e)
    (hx : ∀ s, t.ex (t.next^[s] e) = true) : ∃ r, IsCycle t e r := by
  classical
  have hex : ∃ p, 0 < p ∧ t.next^[p] e = e := ⟨p, hp, he⟩
  refine ⟨Nat.find hex, hu, (Nat.find_spec hex).1, fun s _ => hx s, (Nat.find_spec hex).2, ?_⟩
  intro s h0 hs hes
  exact Nat.find_min hex hs ⟨h0, hes⟩

/-- every cut edge of a zone lies on a curve -/
theorem curve_of {e : DE} (hu : t.up e) (hx : t.ex e = true ∨ t.ex e.rev = true) :
    (∃ x r s, IsPath t x r ∧ s ≤ r ∧ t.next^[s] x = e) ∨ ∃ r, IsCycle t e r := by
  classical
  rcases escape ok hu.cut with hf | ⟨p, hp, he, hall⟩
  swap
  · exact Or.inr (cycle_of ok hu hp he hall)
  left
  rcases escape ok (t.cut_rev.mpr hu.cut) with hb | ⟨p, hp, he, hall⟩
  · set r1 := Nat.find hf with hr1
    set r0 := Nat.find hb with hr0
    have f1 := Nat.find_spec hf
    have b1 := Nat.find_spec hb
    have f2 : ∀ s < r1, t.ex (t.next^[s] e) = true := fun s hs => by simpa using Nat.find_min hf hs
    have b2 : ∀ s < r0, t.ex (t.next^[s] e.rev) = true := fun s hs => by simpa using Nat.find_min hb hs
    rw [← hr1] at f1
    rw [← hr0] at b1
    have hback : ∀ s ≤ r0, t.next^[s] (t.next^[r0] e.rev).rev = (t.next^[r0 - s] e.rev).rev :=
      fun s hs => Topo.iter_rev (t.cut_rev.mpr hu.cut) r0 s hs
    have hfwd : ∀ s, t.next^[r0 + s] (t.next^[r0] e.rev).rev = t.next^[s] e := by
      intro s
      rw [Nat.add_comm, Function.iterate_add_apply, hback r0 le_rfl, Nat.sub_self]
      simp only [Function.iterate_zero, id_eq, DE.rev_rev]
    refine ⟨(t.next^[r0] e.rev).rev, r0 + r1, r0, ⟨?_, ?_, ?_, ?_, ?_⟩, by omega, hfwd 0⟩
    · exact Topo.up.iter_rev (by rw [DE.rev_rev]; exact hu) r0
    · by_contra h0
      have e0 : r0 = 0 := by omega
      have e1 : r1 = 0 := by omega
      rw [e1] at f1
      rw [e0] at b1
      simp only [Function.iterate_zero, id_eq] at f1 b1
      rw [f1, b1] at hx
      simp at hx
    · rw [DE.rev_rev]; exact b1
    · intro s hs
      rcases lt_or_ge s r0 with hlt | hge
      · rw [hback s (le_of_lt hlt)]
        obtain ⟨q, hq⟩ : ∃ q, r0 - s = q + 1 := ⟨r0 - s - 1, by omega⟩
        rw [hq, Topo.iter_ex_rev]
        exact b2 q (by omega)
      · obtain ⟨q, rfl⟩ : ∃ q, s = r0 + q := ⟨s - r0, by omega⟩
        rw [hfwd]; exact f2 q (by omega)
    · rw [hfwd]; exact f1
  · exfalso
    obtain ⟨r1, hr1⟩ := hf
    have hper : ∀ k, t.next^[p * k] e.rev = e.rev := by
      intro k
      induction k with
      | zero => rfl
      | succ k ih => rw [Nat.mul_succ, Function.iterate_add_apply, he]; exact ih
    have hle : r1 + 1 ≤ p * (r1 + 1) := Nat.le_mul_of_pos_left _ hp
    have := Topo.iter_rev (t.cut_rev.mpr hu.cut) (p * (r1 + 1)) r1 (by omega)
    rw [hper, DE.rev_rev] at this
    rw [this] at hr1
    obtain ⟨q, hq⟩ : ∃ q, p * (r1 + 1) - r1 = q + 1 := ⟨p * (r1 + 1) - r1 - 1, by omega⟩
    rw [hq, Topo.iter_ex_rev, hall] at hr1
    simp at hr1

end
end Trackeddy.Cntr
