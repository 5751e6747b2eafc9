import Verif.Proofs.Cntr.Contours

/-!
The result does not depend on the memory that is not initialised.
-/
namespace Trackeddy.Cntr

variable {K : Type} [Field K] [LinearOrder K]

theorem Plan.unique {t : Topo} {S : St} {d : DE} {r r' : Nat} (h : Plan t S d r) (h' : Plan t S d r') : r = r' := by
  have key : ∀ {r r' : Nat}, Plan t S d r → Plan t S d r' → ¬ r < r' := by
    intro r r' h h' hlt
    have hx := h'.mid r hlt
    obtain ⟨hJ, hs⟩ := h.stop hx
    obtain ⟨h1, h2⟩ := h'.go r hlt (by have := h.pos; omega)
    rcases hs with hs | hs
    · rcases h2 with h2 | h2
      · rw [hJ] at h2; simp at h2
      · exact h2 hs
    · exact h1 hs.2
  have h1 := key h h'
  have h2 := key h' h
  omega

theorem Runs.unique {m : Mesh K} {t : Topo} {S : St} {κ : Int} {A B : St} (h : Runs m.imax t S κ A)
    (hb : ∀ a, S.M a → InBox m.imax m.jmax (a.i, a.j)) (hkey : ∀ a, S.M a → a ∉ S.W → κ < a.key m.imax)
    (h' : Runs m.imax t S κ B) : A = B := by
  induction h with
  | stop hall =>
    cases h' with
    | stop _ => rfl
    | step hd hw _ _ _ _ => exact absurd (hall _ hd) hw
  | @step S S' κ d r hd hw hk hl hp hrest ih =>
    cases h' with
    | stop hall => exact absurd (hall _ hd) hw
    | @step _ _ _ d' r' hd' hw' hk' hl' hp' hrest' =>
      have hdd : d = d' := key_inj (hb d hd) (hb d' hd') (le_antisymm (hl d' hd' hk') (hl' d hd hk))
      subst hdd
      have hrr := hp.unique hp'
      subst hrr
      apply ih
      · intro a ha
        exact hb a (after_M_sub ha).1
      · intro a ha hn
        have hM := (after_M_sub ha).1
        by_cases hne : a = d
        · subst hne
          by_cases hk' : Kept t a r
          · exact absurd (by rw [(after_kept hk').2.2]; simp) hn
          · rw [(after_opened hk').1] at ha
            exact absurd rfl ha.2
        · rw [after_W hne] at hn
          have h1 := hl a hM (hkey a hM hn)
          rcases lt_or_eq_of_le h1 with h1 | h1
          · exact h1
          · exact absurd (key_inj (hb d hd) (hb a hM) h1).symm hne
      · exact hrest'

theorem topoOf_junk (m : Mesh K) (mask : Option (Nat → Bool)) (rjunk rjunk' : Nat → Bool) (lev : K) :
    topoOf m mask rjunk lev = topoOf m mask rjunk' lev := by
  have hz : (topoOf m mask rjunk lev).zone = (topoOf m mask rjunk' lev).zone := by
    funext i j
    rw [Bool.eq_iff_iff, zone_iff, zone_iff]
  have h1 : (topoOf m mask rjunk lev).hi = (topoOf m mask rjunk' lev).hi := rfl
  have h2 : (topoOf m mask rjunk lev).sad = (topoOf m mask rjunk' lev).sad := rfl
  cases h : topoOf m mask rjunk lev
  cases h' : topoOf m mask rjunk' lev
  rw [h, h'] at hz h1 h2
  simp only at hz h1 h2
  rw [hz, h1, h2]

theorem reg_ok (m : Mesh K) (mask : Option (Nat → Bool)) (rjunk : Nat → Bool) :
    RegOK m (mask.map fun k => maskZones m.imax m.jmax k rjunk) := by
  cases mask with
  | none => exact regOK_none m
  | some k => exact regOK_mask m k rjunk

/-- the start marks are determined by the topology -/
theorem marks_same {K' : Type} [Field K'] [LinearOrder K'] {m : Mesh K} {m' : Mesh K'} (hi : m.imax = m'.imax) (hj : m.jmax = m'.jmax) {mask mask' : Option (Nat → Bool)}
    {lev : K} {lev' : K'} {junk junk' : Arr Cell} {sjunk sjunk' : Arr (Option Bool)} {rjunk rjunk' : Nat → Bool}
    (ht : topoOf m mask rjunk lev = topoOf m' mask' rjunk' lev') :
    marked m (dataInit m (mask.map fun k => maskZones m.imax m.jmax k rjunk) lev junk sjunk).data =
    marked m' (dataInit m' (mask'.map fun k => maskZones m'.imax m'.jmax k rjunk') lev' junk' sjunk').data := by
  have key : ∀ {K K' : Type} [Field K] [LinearOrder K] [Field K'] [LinearOrder K'] {m : Mesh K} {m' : Mesh K'}
      (_ : m.imax = m'.imax) (_ : m.jmax = m'.jmax) {mask mask' : Option (Nat → Bool)}
      {lev : K} {lev' : K'} {junk junk' : Arr Cell} {sjunk sjunk' : Arr (Option Bool)} {rjunk rjunk' : Nat → Bool}
      (_ : topoOf m mask rjunk lev = topoOf m' mask' rjunk' lev') (a : DE),
      marked m (dataInit m (mask.map fun k => maskZones m.imax m.jmax k rjunk) lev junk sjunk).data a →
      marked m' (dataInit m' (mask'.map fun k => maskZones m'.imax m'.jmax k rjunk') lev' junk' sjunk').data a := by
    intro K K' _ _ _ _ m m' hi hj mask mask' lev lev' junk junk' sjunk sjunk' rjunk rjunk' ht a ha
    obtain ⟨imax, jmax, x, y, z⟩ := m
    obtain ⟨imax', jmax', x', y', z'⟩ := m'
    simp only at hi hj
    subst hi hj
    obtain ⟨fl, hi⟩ := dataInit_spec ⟨imax, jmax, x, y, z⟩ (mask.map fun k => maskZones imax jmax k rjunk) lev junk sjunk
    obtain ⟨fl', hi'⟩ := dataInit_spec ⟨imax, jmax, x', y', z'⟩ (mask'.map fun k => maskZones imax jmax k rjunk') lev' junk' sjunk'
    obtain ⟨i, j, d⟩ := a
    obtain ⟨hb, hm⟩ := ha
    refine ⟨hb, ?_⟩
    unfold mk DE.edgeOf at hm ⊢
    simp only at hm ⊢ hb
    rw [inited_cell hi hb] at hm
    have hc' := inited_cell hi' hb
    simp only at hc'
    rw [hc']
    obtain ⟨_, b1, b2, c1, c2, c3, c4, _⟩ := F_coord (lev := lev) (reg_ok ⟨imax, jmax, x, y, z⟩ mask rjunk) hb
    obtain ⟨_, b1', b2', c1', c2', c3', c4', _⟩ := F_coord (lev := lev') (reg_ok ⟨imax, jmax, x', y', z'⟩ mask' rjunk') hb
    unfold topoOf at ht
    simp only at ht b1 b2 c1 c2 c3 c4 b1' b2' c1' c2' c3' c4'
    rw [ht] at b1 b2 c1 c2 c3 c4
    rw [← b1'] at b1
    rw [← b2'] at b2
    cases d <;> simp only [Cell.bit] at hm ⊢
    · rw [c1'.trans (by rw [← b1])]; exact c1.mp hm
    · rw [c2'.trans (by rw [← b1])]; exact c2.mp hm
    · rw [c3'.trans (by rw [← b2])]; exact c3.mp hm
    · rw [c4'.trans (by rw [← b2])]; exact c4.mp hm
  funext a
  exact propext ⟨key hi hj ht a, key hi.symm hj.symm ht.symm a⟩

theorem Route.unique {t : Topo} {w : DE} {r r' : Nat} (h : Route t w r) (h' : Route t w r') : r = r' := by
  have key : ∀ {r r' : Nat}, Route t w r → Route t w r' → ¬ r < r' := by
    intro r r' h h' hlt
    cases hx : t.ex w.rev
    · have := h.stop hx
      rw [h'.mid r hlt] at this; simp at this
    · exact h'.fresh r h.pos hlt (h.close hx)
  have h1 := key h h'
  have h2 := key h' h
  omega

end Trackeddy.Cntr
