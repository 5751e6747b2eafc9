import Verif.Proofs.Cntr.Scan

/-!
One call of `curve_tracer` on the first pass, from the start `d` on.
-/
namespace Trackeddy.Cntr

variable {K : Type} [Field K] [LinearOrder K]

/-- the data describe the state of the first pass -/
structure Mem (m : Mesh K) (t : Topo) (s : Site) (S : St) : Prop where
  link : Link m t s.data
  sad : SadOK m t s.saddle
  marks : ∀ a, marked m s.data a ↔ S.M a
  opn : ∀ a : DE, InBox m.imax m.jmax (a.i, a.j) → a.isJ = false →
    ((s.data (a.edgeOf m.imax)).opn = true ↔ S.O a)
  osym : ∀ e, S.O e.rev → S.O e
  count : s.count = total m s.data - S.W.length

/-- the start is kept -/
def Kept (t : Topo) (d : DE) (r : Nat) : Prop := ¬ (t.ex d.rev = true ∧ t.next^[r] d ≠ d)

theorem after_kept {t : Topo} {S : St} {d : DE} {r : Nat} (h : Kept t d r) :
    (after t S d r).M = (fun a => S.M a ∧ ¬ Clr t 0 r d d a) ∧ (after t S d r).O = S.O ∧ (after t S d r).W = S.W ++ [d] := by
  unfold after
  rw [if_neg h]
  exact ⟨rfl, rfl, rfl⟩

theorem after_opened {t : Topo} {S : St} {d : DE} {r : Nat} (h : ¬ Kept t d r) :
    (after t S d r).M = (fun a => (S.M a ∧ ¬ Clr t 0 r d d a) ∧ a ≠ d) ∧
    (after t S d r).O = (fun a => S.O a ∨ a = d ∨ a = d.rev) ∧ (after t S d r).W = S.W := by
  unfold Kept at h
  rw [not_not] at h
  unfold after
  rw [if_pos h]
  exact ⟨rfl, rfl, rfl⟩

theorem same_edge {imax jmax : Nat} {a b : DE} (ha : InBox imax jmax (a.i, a.j)) (hb : InBox imax jmax (b.i, b.j))
    (hJ : a.isJ = b.isJ) : a.edgeOf imax = b.edgeOf imax ↔ a = b ∨ a = b.rev := by
  constructor
  · intro he
    have := idx_inj ⟨ha.1, ha.2.1⟩ ⟨hb.1, hb.2.1⟩ he
    rw [Prod.mk.injEq] at this
    rcases a with ⟨i, j, da⟩
    rcases b with ⟨i', j', db⟩
    simp only at this
    obtain ⟨rfl, rfl⟩ := this
    cases da <;> cases db <;> simp [DE.isJ] at hJ <;> simp [DE.rev]
  · rintro (rfl | rfl)
    · rfl
    · exact DE.rev_edge b

theorem not_clr_self {t : Topo} {S : St} {d : DE} {r : Nat} (hc : t.cut d) (hp : Plan t S d r) : ¬ Clr t 0 r d d d := by
  rintro (⟨s, hs, h0, _, h | h⟩ | ⟨_, _, h⟩)
  · exact (hp.go s hs (by omega)).1 h.symm
  · rcases Topo.up_or hc with hu | hu
    · exact (hu.iter s).not_rev (by rw [← h]; exact hu)
    · have := hu.iter_rev s
      rw [← h] at this
      exact hu.not_rev (by rw [DE.rev_rev]; exact this)
  · exact h rfl

open Classical in
theorem total_mono {m : Mesh K} {D D' : Arr Cell} (h : ∀ a, marked m D' a → marked m D a) : total m D' ≤ total m D := by
  rw [total_card, total_card]
  refine Int.ofNat_le.mpr (Finset.card_le_card ?_)
  intro a ha
  rw [Finset.mem_filter] at ha ⊢
  exact ⟨ha.1, h a ha.2⟩

/-- removing the mark of an i-edge -/
theorem clear_bit {d : DE} (hJ : d.isJ = false) (imax : Nat) (c : Cell) :
    let c' := if d.leftOf imax > 0 then { c with opn := true, i1 := false } else { c with opn := true, i0 := false }
    (∀ x, c'.bit x = (c.bit x && !decide (x = d.d))) ∧ c'.opn = true ∧ c'.z = c.z ∧ c'.iB = c.iB ∧ c'.jB = c.jB ∧
      c'.row = c.row ∧ c'.allDone = c.allDone ∧ (c.bit d.d = true → c'.bits = c.bits - 1) := by
  rcases d with ⟨i, j, d⟩
  cases d <;> simp [DE.isJ] at hJ
  · simp only [DE.leftOf]
    refine ⟨?_, rfl, rfl, rfl, rfl, rfl, rfl, ?_⟩
    · intro x; cases x <;> simp [Cell.bit]
    · intro h
      simp only [Cell.bit] at h
      simp [Cell.bits, h]
      ring
  · simp only [DE.leftOf]
    refine ⟨?_, rfl, rfl, rfl, rfl, rfl, rfl, ?_⟩
    · intro x; cases x <;> simp [Cell.bit]
    · intro h
      simp only [Cell.bit] at h
      simp [Cell.bits, h]
      ring

section
variable {m : Mesh K} {lev : K} {t : Topo} (ok : TopoOK m lev t) {M0 : DE → Prop} (mo : MarksOK t M0)
include ok mo

theorem cross1 {s : Site} {S : St} {d : DE} {r fuel : Nat} (hm : Mem m t s S) (hi : Inv t M0 S) (hd : S.M d)
    (hp : Plan t S d r) (hf : r + 1 ≤ fuel) (he0 : 0 ≤ s.edge00) (he1 : s.edge00 ≤ d.edgeOf m.imax) :
    ∃ (c : Cross K) (n : Int) (s' : Site),
      zoneCrosser m lev false fuel { s with count := s.count - 1 } (d.edgeOf m.imax) (d.leftOf m.imax) (t.ex d.rev) = .ok c ∧
      finishPass1 m { s with count := s.count - 1 } (d.edgeOf m.imax) (d.leftOf m.imax) (t.ex d.rev) c = .ok (n, s') ∧
      Mem m t s' (after t S d r) ∧ s'.edge0 = d.edgeOf m.imax ∧ s'.left0 = d.leftOf m.imax ∧ s'.count < s.count ∧
      (∀ k, (s'.data k).allDone = (s.data k).allDone) ∧
      (Kept t d r → n = newLen t d r + (if t.ex d.rev then 1 else 0) ∧ s'.edge00 = d.edgeOf m.imax ∧
        ∀ k, (s'.data k).row = true ↔ (s.data k).row = true ∨ k = d.edgeOf m.imax - (d.edgeOf m.imax - s.edge00) % m.imax) ∧
      (¬ Kept t d r → n = -(newLen t d r : Int) ∧ s'.edge00 = s.edge00 ∧ ∀ k, (s'.data k).row = (s.data k).row) := by
  classical
  have hd0 := hi.sub d hd
  have hdm := (hm.marks d).mpr hd
  have hb0 : InBox m.imax m.jmax (d.i, d.j) := hdm.1
  have hex := mo.ex d hd0
  have hcut := mo.cut d hd0
  have h2 := ok.imax2 hex
  have hrg := marked_range hdm
  have hbs : ∀ s, s < r → InBox m.imax m.jmax ((t.next^[s] d).i, (t.next^[s] d).j) :=
    fun s hs => (ok.box (hp.mid s hs)).2.2.2.2.2
  have hO : ∀ a : DE, InBox m.imax m.jmax (a.i, a.j) → a.isJ = false → ((s.data (a.edgeOf m.imax)).opn = false ↔ ¬ S.O a) := by
    intro a ha hJ
    rw [← hm.opn a ha hJ]; simp
  obtain ⟨c, hc, hn, hst, hsd, hcnt, hdone, hmk⟩ := loop1_run ok (level0 := t.ex d.rev) hb0 r
    { edge := d.edgeOf m.imax, left := d.leftOf m.imax, fwd := FORWARD (d.leftOf m.imax) m.imax, jedge := IS_JEDGE (d.leftOf m.imax),
      n := 0, done := 0, data := s.data, saddle := s.saddle, count := s.count - 1, pts := [] } d fuel
    ⟨rfl, rfl, DE.forward_left h2 d, DE.isJ_left h2 d⟩ hm.link hm.sad hcut rfl hp.pos hf hp.mid
    (by
      intro s' hs' h0
      have h0 : s' ≠ 0 := by simpa using h0
      obtain ⟨h1, h3⟩ := hp.go s' hs' h0
      refine ⟨h1, ?_⟩
      cases hJ : (t.next^[s'] d).isJ
      · right
        rcases h3 with h3 | h3
        · rw [hJ] at h3; simp at h3
        · exact (hO _ (hbs s' hs') hJ).mpr h3
      · exact Or.inl rfl)
    (by
      intro hx
      obtain ⟨hJ, h⟩ := hp.stop hx
      refine ⟨hJ, ?_⟩
      rcases h with h | h
      · exact Or.inl ((hm.opn _ (ok.box hx).2.2.2.2.2 hJ).mpr h)
      · exact Or.inr h)
  simp only at hn hst hsd hcnt hdone hmk
  -- how the visit ends
  have hopn_iff : t.ex (t.next^[r] d) = true →
      ((s.data ((t.next^[r] d).edgeOf m.imax)).opn = true ↔ S.O (t.next^[r] d)) := fun hx =>
    hm.opn _ (ok.box hx).2.2.2.2.2 (hp.stop hx).1
  have hclosed : t.next^[r] d = d → t.ex d.rev = true := by
    intro h
    obtain ⟨q, rfl⟩ : ∃ q, r = q + 1 := ⟨r - 1, by have := hp.pos; omega⟩
    rw [← h, Topo.iter_ex_rev]
    exact hp.mid q (by omega)
  have hmks : ∀ a, marked m c.data a ↔ S.M a ∧ ¬ Clr t 0 r d d a := by
    intro a
    rw [← hm.marks a]
    unfold marked
    constructor
    · rintro ⟨h1, h3⟩
      have := (hmk a h1).mp h3
      exact ⟨⟨h1, this.1⟩, this.2⟩
    · rintro ⟨⟨h1, h3⟩, h4⟩
      exact ⟨h1, (hmk a h1).mpr ⟨h3, h4⟩⟩
  have htot : total m c.data ≤ total m s.data := by
    apply total_mono
    intro a ha
    exact (hm.marks a).mpr ((hmks a).mp ha).1
  have hmd : marked m c.data d := (hmks d).mpr ⟨hd, not_clr_self hcut hp⟩
  have hcount := hm.count
  have hrdE : rd m.nreg c.data (d.edgeOf m.imax) = .ok (c.data (d.edgeOf m.imax)) := rd_ok ⟨hrg.1, ijmax_nreg hrg.2⟩
  by_cases hk : Kept t d r
  · -- kept
    obtain ⟨aM, aO, aW⟩ := after_kept (S := S) hk
    have hnot : ¬ (c.done > 3 ∧ t.ex d.rev = true) := by
      rintro ⟨h1, h3⟩
      have hcl : t.next^[r] d = d := by
        by_contra hne
        exact hk ⟨h3, hne⟩
      rw [hdone, hcl] at h1
      have : (s.data (d.edgeOf m.imax)).opn = false := by
        have hJ := (mo.inner d hd0 h3).1
        exact (hO d hb0 hJ).mpr (hp.closed hcl)
      rw [if_pos ⟨hex, this⟩] at h1
      omega
    set q := d.edgeOf m.imax - (d.edgeOf m.imax - s.edge00) % m.imax with hq
    have hmod0 : 0 ≤ (d.edgeOf m.imax - s.edge00) % (m.imax : Int) := Int.emod_nonneg _ (by omega)
    have hmod1 : (d.edgeOf m.imax - s.edge00) % (m.imax : Int) ≤ d.edgeOf m.imax - s.edge00 := by
      have := Int.emod_add_mul_ediv (d.edgeOf m.imax - s.edge00) m.imax
      have h3 : 0 ≤ (m.imax : Int) * ((d.edgeOf m.imax - s.edge00) / m.imax) :=
        mul_nonneg (by omega) (Int.ediv_nonneg (by omega) (by omega))
      omega
    have hrdQ : rd m.nreg c.data q = .ok (c.data q) := rd_ok ⟨by omega, ijmax_nreg (by omega)⟩
    refine ⟨c, c.n, { s with
      data := upd c.data q { c.data q with row := true }, saddle := c.saddle, count := c.count, edge0 := d.edgeOf m.imax,
      left0 := d.leftOf m.imax, edge00 := d.edgeOf m.imax }, hc, ?_, ?_, rfl, rfl, ?_, ?_, ?_, fun h => absurd hk h⟩
    · unfold finishPass1
      simp only [hrdE, bind, Except.bind, pure, Except.pure]
      rw [if_neg hnot, ← hq, hrdQ]
    · have hbit : ∀ (k : Int) (x : Dir), ((upd c.data q { c.data q with row := true }) k).bit x = (c.data k).bit x := by
        intro k x
        simp only [upd]
        split
        · rename_i h; rw [h]; cases x <;> rfl
        · rfl
      have hmk' : ∀ a, marked m (upd c.data q { c.data q with row := true }) a ↔ marked m c.data a := by
        intro a; unfold marked mk; rw [hbit]
      have hother : ∀ k, ((upd c.data q { c.data q with row := true }) k).z = (c.data k).z ∧
          ((upd c.data q { c.data q with row := true }) k).iB = (c.data k).iB ∧
          ((upd c.data q { c.data q with row := true }) k).jB = (c.data k).jB ∧
          ((upd c.data q { c.data q with row := true }) k).opn = (c.data k).opn := by
        intro k
        simp only [upd]
        split
        · rename_i h; rw [h]; exact ⟨rfl, rfl, rfl, rfl⟩
        · exact ⟨rfl, rfl, rfl, rfl⟩
      have hl' := hst.link hm.link
      refine ⟨⟨?_, ?_, ?_⟩, hsd, ?_, ?_, ?_, ?_⟩
      · intro p hp'; rw [(hother _).1]; exact hl'.z p hp'
      · intro i j hb; rw [(hother _).2.1]; exact hl'.ib i j hb
      · intro i j hb; rw [(hother _).2.2.1]; exact hl'.jb i j hb
      · intro a; rw [hmk', hmks, aM]
      · intro a ha hJ
        rw [(hother _).2.2.2, hst.opn, aO]
        exact hm.opn a ha hJ
      · rw [aO]; exact hm.osym
      · simp only
        rw [total_upd_same, aW, List.length_append, List.length_singleton]
        · push_cast; omega
        · rfl
    · simp only
      omega
    · intro k
      simp only [upd]
      split
      · rename_i h; rw [h]; exact hst.allDone q
      · exact hst.allDone k
    · intro _
      refine ⟨?_, rfl, ?_⟩
      · rw [hn]
        unfold newLen
        by_cases hx : t.ex (t.next^[r] d) = true
        · rw [if_pos hx]
          rcases (hp.stop hx).2 with hO' | ⟨h3, hcl⟩
          · have : t.ex d.rev = false := by
              cases h3 : t.ex d.rev
              · rfl
              · exfalso
                have hcl : t.next^[r] d = d := by
                  by_contra hne
                  exact hk ⟨h3, hne⟩
                exact hp.closed hcl (hcl ▸ hO')
            rw [if_pos ⟨hx, (hopn_iff hx).mpr hO'⟩, this]
            simp
          · have : ¬ (t.ex (t.next^[r] d) = true ∧ (s.data ((t.next^[r] d).edgeOf m.imax)).opn = true) := by
              rintro ⟨_, h4⟩
              rw [hopn_iff hx] at h4
              exact hp.closed hcl (hcl ▸ h4)
            rw [if_neg this, h3]
            simp
        · rw [if_neg hx, if_neg (fun h => hx h.1)]
          have : t.ex d.rev = false := by
            cases h3 : t.ex d.rev
            · rfl
            · exfalso
              have hcl : t.next^[r] d = d := by
                by_contra hne
                exact hk ⟨h3, hne⟩
              exact hx (by rw [hcl]; exact hex)
          rw [this]
          simp
      · intro k
        simp only [upd]
        split
        · rename_i h; simp [h]
        · rename_i h
          rw [hst.row]
          simp [h]
  · -- opened
    obtain ⟨aM, aO, aW⟩ := after_opened (S := S) hk
    have hk' := hk
    unfold Kept at hk'
    rw [not_not] at hk'
    obtain ⟨h3, hne⟩ := hk'
    have hJ := (mo.inner d hd0 h3).1
    have hyes : c.done > 3 ∧ t.ex d.rev = true := by
      refine ⟨?_, h3⟩
      rw [hdone]
      by_cases hx : t.ex (t.next^[r] d) = true
      · rcases (hp.stop hx).2 with hO' | ⟨_, hcl⟩
        · rw [if_neg]
          · omega
          · rintro ⟨_, h4⟩
            rw [(hopn_iff hx).mpr hO'] at h4
            simp at h4
        · exact absurd hcl hne
      · rw [if_neg (fun h => hx h.1)]; omega
    obtain ⟨cb, co, cz, ciB, cjB, crow, cad, cbits⟩ := clear_bit hJ m.imax (c.data (d.edgeOf m.imax))
    set ce := (if d.leftOf m.imax > 0 then { c.data (d.edgeOf m.imax) with opn := true, i1 := false }
      else { c.data (d.edgeOf m.imax) with opn := true, i0 := false }) with hce
    refine ⟨c, -(c.n : Int), { s with
      data := upd c.data (d.edgeOf m.imax) ce, saddle := c.saddle, count := c.count, edge0 := d.edgeOf m.imax,
      left0 := d.leftOf m.imax }, hc, ?_, ?_, rfl, rfl, ?_, ?_, fun h => absurd h hk, ?_⟩
    · unfold finishPass1
      simp only [hrdE, bind, Except.bind, pure, Except.pure]
      rw [if_pos hyes]
    · have hget : ∀ k, (upd c.data (d.edgeOf m.imax) ce) k = if k = d.edgeOf m.imax then ce else c.data k := fun k => rfl
      have hother : ∀ k, ((upd c.data (d.edgeOf m.imax) ce) k).z = (c.data k).z ∧
          ((upd c.data (d.edgeOf m.imax) ce) k).iB = (c.data k).iB ∧
          ((upd c.data (d.edgeOf m.imax) ce) k).jB = (c.data k).jB := by
        intro k
        rw [hget]
        split
        · rename_i h; rw [h]; exact ⟨cz, ciB, cjB⟩
        · exact ⟨rfl, rfl, rfl⟩
      have hl' := hst.link hm.link
      refine ⟨⟨?_, ?_, ?_⟩, hsd, ?_, ?_, ?_, ?_⟩
      · intro p hp'; rw [(hother _).1]; exact hl'.z p hp'
      · intro i j hb; rw [(hother _).2.1]; exact hl'.ib i j hb
      · intro i j hb; rw [(hother _).2.2]; exact hl'.jb i j hb
      · intro a
        rw [aM]
        simp only
        rw [← hmks]
        unfold marked mk
        rw [hget]
        by_cases he : a.edgeOf m.imax = d.edgeOf m.imax
        · rw [if_pos he, cb, ← he]
          simp only [Bool.and_eq_true, Bool.not_eq_true', decide_eq_false_iff_not]
          constructor
          · rintro ⟨h1, h4, h5⟩
            refine ⟨⟨h1, h4⟩, ?_⟩
            rintro rfl
            exact h5 rfl
          · rintro ⟨⟨h1, h4⟩, h5⟩
            refine ⟨h1, h4, fun h => h5 ?_⟩
            have := idx_inj ⟨h1.1, h1.2.1⟩ ⟨hb0.1, hb0.2.1⟩ he
            rw [Prod.mk.injEq] at this
            rcases a with ⟨i, j, da⟩
            rcases d with ⟨i', j', dd⟩
            simp only at this h
            rw [this.1, this.2, h]
        · rw [if_neg he]
          constructor
          · intro h
            refine ⟨h, ?_⟩
            rintro rfl
            exact he rfl
          · exact fun h => h.1
      · intro a ha haJ
        rw [aO]
        simp only
        rw [hget, ← same_edge ha hb0 (haJ.trans hJ.symm)]
        by_cases he : a.edgeOf m.imax = d.edgeOf m.imax
        · rw [if_pos he]
          simp [he, co]
        · rw [if_neg he, hst.opn, hm.opn a ha haJ]
          simp [he]
      · rw [aO]
        rintro e (h | h | h)
        · exact Or.inl (hm.osym e h)
        · right; right; rw [← h, DE.rev_rev]
        · right; left; exact DE.rev_inj h
      · simp only
        rw [total_upd _ hrg, cbits hmd.2, aW]
        omega
    · simp only
      omega
    · intro k
      simp only [upd]
      split
      · rename_i h; rw [h, cad]; exact hst.allDone _
      · exact hst.allDone k
    · intro _
      refine ⟨?_, rfl, ?_⟩
      · rw [hn]
        unfold newLen
        by_cases hx : t.ex (t.next^[r] d) = true
        · rw [if_pos hx]
          rcases (hp.stop hx).2 with hO' | ⟨_, hcl⟩
          · rw [if_pos ⟨hx, (hopn_iff hx).mpr hO'⟩]
            simp
          · exact absurd hcl hne
        · rw [if_neg hx, if_neg (fun h => hx h.1)]
          simp
      · intro k
        simp only [upd]
        split
        · rename_i h; rw [h, crow]; exact hst.row _
        · exact hst.row k

end
end Trackeddy.Cntr
