import Verif.Proofs.Cntr.Marks

/-!
The start marks made by `data_init` suffice: every curve has one.
-/
namespace Trackeddy.Cntr

variable {K : Type} [Field K] [LinearOrder K]

/-- the start marks as a set -/
def marked (m : Mesh K) (data : Arr Cell) (a : DE) : Prop := InBox m.imax m.jmax (a.i, a.j) ∧ mk m.imax data a = true

section
variable {m : Mesh K} {reg : Option (Nat → Bool)} {lev : K} {s : Site} {fl : Option Nat}

theorem inited_cell (hi : Inited m reg lev s fl) {i j : Int} (hb : InBox m.imax m.jmax (i, j)) :
    s.data (idx m.imax (i, j)) =
      { F m reg lev (idx m.imax (i, j)).toNat with
        row := decide (∃ j', fl = Option.some j' ∧ (idx m.imax (i, j)).toNat = j' * m.imax)
        allDone := decide ((idx m.imax (i, j)).toNat = 0 ∧ s.count = 0) } := by
  obtain ⟨e1, e2, e3, e4, e5⟩ := idx_toNat hb
  have := hi.data _ e5
  rw [e4] at this
  exact this

theorem inited_link (hi : Inited m reg lev s fl) (hr : RegOK m reg) : Link m (mkTopo m reg lev) s.data := by
  have ok := mkTopo_ok m reg lev
  constructor
  · intro p hp
    rw [inited_cell hi hp]
    exact (F_coord hr hp).1
  · intro i j hb hz
    rw [inited_cell hi hb]
    have h := (F_coord (lev := lev) hr hb).2.1
    change ((F m reg lev (idx m.imax (i, j)).toNat).iB = false ↔ _)
    generalize (F m reg lev (idx m.imax (i, j)).toNat).iB = u at h ⊢
    cases u
    · simp only [Bool.false_eq_true, false_iff] at h
      push Not at h
      rw [h.2.2] at hz ⊢
      simp only [or_self] at hz
      simp [hz]
    · simp only [true_iff] at h
      simp only [Bool.true_eq_false, false_iff]
      rintro ⟨h1, h2⟩
      have b1 := ok.zone _ _ h1
      have b2 := ok.zone _ _ h2
      rw [h1, h2] at h
      simp only [ne_eq, not_true_eq_false, or_false] at h
      omega
  · intro i j hb hz
    rw [inited_cell hi hb]
    have h := (F_coord (lev := lev) hr hb).2.2.1
    change ((F m reg lev (idx m.imax (i, j)).toNat).jB = false ↔ _)
    generalize (F m reg lev (idx m.imax (i, j)).toNat).jB = u at h ⊢
    cases u
    · simp only [Bool.false_eq_true, false_iff] at h
      push Not at h
      rw [h.2.2] at hz ⊢
      simp only [or_self] at hz
      simp [hz]
    · simp only [true_iff] at h
      simp only [Bool.true_eq_false, false_iff]
      rintro ⟨h1, h2⟩
      have b1 := ok.zone _ _ h1
      have b2 := ok.zone _ _ h2
      rw [h1, h2] at h
      simp only [ne_eq, not_true_eq_false, or_false] at h
      omega

theorem inited_marksOK (hi : Inited m reg lev s fl) (hr : RegOK m reg) :
    MarksOK (mkTopo m reg lev) (marked m s.data) := by
  have ok := mkTopo_ok m reg lev
  have hl := inited_link hi hr
  have hbit : ∀ {i j : Int} (d : Dir), InBox m.imax m.jmax (i, j) →
      mk m.imax s.data ⟨i, j, d⟩ = (F m reg lev (idx m.imax (i, j)).toNat).bit d := by
    intro i j d hb
    unfold mk DE.edgeOf
    simp only
    rw [inited_cell hi hb]
    cases d <;> rfl
  have hiB : ∀ {i j : Int}, InBox m.imax m.jmax (i, j) →
      (F m reg lev (idx m.imax (i, j)).toNat).iB = (s.data (idx m.imax (i, j))).iB := by
    intro i j hb; rw [inited_cell hi hb]
  have hjB : ∀ {i j : Int}, InBox m.imax m.jmax (i, j) →
      (F m reg lev (idx m.imax (i, j)).toNat).jB = (s.data (idx m.imax (i, j))).jB := by
    intro i j hb; rw [inited_cell hi hb]
  constructor
  · rintro ⟨i, j, d⟩ ⟨hb, hm⟩
    simp only at hb
    rw [hbit d hb] at hm
    obtain ⟨_, _, _, c1, c2, c3, c4, _⟩ := F_coord (lev := lev) hr hb
    cases d <;> simp only [Cell.bit] at hm
    · exact (c1.mp hm).2.2.1
    · exact (c2.mp hm).2.2.1
    · exact (c3.mp hm).2.2.1
    · exact (c4.mp hm).2.2.1
  · rintro ⟨i, j, d⟩ ⟨hb, hm⟩
    simp only at hb
    rw [hbit d hb] at hm
    obtain ⟨_, _, _, c1, c2, c3, c4, _⟩ := F_coord (lev := lev) hr hb
    unfold Topo.cut
    cases d <;> simp only [Cell.bit] at hm
    · exact (c1.mp hm).2.1
    · exact (c2.mp hm).2.1.symm
    · exact (c3.mp hm).2.1.symm
    · exact (c4.mp hm).2.1
  · rintro ⟨i, j, d⟩ ⟨hb, hm⟩ hex
    simp only at hb
    rw [hbit d hb] at hm
    obtain ⟨_, _, _, c1, c2, c3, c4, _⟩ := F_coord (lev := lev) hr hb
    cases d <;> simp only [Cell.bit] at hm
    · obtain ⟨_, _, hz, h | h⟩ := c1.mp hm
      · have := (hl.ib i j hb (Or.inr hz)).mpr ⟨hex, hz⟩
        rw [hiB hb, this] at h; simp at h
      · refine ⟨rfl, ?_⟩
        rcases h with h | h
        · exact ⟨h.2.1, h.2.2.1⟩
        · simp at h
    · obtain ⟨_, _, hz, h | h⟩ := c2.mp hm
      · have := (hl.ib i j hb (Or.inl hz)).mpr ⟨hz, hex⟩
        rw [hiB hb, this] at h; simp at h
      · refine ⟨rfl, ?_⟩
        rcases h with h | h
        · simp at h
        · exact ⟨h.2.2.1, h.2.1⟩
    · obtain ⟨_, _, hz, h⟩ := c3.mp hm
      have := (hl.jb i j hb (Or.inr hz)).mpr ⟨hex, hz⟩
      rw [hjB hb, this] at h; simp at h
    · obtain ⟨_, _, hz, h⟩ := c4.mp hm
      have := (hl.jb i j hb (Or.inl hz)).mpr ⟨hz, hex⟩
      rw [hjB hb, this] at h; simp at h
  · rintro ⟨i, j, d⟩ hcut hex hexr
    have hb : InBox m.imax m.jmax (i, j) := (ok.box hex).2.2.2.2.2
    refine ⟨hb, ?_⟩
    have hzz := ok.zone _ _ hex
    rw [hbit d hb]
    obtain ⟨_, _, _, c1, c2, c3, c4, _⟩ := F_coord (lev := lev) hr hb
    unfold Topo.cut at hcut
    simp only [Topo.ex] at hex hexr
    cases d <;> simp only [Cell.bit] <;>
      simp only [DE.zn, DE.rev, DE.p0, DE.p1] at hex hexr hzz hcut
    · refine c1.mpr ⟨by omega, hcut, hex, Or.inl ?_⟩
      rw [hiB hb]
      have := hl.ib i j hb (Or.inr hex)
      rw [hexr] at this
      simpa using this
    · refine c2.mpr ⟨by omega, hcut.symm, hex, Or.inl ?_⟩
      rw [hiB hb]
      have := hl.ib i j hb (Or.inl hex)
      rw [hexr] at this
      simpa using this
    · refine c3.mpr ⟨by omega, hcut.symm, hex, ?_⟩
      rw [hjB hb]
      have := hl.jb i j hb (Or.inr hex)
      rw [hexr] at this
      simpa using this
    · refine c4.mpr ⟨by omega, hcut, hex, ?_⟩
      rw [hjB hb]
      have := hl.jb i j hb (Or.inl hex)
      rw [hexr] at this
      simpa using this
  · intro x r hc
    obtain ⟨q, hq⟩ := cycle_start ok hc
    refine ⟨q, ?_⟩
    have hex := hc.ex_all q
    have hcut := (hc.up.iter q).cut
    generalize (mkTopo m reg lev).next^[q] x = e at hq hex hcut
    obtain ⟨i, j, d⟩ := e
    have hb : InBox m.imax m.jmax (i, j) := (ok.box hex).2.2.2.2.2
    have hzz := ok.zone _ _ hex
    refine ⟨hb, ?_⟩
    rw [hbit d hb]
    obtain ⟨_, _, _, c1, c2, c3, c4, _⟩ := F_coord (lev := lev) hr hb
    unfold Topo.cut at hcut
    simp only [Topo.ex] at hex
    rcases hq with h | h
    · have hd : d = .R := h.1
      subst hd
      simp only [Cell.bit]
      simp only [DE.zn, DE.rev, DE.p0, DE.p1] at hex hzz hcut
      exact c1.mpr ⟨by omega, hcut, hex, Or.inr (Or.inl h)⟩
    · have hd : d = .L := h.1
      subst hd
      simp only [Cell.bit]
      simp only [DE.zn, DE.rev, DE.p0, DE.p1] at hex hzz hcut
      exact c2.mpr ⟨by omega, hcut.symm, hex, Or.inr (Or.inr h)⟩

end

/-! ### start and end of the first pass -/

def St.init (M0 : DE → Prop) : St := ⟨M0, fun _ => False, [], ∅⟩

theorem Inv.init (t : Topo) (M0 : DE → Prop) : Inv t M0 (St.init M0) := by
  have hf : ∀ e, Fresh M0 (St.init M0) e := fun e =>
    ⟨Iff.rfl, Iff.rfl, fun h => h, by simp [St.init], by simp [St.init], by simp [St.init]⟩
  exact ⟨fun _ _ _ => Or.inl fun s _ => hf _, fun _ _ _ => Or.inl fun s => hf _, fun _ h => h,
    by simp [St.init], by simp [St.init]⟩

/-- when all marks left are starts that are kept, all curves are done -/
theorem Inv.done {t : Topo} {M0 : DE → Prop} {S : St} (mo : MarksOK t M0) (hi : Inv t M0 S) (hd : ∀ a, S.M a → a ∈ S.W) :
    (∀ x r, IsPath t x r → ∃ w, (w = x ∨ w = (t.next^[r] x).rev) ∧ ∀ s ≤ r, Only S w (t.next^[s] x)) ∧
    (∀ x r, IsCycle t x r → ∃ k, ∀ s, Only S (t.next^[k] x) (t.next^[s] x)) := by
  constructor
  · intro x r hp
    have key : ¬ Fresh M0 S x := by
      intro hf
      have : M0 x := mo.bnd x hp.up.cut (hp.mid 0 (by have := hp.pos; omega)) hp.first
      exact hf.w (hd _ (hf.m.mpr this))
    rcases hi.paths x r hp with h | h | ⟨k, k0, kr, _, _, h, _⟩
    · exact absurd (h 0 (Nat.zero_le _)) key
    · exact h
    · exact absurd (h 0 k0) key
  · intro x r hc
    rcases hi.cycles x r hc with h | h
    · obtain ⟨q, hq⟩ := mo.cyc x r hc
      exact absurd (hd _ ((h q).m.mpr hq)) (h q).w
    · exact h

/-! ### counting marks -/

theorem bits_sum (c : Cell) : c.bits = ∑ d : Dir, if c.bit d = true then 1 else 0 := by
  have : (Finset.univ : Finset Dir) = {.R, .L, .U, .D} := rfl
  rw [this, Finset.sum_insert (by decide), Finset.sum_insert (by decide), Finset.sum_insert (by decide), Finset.sum_singleton]
  unfold Cell.bits Cell.bit
  ring

open Classical in
theorem total_card (m : Mesh K) (data : Arr Cell) :
    total m data = (((allDE m.imax m.jmax).filter (marked m data)).card : Int) := by
  unfold total
  simp_rw [bits_sum]
  rw [← Finset.sum_product']
  rw [← Finset.sum_filter, Finset.sum_const, nsmul_eq_mul, mul_one]
  congr 1
  apply Finset.card_bij' (fun (q : Nat × Dir) _ => (⟨(q.1 % m.imax : Nat), (q.1 / m.imax : Nat), q.2⟩ : DE))
    (fun e _ => ((e.i.toNat + e.j.toNat * m.imax), e.d))
  · rintro ⟨k, d⟩ hk
    simp only [Finset.mem_filter, Finset.mem_product, Finset.mem_range, Finset.mem_univ, and_true] at hk
    have hpos : 0 < m.imax := by
      by_contra h0
      have h0 : m.imax = 0 := by omega
      rw [h0] at hk; simp at hk
    have hb : InBox m.imax m.jmax (((k % m.imax : Nat) : Int), ((k / m.imax : Nat) : Int)) := by
      refine ⟨Int.natCast_nonneg _, ?_, Int.natCast_nonneg _, ?_⟩
      · simp only; exact_mod_cast Nat.mod_lt _ hpos
      · simp only; exact_mod_cast Nat.div_lt_of_lt_mul hk.1
    have hk' : idx m.imax (((k % m.imax : Nat) : Int), ((k / m.imax : Nat) : Int)) = (k : Int) := by
      unfold idx
      simp only
      have h := Nat.mod_add_div k m.imax
      rw [Nat.mul_comm] at h
      exact_mod_cast h
    simp only [Finset.mem_filter, mem_allDE, marked]
    refine ⟨hb, hb, ?_⟩
    unfold mk DE.edgeOf
    simp only [hk']
    exact hk.2
  · rintro ⟨i, j, d⟩ he
    simp only [Finset.mem_filter, mem_allDE, marked] at he
    obtain ⟨hb, _, hm⟩ := he
    obtain ⟨e1, e2, e3, e4, e5⟩ := idx_toNat hb
    simp only [Finset.mem_filter, Finset.mem_product, Finset.mem_range, Finset.mem_univ, and_true]
    rw [← e1]
    refine ⟨e5, ?_⟩
    rw [e4]
    exact hm
  · rintro ⟨k, d⟩ hk
    simp only [Int.toNat_natCast, Prod.mk.injEq, and_true]
    rw [Nat.mul_comm]
    exact Nat.mod_add_div k m.imax
  · rintro ⟨i, j, d⟩ he
    simp only [Finset.mem_filter, mem_allDE, marked] at he
    obtain ⟨hb, _, hm⟩ := he
    obtain ⟨e1, e2, e3, e4, e5⟩ := idx_toNat hb
    obtain ⟨h1, h2, h3, h4⟩ := hb
    simp only at h1 h2 h3 h4 ⊢
    rw [← e1, e2, e3, Int.toNat_of_nonneg h1, Int.toNat_of_nonneg h3]

open Classical in
theorem filter_of_marked {m : Mesh K} {data : Arr Cell} {M : DE → Prop} (h : ∀ a, marked m data a ↔ M a) :
    total m data = (((allDE m.imax m.jmax).filter M).card : Int) := by
  rw [total_card]
  congr 2
  ext a
  simp only [Finset.mem_filter, h]

/-- `count` is the number of marks that are not kept starts -/
theorem count_pos {m : Mesh K} {data : Arr Cell} {M : DE → Prop} {W : List DE} (h : ∀ a, marked m data a ↔ M a)
    (hW : ∀ a ∈ W, M a) (hnd : W.Nodup) : total m data - W.length ≤ 0 ↔ ∀ a, M a → a ∈ W := by
  classical
  rw [filter_of_marked h]
  have hsub : W.toFinset ⊆ (allDE m.imax m.jmax).filter M := by
    intro a ha
    rw [List.mem_toFinset] at ha
    have := hW a ha
    rw [Finset.mem_filter, mem_allDE]
    exact ⟨((h a).mpr this).1, this⟩
  have hc : W.toFinset.card = W.length := List.toFinset_card_of_nodup hnd
  constructor
  · intro hle a ha
    have := Finset.eq_of_subset_of_card_le hsub (by rw [hc]; omega)
    rw [← List.mem_toFinset, this, Finset.mem_filter, mem_allDE]
    exact ⟨((h a).mpr ha).1, ha⟩
  · intro hall
    have : (allDE m.imax m.jmax).filter M ⊆ W.toFinset := by
      intro a ha
      rw [List.mem_toFinset]
      exact hall a (Finset.mem_filter.mp ha).2
    have := Finset.card_le_card this
    rw [hc] at this
    omega

end Trackeddy.Cntr
