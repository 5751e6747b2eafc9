import Verif.Proofs.Cntr.MarksOK
import Mathlib.Data.Finset.Max

/-!
The search for the next start: `curve_tracer` finds the start marks in the order of their keys.
-/
namespace Trackeddy.Cntr

variable {K : Type} [Field K] [LinearOrder K]

def Dir.rank : Dir → Int
  | .R => 0
  | .L => 1
  | .U => 2
  | .D => 3

theorem Dir.rank_range (d : Dir) : 0 ≤ d.rank ∧ d.rank ≤ 3 := by cases d <;> simp [Dir.rank]

theorem Dir.rank_inj {a b : Dir} (h : a.rank = b.rank) : a = b := by cases a <;> cases b <;> simp_all [Dir.rank]

/-- order in which the start marks are found -/
def DE.key (imax : Nat) (a : DE) : Int := 4 * a.edgeOf imax + a.d.rank

theorem key_lt_of_edge {imax : Nat} {a b : DE} (h : a.edgeOf imax < b.edgeOf imax) : a.key imax < b.key imax := by
  have := a.d.rank_range
  have := b.d.rank_range
  unfold DE.key; omega

theorem key_inj {imax jmax : Nat} {a b : DE} (ha : InBox imax jmax (a.i, a.j)) (hb : InBox imax jmax (b.i, b.j))
    (h : a.key imax = b.key imax) : a = b := by
  have h1 := a.d.rank_range
  have h2 := b.d.rank_range
  unfold DE.key at h
  have he : a.edgeOf imax = b.edgeOf imax := by omega
  have hr : a.d = b.d := Dir.rank_inj (by omega)
  have := idx_inj ⟨ha.1, ha.2.1⟩ ⟨hb.1, hb.2.1⟩ he
  rw [Prod.mk.injEq] at this
  rcases a with ⟨i, j, d⟩
  rcases b with ⟨i', j', d'⟩
  simp only at this hr
  rw [this.1, this.2, hr]

theorem any_iff (c : Cell) : c.any = true ↔ ∃ d, c.bit d = true := by
  unfold Cell.any
  simp only [Bool.or_eq_true]
  constructor
  · rintro (((h | h) | h) | h)
    · exact ⟨.L, h⟩
    · exact ⟨.R, h⟩
    · exact ⟨.D, h⟩
    · exact ⟨.U, h⟩
  · rintro ⟨_ | _ | _ | _, h⟩ <;> simp only [Cell.bit] at h <;> simp [h]

/-- positions of the mesh -/
theorem pos_box {imax jmax : Nat} {k : Int} (h0 : 0 ≤ k) (h1 : k < (imax : Int) * jmax) :
    ∃ i j, InBox imax jmax (i, j) ∧ idx imax (i, j) = k := by
  have hpos : 0 < (imax : Int) := by
    rcases Nat.eq_zero_or_pos imax with h | h
    · rw [h] at h1; simp at h1; omega
    · exact_mod_cast h
  refine ⟨k % imax, k / imax, ⟨Int.emod_nonneg _ (by omega), Int.emod_lt_of_pos _ hpos, Int.ediv_nonneg h0 (by omega), ?_⟩, ?_⟩
  · simp only
    exact Int.ediv_lt_of_lt_mul hpos (by rwa [mul_comm] at h1)
  · unfold idx
    simp only
    rw [mul_comm, Int.emod_add_mul_ediv]

section
variable {m : Mesh K} {data : Arr Cell}

theorem any_marked {k : Int} (h0 : 0 ≤ k) (h1 : k < m.ijmax) (h : (data k).any = true) :
    ∃ a, marked m data a ∧ a.edgeOf m.imax = k := by
  obtain ⟨i, j, hb, he⟩ := pos_box h0 h1
  obtain ⟨d, hd⟩ := (any_iff _).mp h
  refine ⟨⟨i, j, d⟩, ⟨hb, ?_⟩, he⟩
  unfold mk DE.edgeOf
  simp only
  rw [he]; exact hd

theorem marked_any {a : DE} (h : marked m data a) : (data (a.edgeOf m.imax)).any = true :=
  (any_iff _).mpr ⟨a.d, h.2⟩

theorem marked_range {a : DE} (h : marked m data a) : 0 ≤ a.edgeOf m.imax ∧ a.edgeOf m.imax < m.ijmax := range_ijmax h.1

theorem ijmax_nreg {k : Int} (h : k < m.ijmax) : k < m.nreg := by
  unfold Mesh.ijmax at h; unfold Mesh.nreg; omega

theorem scanStart_ok (n : Nat) : ∀ (fuel : Nat) (lo : Int), 0 ≤ lo → lo + n < m.nreg → n + 1 ≤ fuel →
    (∀ k, lo ≤ k → k < lo + n → (data k).any = false) → (data (lo + n)).any = true →
    scanStart m data fuel lo = .ok (lo + n) := by
  induction n with
  | zero =>
    intro fuel lo h0 h1 hf _ ha
    obtain ⟨f, rfl⟩ : ∃ f, fuel = f + 1 := ⟨fuel - 1, by omega⟩
    rw [scanStart, rd_ok ⟨h0, by simpa using h1⟩]
    simp only [Nat.cast_zero, add_zero] at ha ⊢
    simp [bind, Except.bind, ha, pure, Except.pure]
  | succ n ih =>
    intro fuel lo h0 h1 hf hno ha
    obtain ⟨f, rfl⟩ : ∃ f, fuel = f + 1 := ⟨fuel - 1, by omega⟩
    have e : lo + ((n + 1 : Nat) : Int) = lo + 1 + n := by push_cast; ring
    rw [e] at h1 hno ha ⊢
    rw [scanStart, rd_ok ⟨h0, by omega⟩]
    simp only [bind, Except.bind, hno lo le_rfl (by omega), Bool.false_eq_true, if_false]
    exact ih f (lo + 1) (by omega) h1 (by omega) (fun k hk hk' => hno k (by omega) hk') ha

theorem scanRows_ok (hi : 0 < m.imax) (n : Nat) : ∀ (fuel : Nat) (e : Int), 0 ≤ e → e + n * m.imax < m.nreg → n + 1 ≤ fuel →
    (data (e + n * m.imax)).row = true →
    ∃ k : Nat, k ≤ n ∧ scanRows m data fuel e = .ok (e + k * m.imax) ∧ (data (e + k * m.imax)).row = true := by
  induction n with
  | zero =>
    intro fuel e h0 h1 hf ha
    obtain ⟨f, rfl⟩ : ∃ f, fuel = f + 1 := ⟨fuel - 1, by omega⟩
    refine ⟨0, le_rfl, ?_, ha⟩
    simp only [Nat.cast_zero, zero_mul, add_zero] at ha h1 ⊢
    rw [scanRows, rd_ok ⟨h0, h1⟩]
    simp [bind, Except.bind, ha, pure, Except.pure]
  | succ n ih =>
    intro fuel e h0 h1 hf ha
    obtain ⟨f, rfl⟩ : ∃ f, fuel = f + 1 := ⟨fuel - 1, by omega⟩
    have he : e + ((n + 1 : Nat) : Int) * m.imax = e + m.imax + n * m.imax := by push_cast; ring
    rw [he] at h1 ha
    have hnn : (0 : Int) ≤ n * m.imax := by positivity
    by_cases hr : (data e).row = true
    · refine ⟨0, Nat.zero_le _, ?_, by simpa using hr⟩
      rw [scanRows, rd_ok ⟨h0, by omega⟩]
      simp [bind, Except.bind, hr, pure, Except.pure]
    · obtain ⟨k, hk, h2, h3⟩ := ih f (e + m.imax) (by omega) h1 (by omega) ha
      refine ⟨k + 1, by omega, ?_, ?_⟩
      · rw [scanRows, rd_ok ⟨h0, by omega⟩]
        simp only [bind, Except.bind, hr, Bool.false_eq_true, if_false]
        rw [h2]
        congr 1
        push_cast; ring
      · convert h3 using 3
        push_cast; ring

/-! ### the next mark -/

/-- the first mark after key `κ` -/
structure NextMark (m : Mesh K) (data : Arr Cell) (κ : Int) (d : DE) : Prop where
  mkd : marked m data d
  gt : κ < d.key m.imax
  least : ∀ a, marked m data a → κ < a.key m.imax → d.key m.imax ≤ a.key m.imax

theorem exists_next {κ : Int} {a : DE} (h : marked m data a) (hk : κ < a.key m.imax) : ∃ d, NextMark m data κ d := by
  classical
  obtain ⟨d, hd, hmin⟩ := Finset.exists_min_image ((allDE m.imax m.jmax).filter fun a => marked m data a ∧ κ < a.key m.imax)
    (fun a => a.key m.imax) ⟨a, Finset.mem_filter.mpr ⟨mem_allDE.mpr h.1, h, hk⟩⟩
  simp only [Finset.mem_filter] at hd hmin
  exact ⟨d, hd.2.1, hd.2.2, fun b hb hb' => hmin b ⟨mem_allDE.mpr hb.1, hb, hb'⟩⟩

theorem next_unique {κ : Int} {d d' : DE} (h : NextMark m data κ d) (h' : NextMark m data κ d') : d = d' :=
  key_inj h.mkd.1 h'.mkd.1 (le_antisymm (h.least _ h'.mkd h'.gt) (h'.least _ h.mkd h.gt))

/-- `level == 0` says that the start is not on a boundary -/
theorem level_ok {lev : K} {t : Topo} (ok : TopoOK m lev t) (hl : Link m t data) {M0 : DE → Prop} (mo : MarksOK t M0) {d : DE}
    (hd : M0 d) : (!d.isJ && !(data (d.edgeOf m.imax)).iB) = t.ex d.rev := by
  have hex := mo.ex d hd
  have hb := bnd_flag ok hl (e := d.rev) (by rw [DE.rev_rev]; exact hex)
  rw [DE.rev_edge, DE.rev_isJ] at hb
  cases hJ : d.isJ
  · rw [hJ] at hb
    simp only [Bool.false_eq_true, if_false] at hb
    simp [hb]
  · simp only [Bool.not_true, Bool.false_and]
    cases hr : t.ex d.rev
    · rfl
    · have := (mo.inner d hd hr).1
      rw [hJ] at this; simp at this

theorem first_left {imax : Nat} {c : Cell} {d : DE} (hbd : c.bit d.d = true) (hmin : ∀ d', c.bit d' = true → d.d.rank ≤ d'.rank) :
    (if c.i1 = true then (1 : Int) else if c.i0 = true then -1 else if c.j1 = true then (imax : Int) else -(imax : Int)) = d.leftOf imax ∧
    (c.i1 || c.i0) = !d.isJ := by
  have hR := hmin .R
  have hL := hmin .L
  have hU := hmin .U
  clear hmin
  rcases d with ⟨i, j, d⟩
  rcases c with ⟨z, ex, iB, jB, i0, i1, j0, j1, _, _, _⟩
  simp only [Cell.bit] at hbd hR hL hU ⊢
  cases d <;> simp only [Dir.rank, DE.leftOf, DE.isJ] at * <;>
    cases i1 <;> cases i0 <;> cases j1 <;> simp_all

theorem second_left {imax : Nat} (hi : 2 ≤ imax) {c : Cell} {d d' : DE} (hgt : d.d.rank < d'.d.rank) (hbd : c.bit d'.d = true)
    (hmin : ∀ x : Dir, d.d.rank < x.rank → c.bit x = true → d'.d.rank ≤ x.rank) (e : Int) :
    (if d.leftOf imax = 1 ∧ c.i0 = true then (Except.ok (e, -1, !c.iB) : Except CErr (Int × Int × Bool))
      else if (d.leftOf imax = 1 ∨ d.leftOf imax = -1) ∧ c.j1 = true then Except.ok (e, (imax : Int), false)
      else Except.ok (e, -(imax : Int), false)) = .ok (e, d'.leftOf imax, !d'.isJ && !c.iB) := by
  have h1 : ¬ (imax : Int) = 1 := by omega
  have h2 : ¬ (imax : Int) = -1 := by omega
  have h6 : ¬ imax = 1 := by omega
  have hL := hmin .L
  have hU := hmin .U
  clear hmin
  rcases d with ⟨i, j, d⟩
  rcases d' with ⟨i', j', d'⟩
  rcases c with ⟨z, ex, iB, jB, i0, i1, j0, j1, _, _, _⟩
  simp only [Cell.bit] at hbd hL hU ⊢
  cases d <;> cases d' <;> simp only [Dir.rank, DE.leftOf, DE.isJ] at * <;>
    first
    | omega
    | (cases i0 <;> cases j1 <;> simp_all)

/-- searching on from `edge0` -/
theorem findStart_scan {lev : K} {t : Topo} (ok : TopoOK m lev t) (hl : Link m t data) {M0 : DE → Prop} (mo : MarksOK t M0)
    {s : Site} (hs : s.data = data) {d : DE} (hd : marked m data d) (hd0 : M0 d) (h0 : 0 ≤ s.edge0)
    (hle : s.edge0 ≤ d.edgeOf m.imax) (hleast : ∀ a, marked m data a → s.edge0 ≤ a.edgeOf m.imax → d.key m.imax ≤ a.key m.imax)
    {fuel : Nat} (hf : m.imax * m.jmax + 1 ≤ fuel) :
    findStart m fuel s false = .ok (d.edgeOf m.imax, d.leftOf m.imax, t.ex d.rev) := by
  have hr := marked_range hd
  have hsc : scanStart m data fuel s.edge0 = .ok (d.edgeOf m.imax) := by
    have e : s.edge0 + ((d.edgeOf m.imax - s.edge0).toNat : Int) = d.edgeOf m.imax := by omega
    have := scanStart_ok (m := m) (data := data) (d.edgeOf m.imax - s.edge0).toNat fuel s.edge0 h0 (by rw [e]; exact ijmax_nreg hr.2)
      (by
        have := hr.2
        unfold Mesh.ijmax at this
        have h3 : ((m.imax * m.jmax : Nat) : Int) = (m.imax : Int) * m.jmax := by push_cast; ring
        omega)
      (by
        intro k hk hk'
        rw [e] at hk'
        cases hany : (data k).any
        · rfl
        · obtain ⟨a, ha, hae⟩ := any_marked (m := m) (by omega) (by omega) hany
          have h1 := hleast a ha (by omega)
          have h2 := key_lt_of_edge (imax := m.imax) (a := a) (b := d) (by omega)
          omega)
      (by rw [e]; exact marked_any hd)
    rw [e] at this
    exact this
  unfold findStart
  simp only [Bool.false_eq_true, if_false, hs, hsc, bind, Except.bind]
  rw [rd_ok ⟨hr.1, ijmax_nreg hr.2⟩]
  simp only [pure, Except.pure]
  have hlev := level_ok ok hl mo hd0
  have hb : ∀ d', (data (d.edgeOf m.imax)).bit d' = true → d.d.rank ≤ d'.rank := by
    intro d' hd'
    have := hleast ⟨d.i, d.j, d'⟩ ⟨hd.1, hd'⟩ hle
    unfold DE.key DE.edgeOf at this
    simp only at this
    omega
  have hbd : (data (d.edgeOf m.imax)).bit d.d = true := hd.2
  rw [← hlev]
  obtain ⟨f1, f2⟩ := first_left (imax := m.imax) hbd hb
  rw [f1, f2]

/-- `two_starts`: another mark at the same position -/
theorem twoStarts_iff (hi : 2 ≤ m.imax) (c : Cell) (d : DE) :
    twoStarts m.imax (d.leftOf m.imax) c = true ↔ ∃ d', d.d.rank < d'.rank ∧ c.bit d' = true := by
  have h1 : ¬ (m.imax : Int) = 1 := by omega
  have h2 : ¬ (m.imax : Int) = -1 := by omega
  have h3 : ¬ -(m.imax : Int) = 1 := by omega
  have h4 : ¬ -(m.imax : Int) = -1 := by omega
  have h5 : ¬ -(m.imax : Int) = m.imax := by omega
  have h6 : ¬ m.imax = 1 := by omega
  rcases d with ⟨i, j, _ | _ | _ | _⟩
  · simp only [twoStarts, DE.leftOf, if_true, Dir.rank]
    constructor
    · intro h
      simp only [Bool.or_eq_true] at h
      rcases h with (h | h) | h
      · exact ⟨.L, by simp [Dir.rank], h⟩
      · exact ⟨.U, by simp [Dir.rank], h⟩
      · exact ⟨.D, by simp [Dir.rank], h⟩
    · rintro ⟨_ | _ | _ | _, h, h'⟩ <;> simp [Dir.rank] at h <;> simp only [Cell.bit] at h' <;> simp [h']
  · simp only [twoStarts, DE.leftOf, if_true, Dir.rank]
    rw [if_neg (by omega)]
    constructor
    · intro h
      simp only [Bool.or_eq_true] at h
      rcases h with h | h
      · exact ⟨.U, by simp [Dir.rank], h⟩
      · exact ⟨.D, by simp [Dir.rank], h⟩
    · rintro ⟨_ | _ | _ | _, h, h'⟩ <;> simp [Dir.rank] at h <;> simp only [Cell.bit] at h' <;> simp [h']
  · unfold twoStarts
    change (if (m.imax : Int) = 1 then _ else if (m.imax : Int) = -1 then _ else if (m.imax : Int) = m.imax then _ else _) = true ↔ ∃ d' : Dir, Dir.rank .U < d'.rank ∧ _
    rw [if_neg h1, if_neg h2, if_pos rfl]
    constructor
    · intro h
      exact ⟨.D, by simp [Dir.rank], h⟩
    · rintro ⟨_ | _ | _ | _, h, h'⟩ <;> simp [Dir.rank] at h <;> simp only [Cell.bit] at h' <;> simp [h']
  · unfold twoStarts
    change (if -(m.imax : Int) = 1 then _ else if -(m.imax : Int) = -1 then _ else if -(m.imax : Int) = m.imax then _ else _) = true ↔ ∃ d' : Dir, Dir.rank .D < d'.rank ∧ _
    rw [if_neg h3, if_neg h4, if_neg h5]
    constructor
    · intro h; simp at h
    · rintro ⟨_ | _ | _ | _, h, h'⟩ <;> simp [Dir.rank] at h

theorem findStart_two {lev : K} {t : Topo} (ok : TopoOK m lev t) (hl : Link m t data) {M0 : DE → Prop} (mo : MarksOK t M0)
    {s : Site} (hs : s.data = data) {d d' : DE} (hi : 2 ≤ m.imax) (hse : s.edge0 = d.edgeOf m.imax)
    (hsl : s.left0 = d.leftOf m.imax) (hd : NextMark m data (d.key m.imax) d') (hd0 : M0 d')
    (he : d'.edgeOf m.imax = d.edgeOf m.imax) (fuel : Nat) :
    findStart m fuel s true = .ok (d'.edgeOf m.imax, d'.leftOf m.imax, t.ex d'.rev) := by
  have hr := marked_range hd.mkd
  unfold findStart
  simp only [if_true, hs, hse, hsl, ← he, bind, Except.bind]
  rw [rd_ok ⟨hr.1, ijmax_nreg hr.2⟩]
  simp only [pure, Except.pure]
  have hlev := level_ok ok hl mo hd0
  have hb : ∀ x, d.d.rank < x.rank → (data (d'.edgeOf m.imax)).bit x = true → d'.d.rank ≤ x.rank := by
    intro x hx hx'
    have hk : DE.key m.imax ⟨d'.i, d'.j, x⟩ = 4 * d'.edgeOf m.imax + x.rank := rfl
    have := hd.least ⟨d'.i, d'.j, x⟩ ⟨hd.mkd.1, hx'⟩ (by rw [hk, he]; unfold DE.key; omega)
    rw [hk] at this
    unfold DE.key at this
    omega
  have hgt : d.d.rank < d'.d.rank := by
    have := hd.gt
    unfold DE.key at this
    omega
  have hbd : (data (d'.edgeOf m.imax)).bit d'.d = true := hd.mkd.2
  rw [← hlev]
  exact second_left hi hgt hbd hb _

end
end Trackeddy.Cntr
