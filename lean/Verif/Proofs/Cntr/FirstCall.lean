import Verif.Proofs.Cntr.FirstPass

/-!
The first call of `curve_tracer`, and with it the whole first pass after `data_init`.
-/
namespace Trackeddy.Cntr

variable {K : Type} [Field K] [LinearOrder K]

theorem bits_any {c c' : Cell} (h : c.bits = 0) (h' : c'.any = true) (h0 : c.i0 = c'.i0 := by rfl) (h1 : c.i1 = c'.i1 := by rfl)
    (h2 : c.j0 = c'.j0 := by rfl) (h3 : c.j1 = c'.j1 := by rfl) : False := by
  unfold Cell.bits at h
  unfold Cell.any at h'
  rw [h0, h1, h2, h3] at h
  generalize c'.i0 = a at *
  generalize c'.i1 = b at *
  generalize c'.j0 = c at *
  generalize c'.j1 = d at *
  clear h0 h1 h2 h3
  revert a b c d
  decide

section
variable {m : Mesh K} {reg : Option (Nat → Bool)} {lev : K} {s : Site} {fl : Option Nat}

theorem inited_total (hi : Inited m reg lev s fl) : s.count = total m s.data := by
  rw [hi.count]
  unfold total
  apply Finset.sum_congr rfl
  intro q hq
  rw [hi.data q (Finset.mem_range.mp hq)]
  rfl

theorem total_le (m : Mesh K) (data : Arr Cell) : total m data ≤ 4 * (m.imax * m.jmax : Nat) := by
  classical
  rw [total_card]
  have h1 := Finset.card_filter_le (allDE m.imax m.jmax) (marked m data)
  have h2 := card_allDE m.imax m.jmax
  exact_mod_cast le_trans h1 h2

theorem total_nonneg (m : Mesh K) (data : Arr Cell) : 0 ≤ total m data := by
  rw [total_card]; positivity

theorem first_pass (hi : Inited m reg lev s fl) (hr : RegOK m reg) (hc : s.count ≠ 0) {fuel : Nat}
    (hfuel : 4 * (m.imax * m.jmax) + 2 ≤ fuel) :
    ∃ (s' : Site) (S' : St) (κ : Int), pass1 m lev fuel fuel s 0 0 = .ok (S'.W.length, S'.points (mkTopo m reg lev), s') ∧
      Ended m (mkTopo m reg lev) (marked m s.data) s' S' κ ∧ Runs m.imax (mkTopo m reg lev) (St.init (marked m s.data)) 0 S' := by
  have ok := mkTopo_ok m reg lev
  have mo := inited_marksOK hi hr
  have hlink := inited_link hi hr
  have htot := inited_total hi
  have htn := total_nonneg m s.data
  have htl := total_le m s.data
  set t := mkTopo m reg lev
  set M0 := marked m s.data with hM0
  obtain ⟨a, ha⟩ : ∃ a, M0 a := by
    have := count_pos (m := m) (data := s.data) (M := M0) (W := []) (fun a => Iff.rfl) (by simp) (by simp)
    by_contra hne
    push Not at hne
    have := this.mpr (fun a h => absurd h (hne a))
    simp at this
    omega
  have h2 := ok.imax2 (mo.ex a ha)
  obtain ⟨j0, hj0⟩ : ∃ j0, fl = some j0 := by
    cases h : fl with
    | none => exact absurd (hi.none.mp h) hc
    | some j => exact ⟨j, rfl⟩
  obtain ⟨hjlt, hbits⟩ := hi.some j0 hj0
  have hij : ∀ j, j < m.jmax → j * m.imax < m.imax * m.jmax := by
    intro j hj
    rw [Nat.mul_comm]
    exact Nat.mul_lt_mul_of_pos_left hj (by omega)
  have hjp : 0 < m.imax * m.jmax := by
    have := hij j0 hjlt
    omega
  have hjle : m.jmax ≤ m.imax * m.jmax := Nat.le_mul_of_pos_left _ (by omega)
  have hnreg : ∀ k : Nat, k < m.imax * m.jmax → (k : Int) < m.nreg := by
    intro k hk
    unfold Mesh.nreg
    have : ((m.imax * m.jmax : Nat) : Int) = (m.imax : Int) * m.jmax := by push_cast; ring
    omega
  have hijmax : m.ijmax = ((m.imax * m.jmax : Nat) : Int) := by unfold Mesh.ijmax; push_cast; ring
  have hrow : ∀ k < m.imax * m.jmax, ((s.data (k : Int)).row = true ↔ k = j0 * m.imax) := by
    intro k hk
    rw [hi.data k hk]
    simp only [decide_eq_true_eq, hj0, Option.some.injEq]
    constructor
    · rintro ⟨j, rfl, h⟩; exact h
    · intro h; exact ⟨j0, rfl, h⟩
  -- the row that is found
  have hscan : scanRows m s.data fuel 0 = .ok ((j0 * m.imax : Nat) : Int) := by
    obtain ⟨k, hk, h3, h4⟩ := scanRows_ok (m := m) (data := s.data) (by omega) j0 fuel 0 le_rfl
      (by have := hnreg _ (hij j0 hjlt); push_cast at this; simpa using this) (by omega)
      (by
        have := (hrow _ (hij j0 hjlt)).mpr rfl
        push_cast at this
        simpa using this)
    have h5 : (0 : Int) + (k : Int) * (m.imax : Int) = ((k * m.imax : Nat) : Int) := by push_cast; ring
    rw [h5] at h3 h4
    have := (hrow _ (hij k (by omega))).mp h4
    rw [h3, this]
  set e1 : Int := if (0 : Int) = ((j0 * m.imax : Nat) : Int) then ((j0 * m.imax : Nat) : Int) + 1 else ((j0 * m.imax : Nat) : Int) with he1
  have he1pos : 0 < e1 := by
    rw [he1]; split <;> omega
  have hr1 : e1 - e1 % m.imax = ((j0 * m.imax : Nat) : Int) := by
    rw [he1]
    split
    · rename_i h
      rw [← h]
      have : (1 : Int) % m.imax = 1 := Int.emod_eq_of_lt (by omega) (by omega)
      simp only [zero_add, this]
      ring
    · have : (((j0 * m.imax : Nat) : Int)) % m.imax = 0 := by push_cast; exact Int.mul_emod_left _ _
      rw [this]; ring
  set s1 : Site := { s with edge0 := e1, data := upd s.data ((j0 * m.imax : Nat) : Int) { s.data ((j0 * m.imax : Nat) : Int) with row := false } } with hs1
  have hrd0 : rd m.nreg s.data 0 = .ok (s.data 0) := rd_ok ⟨le_rfl, by have := hnreg 0 hjp; simpa using this⟩
  have hrdr : rd m.nreg s.data ((j0 * m.imax : Nat) : Int) = .ok (s.data ((j0 * m.imax : Nat) : Int)) :=
    rd_ok ⟨by omega, hnreg _ (hij j0 hjlt)⟩
  have hbegin : beginSearch m false fuel s = .ok (.here s1 false) := by
    unfold beginSearch
    rw [hi.edge0, hi.left0, hrd0]
    have htwo : twoStarts m.imax 0 (s.data 0) = false := by
      unfold twoStarts
      rw [if_neg (by omega), if_neg (by omega), if_neg (by omega)]
    have hall : (s.data 0).allDone = false := by
      rw [hi.zero.1]; simpa using hc
    simp only [bind, Except.bind, htwo, hall, Bool.false_eq_true, if_false, or_true, if_true, hscan, and_self, pure, Except.pure]
    rw [← he1, hr1, hrdr]
    simp only [hs1, hi.left0]
  -- the state after it
  have hbit : ∀ (k : Int) (x : Dir), (s1.data k).bit x = (s.data k).bit x := by
    intro k x
    rw [hs1]
    simp only [upd]
    split
    · rename_i h; rw [h]; cases x <;> rfl
    · rfl
  have hsame : ∀ k, (s1.data k).z = (s.data k).z ∧ (s1.data k).iB = (s.data k).iB ∧ (s1.data k).jB = (s.data k).jB ∧
      (s1.data k).opn = (s.data k).opn ∧ (s1.data k).allDone = (s.data k).allDone := by
    intro k
    rw [hs1]
    simp only [upd]
    split
    · rename_i h; rw [h]; exact ⟨rfl, rfl, rfl, rfl, rfl⟩
    · exact ⟨rfl, rfl, rfl, rfl, rfl⟩
  have hmk1 : ∀ a, marked m s1.data a ↔ M0 a := by
    intro a
    rw [hM0]
    unfold marked mk
    rw [hbit]
  have hlow : ∀ a, M0 a → e1 ≤ a.edgeOf m.imax := by
    intro a ha
    by_contra hlt
    have hp := edge_pos ok (mo.ex a ha)
    have hrg := marked_range (m := m) ha
    rw [he1] at hlt
    split at hlt
    · rename_i h; omega
    · have hq : a.edgeOf m.imax = ((a.edgeOf m.imax).toNat : Int) := by omega
      have hz := hbits (a.edgeOf m.imax).toNat (by omega)
      have hany := marked_any (m := m) ha
      rw [hq, hi.data _ (by omega)] at hany
      exact bits_any hz hany
  have hP : P1 m t M0 s1 (St.init M0) (4 * e1 - 1) := by
    refine ⟨⟨⟨?_, ?_, ?_⟩, ?_, hmk1, ?_, ?_, ?_⟩, Inv.init t M0, ?_, by simp [St.init], by simp [St.init], ?_, ?_, ?_⟩
    · intro p hp; rw [(hsame _).1]; exact hlink.z p hp
    · intro i j hb; rw [(hsame _).2.1]; exact hlink.ib i j hb
    · intro i j hb; rw [(hsame _).2.2.1]; exact hlink.jb i j hb
    · intro i j hb
      left
      have := range_ijmax (m := m) hb
      exact hi.saddle hc _ this.1 this.2
    · intro a ha _
      rw [(hsame _).2.2.2.1, DE.edgeOf, inited_cell hi ha]
      have := (F_coord (lev := lev) hr ha).2.2.2.2.2.2.2
      simp only at this ⊢
      rw [this]
      simp [St.init]
    · intro e h; exact h
    · change s.count = _
      rw [htot, hs1]
      simp only [St.init, List.length_nil, Nat.cast_zero, sub_zero]
      rw [total_upd_same]
      rfl
    · intro a ha hk
      have h3 := hlow a ha
      have h4 := a.d.rank_range
      unfold DE.key at hk
      omega
    · intro k hk0 hk1
      have hq : k = (k.toNat : Int) := by omega
      simp only [St.init, rowsFrom, List.not_mem_nil, iff_false, hs1, upd]
      split
      · simp
      · rename_i h
        rw [hq, hrow k.toNat (by omega)]
        omega
    · change s.edge00 = 0
      exact hi.edge00
    · intro k hk0 hk1
      have hq : k = (k.toNat : Int) := by omega
      rw [(hsame _).2.2.2.2, hq, hi.data k.toNat (by omega)]
      simp [hc]
  obtain ⟨d, hd⟩ := exists_next (m := m) (data := s1.data) (κ := 4 * e1 - 1) ((hmk1 a).mpr ha) (by
    have h3 := hlow a ha
    have h4 := a.d.rank_range
    unfold DE.key
    omega)
  have hd0 : M0 d := (hmk1 d).mp hd.mkd
  have hfind : findStart m fuel s1 false = .ok (d.edgeOf m.imax, d.leftOf m.imax, t.ex d.rev) := by
    refine findStart_scan (s := s1) ok hP.mem.link mo rfl hd.mkd hd0 (by show 0 ≤ e1; omega) (hlow d hd0) ?_
      (show m.imax * m.jmax + 1 ≤ fuel by omega)
    intro b hb hbe
    apply hd.least b hb
    have h4 := b.d.rank_range
    have : e1 ≤ b.edgeOf m.imax := hbe
    unfold DE.key
    omega
  obtain ⟨n, s', S', hct, hP', he', hl', hcnt', ⟨hdW, r, hpl, hS'⟩, hres⟩ := curve1_step ok mo hP hbegin hfind hd (by omega)
  have hcnt2 : s'.count < s.count := hcnt'
  obtain ⟨f, rfl⟩ : ∃ f, fuel = f + 1 := ⟨fuel - 1, by omega⟩
  rw [pass1, hct]
  simp only [bind, Except.bind]
  have hrest : ∀ np' nt', np' = S'.W.length → nt' = S'.points t → ∃ (s'' : Site) (S'' : St) (κ : Int),
      pass1 m lev (f + 1) f s' np' nt' = .ok (S''.W.length, S''.points t, s'') ∧ Ended m t M0 s'' S'' κ ∧
        Runs m.imax t (St.init M0) 0 S'' := by
    intro np' nt' h1 h3
    obtain ⟨s'', S'', κ, g1, g2, g3⟩ := first_later (fuel := f + 1) ok mo f hP' (mo.ex d hd0) he' hl' hd.mkd.1 (by omega) (by omega) h1 h3 (by omega)
    have hkey : ∀ a, M0 a → 4 * e1 - 1 < a.key m.imax := by
      intro a ha
      have h3 := hlow a ha
      have h4 := a.d.rank_range
      unfold DE.key
      omega
    refine ⟨s'', S'', κ, g1, g2, .step (S := St.init M0) hd0 hdW ?_ ?_ hpl (hS' ▸ g3)⟩
    · have := hkey d hd0
      omega
    · intro a ha _
      exact hd.least a ((hmk1 a).mpr ha) (hkey a ha)
  have hW0 : (St.init M0).W.length = 0 := rfl
  have hp0 : (St.init M0).points t = 0 := by simp [St.points, St.init]
  rcases hres with ⟨h1, h3, h4⟩ | ⟨h1, h3, h4⟩
  · rw [if_neg (by omega), if_pos h1]
    exact hrest _ _ (by omega) (by omega)
  · rw [if_neg (by omega), if_neg (by omega)]
    exact hrest _ _ (by omega) (by omega)

/-- no start marks: both passes end at once -/
theorem no_marks (hi : Inited m reg lev s fl) (hc : s.count = 0) {fuel : Nat} (b : Bool) :
    curveTracer m lev b fuel s = .ok (0, [], s) := by
  have hrd0 : rd m.nreg s.data 0 = .ok (s.data 0) := rd_ok ⟨le_rfl, by
    unfold Mesh.nreg
    have h3 : (0 : Int) ≤ (m.imax : Int) * m.jmax := by positivity
    omega⟩
  have htwo : twoStarts m.imax 0 (s.data 0) = false := by
    unfold twoStarts
    rw [if_neg (by omega), if_neg (by omega)]
    split
    · rename_i h
      have h0 : m.imax * m.jmax = 0 := by
        have : m.imax = 0 := by omega
        rw [this, Nat.zero_mul]
      have := hi.zero.2 h0
      unfold Cell.any at this
      simp only [Bool.or_eq_false_iff] at this
      exact this.1.2
    · rfl
  have hall : (s.data 0).allDone = true := by
    rw [hi.zero.1]; simpa using hc
  unfold curveTracer beginSearch
  rw [hi.edge0, hi.left0, hrd0]
  simp only [bind, Except.bind, htwo, hall, Bool.false_eq_true, if_false, or_true, if_true, pure, Except.pure]

end
end Trackeddy.Cntr
