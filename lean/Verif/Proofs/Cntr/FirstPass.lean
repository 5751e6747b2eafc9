import Verif.Proofs.Cntr.Pass1

/-!
The first pass as a whole.
-/
namespace Trackeddy.Cntr

variable {K : Type} [Field K] [LinearOrder K]

/-- positions of the row flags for the kept starts -/
def rowsFrom (imax : Nat) : Int → List DE → List Int
  | _, [] => []
  | p, w :: W => (w.edgeOf imax - (w.edgeOf imax - p) % imax) :: rowsFrom imax (w.edgeOf imax) W

def lastEdge (imax : Nat) : Int → List DE → Int
  | p, [] => p
  | _, w :: W => lastEdge imax (w.edgeOf imax) W

theorem lastEdge_append (imax : Nat) (p : Int) (W : List DE) (d : DE) : lastEdge imax p (W ++ [d]) = d.edgeOf imax := by
  induction W generalizing p with
  | nil => rfl
  | cons w W ih => exact ih _

theorem rowsFrom_append (imax : Nat) (p : Int) (W : List DE) (d : DE) :
    rowsFrom imax p (W ++ [d]) = rowsFrom imax p W ++ [d.edgeOf imax - (d.edgeOf imax - lastEdge imax p W) % imax] := by
  induction W generalizing p with
  | nil => rfl
  | cons w W ih => simp only [List.cons_append, rowsFrom, lastEdge, ih]

theorem lastEdge_mem (imax : Nat) (p : Int) (W : List DE) : lastEdge imax p W = p ∧ W = [] ∨ ∃ w ∈ W, lastEdge imax p W = w.edgeOf imax := by
  induction W generalizing p with
  | nil => exact Or.inl ⟨rfl, rfl⟩
  | cons w W ih =>
    right
    rcases ih (w.edgeOf imax) with h | ⟨v, hv, h⟩
    · exact ⟨w, List.mem_cons_self, h.1⟩
    · exact ⟨v, List.mem_cons_of_mem _ hv, h⟩

theorem edge_pos {m : Mesh K} {lev : K} {t : Topo} (ok : TopoOK m lev t) {d : DE} (h : t.ex d = true) : 0 < d.edgeOf m.imax := by
  have hb := (ok.box h).2.2.2.2.2
  have hz := ok.zone _ _ h
  have hj := mul_nonneg hb.2.2.1 (Int.natCast_nonneg m.imax)
  rcases d with ⟨i, j, _ | _ | _ | _⟩ <;> simp only [DE.zn] at hz <;> simp only [DE.edgeOf, idx] at hj ⊢
  · have : 1 * (m.imax : Int) ≤ j * m.imax := mul_le_mul_of_nonneg_right hz.2.2.1 (by omega)
    have := hb.1
    simp only at this
    omega
  · omega
  · omega
  · omega

structure P1 (m : Mesh K) (t : Topo) (M0 : DE → Prop) (s : Site) (S : St) (κ : Int) : Prop where
  mem : Mem m t s S
  inv : Inv t M0 S
  done : ∀ a, S.M a → a.key m.imax ≤ κ → a ∈ S.W
  last : ∀ a ∈ S.W, a.key m.imax ≤ κ
  keys : S.W.Pairwise fun a b => a.key m.imax < b.key m.imax
  rows : ∀ k, 0 ≤ k → k < m.ijmax → ((s.data k).row = true ↔ k ∈ rowsFrom m.imax 0 S.W)
  e00 : s.edge00 = lastEdge m.imax 0 S.W
  alld : ∀ k, 0 ≤ k → k < m.ijmax → (s.data k).allDone = false

theorem P1.edge0 {m : Mesh K} {t : Topo} {M0 : DE → Prop} {s : Site} {S : St} {κ : Int} (h : P1 m t M0 s S κ) (e : Int) :
    P1 m t M0 { s with edge0 := e } S κ :=
  ⟨⟨h.mem.link, h.mem.sad, h.mem.marks, h.mem.opn, h.mem.osym, h.mem.count⟩, h.inv, h.done, h.last, h.keys, h.rows, h.e00, h.alld⟩

/-- number of points stored for the curves seen: closed curves repeat the first point -/
noncomputable def St.points (t : Topo) (S : St) : Int := S.R.card + (S.W.countP fun d => t.ex d.rev)

/-- the visits of the first pass, without reference to the memory -/
inductive Runs (imax : Nat) (t : Topo) : St → Int → St → Prop
  | stop {S : St} {κ : Int} (h : ∀ a, S.M a → a ∈ S.W) : Runs imax t S κ S
  | step {S S' : St} {κ : Int} {d : DE} {r : Nat} (hd : S.M d) (hw : d ∉ S.W) (hk : κ < d.key imax)
      (hl : ∀ a, S.M a → κ < a.key imax → d.key imax ≤ a.key imax) (hp : Plan t S d r)
      (h : Runs imax t (after t S d r) (d.key imax) S') : Runs imax t S κ S'

theorem key_le_edge {imax : Nat} {a b : DE} (h : a.key imax ≤ b.key imax) : a.edgeOf imax ≤ b.edgeOf imax := by
  by_contra hlt
  have := key_lt_of_edge (imax := imax) (a := b) (b := a) (by omega)
  omega

section
variable {m : Mesh K} {lev : K} {t : Topo} (ok : TopoOK m lev t) {M0 : DE → Prop} (mo : MarksOK t M0)
include ok mo

/-- a kept start is still marked -/
theorem Inv.wm {S : St} (hi : Inv t M0 S) : ∀ a ∈ S.W, S.M a := by
  intro a ha
  have h0 := hi.wsub a ha
  -- a kept start is still marked
  have key : ∀ e, t.up e → (a = e ∨ a = e.rev) → (t.ex e = true ∨ t.ex e.rev = true) → S.M a := by
    intro e hu hae hx
    rcases curve_of ok hu hx with ⟨x, r, q, hpth, hq, hqe⟩ | ⟨r, hcy⟩
    · rcases hi.paths x r hpth with h | ⟨w, _, h⟩ | ⟨k, _, _, _, _, h, h'⟩
      · have := h q hq
        rw [hqe] at this
        rcases hae with rfl | rfl
        · exact absurd ha this.w
        · exact absurd ha this.wr
      · have := h q hq
        rw [hqe] at this
        rcases hae with rfl | rfl
        · exact this.m.mpr (this.w.mp ha)
        · exact this.mr.mpr (this.wr.mp ha)
      · rcases lt_or_ge q k with hlt | hge
        · have := h q hlt
          rw [hqe] at this
          rcases hae with rfl | rfl
          · exact absurd ha this.w
          · exact absurd ha this.wr
        · have := h' q hge hq
          rw [hqe] at this
          rcases hae with rfl | rfl
          · exact absurd ha this.w
          · exact absurd ha this.wr
    · rcases hi.cycles e r hcy with h | ⟨k, h⟩
      · have := h 0
        simp only [Function.iterate_zero, id_eq] at this
        rcases hae with rfl | rfl
        · exact absurd ha this.w
        · exact absurd ha this.wr
      · have := h 0
        simp only [Function.iterate_zero, id_eq] at this
        rcases hae with rfl | rfl
        · exact this.m.mpr (this.w.mp ha)
        · exact this.mr.mpr (this.wr.mp ha)
  rcases Topo.up_or (mo.cut a h0) with hu | hu
  · exact key a hu (Or.inl rfl) (Or.inl (mo.ex a h0))
  · exact key a.rev hu (Or.inr (DE.rev_rev a).symm) (Or.inr (by rw [DE.rev_rev]; exact mo.ex a h0))

theorem curve1_step {s0 s : Site} {two : Bool} {S : St} {κ : Int} {d : DE} {fuel : Nat} (hP : P1 m t M0 s S κ)
    (hb : beginSearch m false fuel s0 = .ok (.here s two))
    (hf : findStart m fuel s two = .ok (d.edgeOf m.imax, d.leftOf m.imax, t.ex d.rev))
    (hn : NextMark m s.data κ d) (hfuel : 4 * (m.imax * m.jmax) + 1 ≤ fuel) :
    ∃ (n : Int) (s' : Site) (S' : St), curveTracer m lev false fuel s0 = .ok (n, [], s') ∧ P1 m t M0 s' S' (d.key m.imax) ∧
      s'.edge0 = d.edgeOf m.imax ∧ s'.left0 = d.leftOf m.imax ∧ s'.count < s.count ∧
      (d ∉ S.W ∧ ∃ r, Plan t S d r ∧ S' = after t S d r) ∧
      ((0 < n ∧ S'.W.length = S.W.length + 1 ∧ S'.points t = S.points t + n) ∨
       (n < 0 ∧ S'.W.length = S.W.length ∧ S'.points t = S.points t - n)) := by
  have hd : S.M d := (hP.mem.marks d).mp hn.mkd
  have hd0 := hP.inv.sub d hd
  have hw : d ∉ S.W := fun h => by
    have := hP.last d h
    have := hn.gt
    omega
  obtain ⟨r, hr, hp, hinv, hcard⟩ := visit ok mo hP.inv hd hw hP.mem.osym
  have hWe : ∀ w ∈ S.W, 0 ≤ w.edgeOf m.imax ∧ w.edgeOf m.imax ≤ d.edgeOf m.imax := by
    intro w hw'
    refine ⟨le_of_lt (edge_pos ok (mo.ex w (hP.inv.wsub w hw'))), key_le_edge ?_⟩
    have := hP.last w hw'
    have := hn.gt
    omega
  have hpos := edge_pos ok (mo.ex d hd0)
  have hlast : 0 ≤ s.edge00 ∧ s.edge00 ≤ d.edgeOf m.imax := by
    rw [hP.e00]
    rcases lastEdge_mem m.imax 0 S.W with h | ⟨w, hw', h⟩
    · rw [h.1]; omega
    · rw [h]; exact hWe w hw'
  obtain ⟨c, n, s', hz, hfin, hmem, he0, hl0, hcnt, had, hkept, hopen⟩ :=
    cross1 ok mo hP.mem hP.inv hd hp (show r + 1 ≤ fuel by omega) hlast.1 hlast.2
  have hnl : 1 ≤ newLen t d r := by
    unfold newLen
    have := hp.pos
    split <;> omega
  refine ⟨n, s', after t S d r, ?_, ?_, he0, hl0, hcnt, ⟨hw, r, hp, rfl⟩, ?_⟩
  · unfold curveTracer
    simp only [hb, hf, bind, Except.bind, pure, Except.pure, Bool.false_eq_true, if_false, hz, hfin]
  · have hdone : ∀ a, (after t S d r).M a → a.key m.imax ≤ d.key m.imax → a ∈ (after t S d r).W := by
      intro a ha hk
      have hSa := (after_M_sub ha).1
      by_cases hle : a.key m.imax ≤ κ
      · have hne : a ≠ d := by
          rintro rfl
          have := hn.gt
          omega
        rw [after_W hne]
        exact hP.done a hSa hle
      · have had' : a = d := by
          have h1 := hn.least a ((hP.mem.marks a).mpr hSa) (by omega)
          exact key_inj ((hP.mem.marks a).mpr hSa).1 hn.mkd.1 (by omega)
        subst had'
        by_cases hk' : Kept t a r
        · rw [(after_kept hk').2.2]; simp
        · rw [(after_opened hk').1] at ha
          exact absurd rfl ha.2
    by_cases hk : Kept t d r
    · obtain ⟨h1, h2, h3⟩ := hkept hk
      have hW := (after_kept (S := S) hk).2.2
      refine ⟨hmem, hinv, hdone, ?_, ?_, ?_, ?_, ?_⟩
      · intro a ha
        rw [hW, List.mem_append, List.mem_singleton] at ha
        rcases ha with ha | rfl
        · have := hP.last a ha
          have := hn.gt
          omega
        · exact le_rfl
      · rw [hW, List.pairwise_append]
        refine ⟨hP.keys, List.pairwise_singleton _ _, ?_⟩
        intro a ha b hb'
        rw [List.mem_singleton] at hb'
        subst hb'
        have := hP.last a ha
        have := hn.gt
        omega
      · intro k hk0 hk1
        rw [h3, hP.rows k hk0 hk1, hW, rowsFrom_append, List.mem_append, List.mem_singleton, hP.e00]
      · rw [h2, hW, lastEdge_append]
      · intro k hk0 hk1
        rw [had]; exact hP.alld k hk0 hk1
    · obtain ⟨h1, h2, h3⟩ := hopen hk
      have hW := (after_opened (S := S) hk).2.2
      refine ⟨hmem, hinv, hdone, ?_, ?_, ?_, ?_, ?_⟩
      · intro a ha
        rw [hW] at ha
        have := hP.last a ha
        have := hn.gt
        omega
      · rw [hW]; exact hP.keys
      · intro k hk0 hk1
        rw [h3, hW]; exact hP.rows k hk0 hk1
      · rw [h2, hW]; exact hP.e00
      · intro k hk0 hk1
        rw [had]; exact hP.alld k hk0 hk1
  · by_cases hk : Kept t d r
    · left
      obtain ⟨h1, _, _⟩ := hkept hk
      have hW := (after_kept (S := S) hk).2.2
      refine ⟨?_, by rw [hW]; simp, ?_⟩
      · rw [h1]; split <;> omega
      · unfold St.points
        rw [hcard, hW, List.countP_append, h1]
        cases h : t.ex d.rev
        · simp [h]; ring
        · simp [h]; ring
    · right
      obtain ⟨h1, _, _⟩ := hopen hk
      have hW := (after_opened (S := S) hk).2.2
      refine ⟨by omega, by rw [hW], ?_⟩
      unfold St.points
      rw [hcard, hW, h1]
      push_cast
      ring

/-- the end of the first pass -/
structure Ended (m : Mesh K) (t : Topo) (M0 : DE → Prop) (s : Site) (S : St) (κ : Int) : Prop where
  before : ∃ s1 : Site, P1 m t M0 s1 S κ ∧ s1.count ≤ 0 ∧
    s = { s1 with data := upd s1.data s1.edge00 { s1.data s1.edge00 with allDone := true }, edge0 := 0, edge00 := 0, left0 := 0 }

theorem first_later (rounds : Nat) : ∀ {s : Site} {S : St} {d : DE} {fuel : Nat} {np : Nat} {nt : Int}, P1 m t M0 s S (d.key m.imax) →
    t.ex d = true → s.edge0 = d.edgeOf m.imax → s.left0 = d.leftOf m.imax → InBox m.imax m.jmax (d.i, d.j) →
    4 * (m.imax * m.jmax) + 1 ≤ fuel → s.count < rounds → np = S.W.length → nt = S.points t → 1 ≤ rounds →
    ∃ (s' : Site) (S' : St) (κ : Int), pass1 m lev fuel rounds s np nt = .ok (S'.W.length, S'.points t, s') ∧
      Ended m t M0 s' S' κ ∧ Runs m.imax t S (d.key m.imax) S' := by
  induction rounds with
  | zero => intro s S d fuel np nt _ _ _ _ _ _ _ _ _ h; omega
  | succ rounds ih =>
    intro s S d fuel np nt hP hex he hl hbox hfuel hcnt hnp hnt _
    have hpos := edge_pos ok hex
    have h2 := ok.imax2 hex
    have hbr := range_nreg hbox
    have hrd : rd m.nreg s.data s.edge0 = .ok (s.data s.edge0) := by
      rw [he]; exact rd_ok hbr
    have hWm : ∀ w ∈ S.W, 0 ≤ w.edgeOf m.imax ∧ w.edgeOf m.imax < m.nreg := by
      intro w hw
      exact range_nreg (ok.box (mo.ex w (hP.inv.wsub w hw))).2.2.2.2.2
    by_cases hc : s.count ≤ 0
    · -- the end
      have hrd0 : rd m.nreg s.data s.edge00 = .ok (s.data s.edge00) := by
        apply rd_ok
        rw [hP.e00]
        rcases lastEdge_mem m.imax 0 S.W with h | ⟨w, hw, h⟩
        · rw [h.1]
          unfold Mesh.nreg
          have h3 : (0 : Int) ≤ (m.imax : Int) * m.jmax := by positivity
          omega
        · rw [h]; exact hWm w hw
      have hall : ∀ a, S.M a → a ∈ S.W := by
        rw [← count_pos hP.mem.marks (hP.inv.wm ok mo) hP.inv.nodup, ← hP.mem.count]
        exact hc
      refine ⟨_, S, d.key m.imax, ?_, ⟨s, hP, hc, rfl⟩, .stop hall⟩
      rw [pass1]
      unfold curveTracer beginSearch
      simp only [hrd, bind, Except.bind]
      rw [if_neg (by simp; omega), if_pos hc]
      simp only [hrd0, pure, Except.pure, if_true, hnp, hnt]
    · -- another curve
      have hcp : ¬ ∀ a, S.M a → a ∈ S.W := by
        rw [← count_pos hP.mem.marks ?_ hP.inv.nodup, ← hP.mem.count]
        · exact hc
        · exact hP.inv.wm ok mo
      push Not at hcp
      obtain ⟨a, ha, haW⟩ := hcp
      have hka : d.key m.imax < a.key m.imax := by
        by_contra hle
        exact haW (hP.done a ha (by omega))
      obtain ⟨d', hd'⟩ := exists_next ((hP.mem.marks a).mpr ha) hka
      have hd'0 : M0 d' := hP.inv.sub _ ((hP.mem.marks d').mp hd'.mkd)
      have hd'e : d.edgeOf m.imax ≤ d'.edgeOf m.imax := key_le_edge (le_of_lt hd'.gt)
      -- where the search begins
      have hsearch : ∃ (e : Int) (two : Bool), beginSearch m false fuel s = .ok (.here { s with edge0 := e } two) ∧
          findStart m fuel { s with edge0 := e } two = .ok (d'.edgeOf m.imax, d'.leftOf m.imax, t.ex d'.rev) := by
        have hbs : ∀ b, twoStarts m.imax s.left0 (s.data s.edge0) = b →
            beginSearch m false fuel s = .ok (.here (if b then s else { s with edge0 := s.edge0 + 1 }) b) := by
          intro b hb
          unfold beginSearch
          simp only [hrd, bind, Except.bind]
          rw [if_neg (by simp; omega), if_neg hc, hb]
          rfl
        cases htwo : twoStarts m.imax s.left0 (s.data s.edge0)
        · refine ⟨s.edge0 + 1, false, by rw [hbs _ htwo]; rfl, ?_⟩
          have hno : ¬ d'.edgeOf m.imax = d.edgeOf m.imax := by
            intro heq
            have : twoStarts m.imax s.left0 (s.data s.edge0) = true := by
              rw [hl, he, twoStarts_iff h2]
              refine ⟨d'.d, ?_, ?_⟩
              · have := hd'.gt
                unfold DE.key at this
                omega
              · rw [← heq]; exact hd'.mkd.2
            rw [htwo] at this; simp at this
          refine findStart_scan (s := { s with edge0 := s.edge0 + 1 }) ok hP.mem.link mo rfl hd'.mkd hd'0 ?_ ?_ ?_ (show m.imax * m.jmax + 1 ≤ fuel by omega)
          · simp only; omega
          · simp only; omega
          · intro b hb hbe
            simp only at hbe
            apply hd'.least b hb
            exact key_lt_of_edge (by omega)
        · refine ⟨s.edge0, true, by rw [hbs _ htwo]; rfl, ?_⟩
          have heq : d'.edgeOf m.imax = d.edgeOf m.imax := by
            rw [hl, he, twoStarts_iff h2] at htwo
            obtain ⟨x, hx, hbx⟩ := htwo
            have := hd'.least ⟨d.i, d.j, x⟩ ⟨hbox, hbx⟩ (by unfold DE.key DE.edgeOf; simp only; omega)
            have h3 := key_le_edge this
            have : DE.edgeOf m.imax ⟨d.i, d.j, x⟩ = d.edgeOf m.imax := rfl
            omega
          exact findStart_two ok hP.mem.link mo rfl h2 he hl hd' hd'0 heq fuel
      obtain ⟨e, two, hbeg, hfind⟩ := hsearch
      obtain ⟨n, s', S', hct, hP', he', hl', hcnt', ⟨hdW, r, hpl, hS'⟩, hres⟩ := curve1_step ok mo (hP.edge0 e) hbeg hfind hd' hfuel
      simp only at hcnt'
      rw [pass1, hct]
      simp only [bind, Except.bind]
      have hrest : ∀ np' nt', np' = S'.W.length → nt' = S'.points t → ∃ (s'' : Site) (S'' : St) (κ : Int),
          pass1 m lev fuel rounds s' np' nt' = .ok (S''.W.length, S''.points t, s'') ∧ Ended m t M0 s'' S'' κ ∧
            Runs m.imax t S (d.key m.imax) S'' := by
        intro np' nt' h1 h3
        obtain ⟨s'', S'', κ, g1, g2, g3⟩ := ih hP' (mo.ex d' hd'0) he' hl' hd'.mkd.1 hfuel (by push_cast at hcnt; omega) h1 h3
          (by push_cast at hcnt; omega)
        refine ⟨s'', S'', κ, g1, g2, .step ((hP.mem.marks d').mp hd'.mkd) hdW hd'.gt ?_ hpl (hS' ▸ g3)⟩
        exact fun a ha hk => hd'.least a ((hP.mem.marks a).mpr ha) hk
      rcases hres with ⟨h1, h3, h4⟩ | ⟨h1, h3, h4⟩
      · rw [if_neg (by omega), if_pos h1]
        exact hrest _ _ (by omega) (by omega)
      · rw [if_neg (by omega), if_neg (by omega)]
        exact hrest _ _ (by omega) (by omega)

end
end Trackeddy.Cntr
