import Verif.Proofs.Cntr.Routes
import Verif.Proofs.Cntr.FirstCall
import Mathlib.Algebra.Order.BigOperators.Group.List

/-!
The second pass: the kept starts are found again in the same order, and each curve is drawn.
-/
namespace Trackeddy.Cntr

variable {K : Type} [Field K] [LinearOrder K]

structure P2 (m : Mesh K) (t : Topo) (W : List DE) (s : Site) : Prop where
  link : Link m t s.data
  sad : SadOK m t s.saddle
  marks : ∀ a, marked m s.data a ↔ a ∈ W
  rows : ∀ k, 0 ≤ k → k < m.ijmax → ((s.data k).row = true ↔ k ∈ rowsFrom m.imax 0 W)
  alld : ∀ k, 0 ≤ k → k < m.ijmax → ((s.data k).allDone = true ↔ k = lastEdge m.imax 0 W)

/-- where the search stands after the curves of `A` -/
def Pos2 (m : Mesh K) (A : List DE) (s : Site) : Prop :=
  (A = [] ∧ s.edge0 = 0 ∧ s.left0 = 0) ∨ ∃ A' d, A = A' ++ [d] ∧ s.edge0 = d.edgeOf m.imax ∧ s.left0 = d.leftOf m.imax

theorem rowsFrom_mem_split (imax : Nat) (p : Int) (A : List DE) (w : DE) (B : List DE) :
    w.edgeOf imax - (w.edgeOf imax - lastEdge imax p A) % imax ∈ rowsFrom imax p (A ++ w :: B) := by
  induction A generalizing p with
  | nil => simp [rowsFrom, lastEdge]
  | cons a A ih => simp only [List.cons_append, rowsFrom, lastEdge]; exact List.mem_cons_of_mem _ (ih _)

theorem lastEdge_split (imax : Nat) (p : Int) (A : List DE) (w : DE) (B : List DE) :
    lastEdge imax p (A ++ w :: B) = lastEdge imax (w.edgeOf imax) B := by
  induction A generalizing p with
  | nil => rfl
  | cons a A ih => exact ih _

section
variable {m : Mesh K} {lev : K} {t : Topo} (ok : TopoOK m lev t) {M0 : DE → Prop} (mo : MarksOK t M0)
  {W : List DE} (hW0 : ∀ w ∈ W, M0 w) (hkeys : W.Pairwise fun a b => a.key m.imax < b.key m.imax)
include ok mo hW0 hkeys

/-- the search finds the next kept start -/
theorem search2 {A B : List DE} {w : DE} (hsplit : W = A ++ w :: B) {s : Site} (hP : P2 m t W s) (hpos : Pos2 m A s)
    {fuel : Nat} (hfuel : m.imax * m.jmax + 1 ≤ fuel) :
    ∃ (e : Int) (two : Bool), beginSearch m true fuel s = .ok (.here { s with edge0 := e } two) ∧
      findStart m fuel { s with edge0 := e } two = .ok (w.edgeOf m.imax, w.leftOf m.imax, t.ex w.rev) := by
  have hwW : w ∈ W := by rw [hsplit]; simp
  have hw0 := hW0 w hwW
  have hwm : marked m s.data w := (hP.marks w).mpr hwW
  have hwr := marked_range hwm
  have hex := mo.ex w hw0
  have h2 := ok.imax2 hex
  have hwpos := edge_pos ok hex
  have hij : m.ijmax = ((m.imax * m.jmax : Nat) : Int) := by unfold Mesh.ijmax; push_cast; ring
  have hijn : ∀ k, k < m.ijmax → k < m.nreg := fun k hk => ijmax_nreg hk
  -- order
  have hge : ∀ a ∈ w :: B, w.key m.imax ≤ a.key m.imax := by
    intro a ha
    rw [hsplit, List.pairwise_append] at hkeys
    have h3 := hkeys.2.1
    rw [List.pairwise_cons] at h3
    rcases List.mem_cons.mp ha with rfl | ha
    · exact le_rfl
    · exact le_of_lt (h3.1 a ha)
  have hlast : w.edgeOf m.imax ≤ lastEdge m.imax 0 W := by
    rw [hsplit, lastEdge_split]
    rcases lastEdge_mem m.imax (w.edgeOf m.imax) B with h | ⟨v, hv, h⟩
    · rw [h.1]
    · rw [h]; exact key_le_edge (hge v (List.mem_cons_of_mem _ hv))
  have hrow := rowsFrom_mem_split m.imax 0 A w B
  rw [← hsplit] at hrow
  -- what is needed when the search goes by rows
  have hgo : ∀ p : Int, 0 ≤ p → p < w.edgeOf m.imax → s.edge0 = p → lastEdge m.imax 0 A = p →
      twoStarts m.imax s.left0 (s.data s.edge0) = false →
      (∀ a ∈ W, p < a.edgeOf m.imax → w.key m.imax ≤ a.key m.imax) →
      ∃ (e : Int) (two : Bool), beginSearch m true fuel s = .ok (.here { s with edge0 := e } two) ∧
        findStart m fuel { s with edge0 := e } two = .ok (w.edgeOf m.imax, w.leftOf m.imax, t.ex w.rev) := by
    intro p hp0 hpw hsp hlp htwo hleast
    rw [hlp] at hrow
    set q := (w.edgeOf m.imax - p) / m.imax with hq
    have hq0 : 0 ≤ q := Int.ediv_nonneg (by omega) (by omega)
    have hr : w.edgeOf m.imax - (w.edgeOf m.imax - p) % m.imax = p + (q.toNat : Int) * m.imax := by
      have h3 := Int.emod_add_mul_ediv (w.edgeOf m.imax - p) m.imax
      rw [← hq, mul_comm] at h3
      have : (q.toNat : Int) = q := by omega
      rw [this]; omega
    have hm0 : 0 ≤ (w.edgeOf m.imax - p) % m.imax := Int.emod_nonneg _ (by omega)
    rw [hr] at hrow
    have hmulge : (0 : Int) ≤ (q.toNat : Int) * m.imax := by positivity
    have hbnd : p + (q.toNat : Int) * m.imax < m.ijmax := by omega
    have hqle : q.toNat ≤ m.imax * m.jmax := by
      have : (q.toNat : Int) ≤ (q.toNat : Int) * m.imax := by nlinarith
      omega
    obtain ⟨k, hk, hsc, _⟩ := scanRows_ok (m := m) (data := s.data) (by omega) q.toNat fuel p hp0 (hijn _ hbnd) (by omega)
      ((hP.rows _ (by omega) hbnd).mpr hrow)
    have hkm : (k : Int) * m.imax ≤ (q.toNat : Int) * m.imax := mul_le_mul_of_nonneg_right (by omega) (by omega)
    have hk0 : (0 : Int) ≤ (k : Int) * m.imax := by positivity
    set e := p + (k : Int) * m.imax with he
    have hall : (s.data s.edge0).allDone = false := by
      rw [hsp]
      cases h : (s.data p).allDone
      · rfl
      · have := (hP.alld p hp0 (by omega)).mp h
        omega
    refine ⟨if p = e then e + 1 else e, false, ?_, ?_⟩
    · unfold beginSearch
      rw [rd_ok ⟨by omega, hijn _ (by omega)⟩]
      simp only [bind, Except.bind, true_or, if_true, htwo, hall, Bool.false_eq_true, if_false, pure, Except.pure]
      rw [hsp, hsc]
      simp
    · refine findStart_scan (s := { s with edge0 := if p = e then e + 1 else e }) ok hP.link mo rfl hwm hw0 ?_ ?_ ?_ hfuel
      · simp only; split <;> omega
      · simp only; split <;> omega
      · intro a ha hae
        apply hleast a ((hP.marks a).mp ha)
        simp only at hae
        split at hae <;> omega
  rcases hpos with ⟨rfl, he, hl⟩ | ⟨A', d, rfl, he, hl⟩
  · apply hgo 0 le_rfl hwpos he rfl
    · rw [hl]
      unfold twoStarts
      rw [if_neg (by omega), if_neg (by omega), if_neg (by omega)]
    · intro a ha _
      exact hge a (by rw [hsplit] at ha; simpa using ha)
  · have hdW : d ∈ W := by rw [hsplit]; simp
    have hd0 := hW0 d hdW
    have hdm := (hP.marks d).mpr hdW
    have hdr := marked_range hdm
    rw [hsplit, List.append_assoc, List.pairwise_append] at hkeys
    obtain ⟨_, hk2, hk3⟩ := hkeys
    simp only [List.singleton_append, List.pairwise_cons] at hk2
    have hdw : d.key m.imax < w.key m.imax := hk2.1 w (by simp)
    have hsplit' : ∀ a ∈ W, d.key m.imax < a.key m.imax → a ∈ w :: B := by
      intro a ha hk
      rw [hsplit, List.append_assoc, List.mem_append] at ha
      rcases ha with ha | ha
      · have := hk3 a ha d (by simp)
        omega
      · simp only [List.singleton_append, List.mem_cons] at ha
        rcases ha with rfl | ha
        · omega
        · simpa using ha
    have hnext : NextMark m s.data (d.key m.imax) w :=
      ⟨hwm, hdw, fun a ha hk => hge a (hsplit' a ((hP.marks a).mp ha) hk)⟩
    have hde := key_le_edge (le_of_lt hdw)
    have hrd : rd m.nreg s.data s.edge0 = .ok (s.data s.edge0) := by
      rw [he]; exact rd_ok ⟨hdr.1, hijn _ hdr.2⟩
    cases htwo : twoStarts m.imax s.left0 (s.data s.edge0)
    · have hno : ¬ w.edgeOf m.imax = d.edgeOf m.imax := by
        intro heq
        have : twoStarts m.imax s.left0 (s.data s.edge0) = true := by
          rw [hl, he, twoStarts_iff h2]
          refine ⟨w.d, ?_, ?_⟩
          · have := hdw
            unfold DE.key at this
            omega
          · rw [← heq]; exact hwm.2
        rw [htwo] at this; simp at this
      refine hgo (d.edgeOf m.imax) hdr.1 (by omega) he (lastEdge_append _ _ _ _) htwo ?_
      intro a ha hae
      exact hge a (hsplit' a ha (key_lt_of_edge hae))
    · refine ⟨s.edge0, true, ?_, ?_⟩
      · unfold beginSearch
        rw [hrd]
        simp only [bind, Except.bind, true_or, if_true, htwo, pure, Except.pure]
      · have heq : w.edgeOf m.imax = d.edgeOf m.imax := by
          rw [hl, he, twoStarts_iff h2] at htwo
          obtain ⟨x, hx, hbx⟩ := htwo
          have := hnext.least ⟨d.i, d.j, x⟩ ⟨hdm.1, hbx⟩ (by unfold DE.key DE.edgeOf; simp only; omega)
          have h3 := key_le_edge this
          have : DE.edgeOf m.imax ⟨d.i, d.j, x⟩ = d.edgeOf m.imax := rfl
          omega
        exact findStart_two ok hP.link mo rfl h2 he hl hnext hw0 heq fuel

/-- after the last curve the search ends -/
theorem search2_end {s : Site} (h2 : 2 ≤ m.imax) (hne : 0 < m.ijmax) (hP : P2 m t W s) (hpos : Pos2 m W s) (fuel : Nat) :
    beginSearch m true fuel s = .ok (.finished s) := by
  have key : ∀ p, s.edge0 = p → 0 ≤ p → p < m.ijmax → p = lastEdge m.imax 0 W →
      twoStarts m.imax s.left0 (s.data s.edge0) = false → beginSearch m true fuel s = .ok (.finished s) := by
    intro p hp h0 h1 hl htwo
    unfold beginSearch
    rw [rd_ok ⟨by omega, ijmax_nreg (by omega)⟩]
    have : (s.data s.edge0).allDone = true := by rw [hp]; exact (hP.alld p h0 h1).mpr hl
    simp only [bind, Except.bind, true_or, if_true, htwo, this, Bool.false_eq_true, if_false, pure, Except.pure]
  rcases hpos with ⟨rfl, he, hl⟩ | ⟨A', d, rfl, he, hl⟩
  · refine key 0 he le_rfl hne rfl ?_
    rw [hl]
    unfold twoStarts
    rw [if_neg (by omega), if_neg (by omega), if_neg (by omega)]
  · have hdm := (hP.marks d).mpr (by simp)
    have hdr := marked_range hdm
    refine key _ he hdr.1 hdr.2 (lastEdge_append _ _ _ _).symm ?_
    cases htwo : twoStarts m.imax s.left0 (s.data s.edge0)
    · rfl
    · exfalso
      rw [hl, he, twoStarts_iff h2] at htwo
      obtain ⟨x, hx, hbx⟩ := htwo
      have hin := (hP.marks ⟨d.i, d.j, x⟩).mp ⟨hdm.1, hbx⟩
      rw [List.mem_append] at hin
      rcases hin with hin | hin
      · rw [List.pairwise_append] at hkeys
        have := hkeys.2.2 _ hin d (by simp)
        unfold DE.key DE.edgeOf at this
        simp only at this
        omega
      · simp only [List.mem_singleton] at hin
        have : x = d.d := by rw [← hin]
        rw [this] at hx
        omega

variable {L : DE → Nat} (hL : ∀ w ∈ W, Route t w (L w))
include hL

omit hkeys in
theorem route_le {w : DE} (hw : w ∈ W) : L w ≤ 4 * (m.imax * m.jmax) := by
  have hr := hL w hw
  have hc := hr.cut
  refine run_le (f := fun s => t.next^[s] w) (fun s hs => ok.mem (hr.mid s hs)) ?_
  have key : ∀ s s', s < s' → s' < L w → t.next^[s] w ≠ t.next^[s'] w := by
    intro s s' hlt hs' he
    have := Topo.iter_cancel hc hc (le_of_lt hlt) he
    exact hr.fresh (s' - s) (by omega) (by omega) this.symm
  intro s hs s' hs' he
  rcases lt_trichotomy s s' with h | h | h
  · exact absurd he (key s s' h hs')
  · exact h
  · exact absurd he.symm (key s' s h hs)

theorem curve2_step {A B : List DE} {w : DE} (hsplit : W = A ++ w :: B) {s : Site} (hP : P2 m t W s) (hpos : Pos2 m A s)
    {fuel : Nat} (hfuel : 4 * (m.imax * m.jmax) + 1 ≤ fuel) :
    ∃ s', curveTracer m lev true fuel s = .ok (((L w + 1 : Nat) : Int), (path t (L w) w).map (vtx m lev), s') ∧
      P2 m t W s' ∧ Pos2 m (A ++ [w]) s' := by
  obtain ⟨e, two, hb, hf⟩ := search2 ok mo hW0 hkeys hsplit hP hpos (show m.imax * m.jmax + 1 ≤ fuel by omega)
  have hwW : w ∈ W := by rw [hsplit]; simp
  have hw0 := hW0 w hwW
  have hr := hL w hwW
  have hex := mo.ex w hw0
  have h2 := ok.imax2 hex
  have hle := route_le ok mo hW0 hL hwW
  have hJ : t.ex w.rev = true → w.isJ = false := fun h => (mo.inner w hw0 h).1
  obtain ⟨c, hc, hn, hpts, hdat, hsad, hcnt, _⟩ := loop2_run ok (level0 := t.ex w.rev) (ok.box hex).2.2.2.2.2 hJ (L w)
    { edge := w.edgeOf m.imax, left := w.leftOf m.imax, fwd := FORWARD (w.leftOf m.imax) m.imax, jedge := IS_JEDGE (w.leftOf m.imax),
      n := 0, done := 0, data := s.data, saddle := s.saddle, count := s.count, pts := [] } w fuel
    ⟨rfl, rfl, DE.forward_left h2 w, DE.isJ_left h2 w⟩ hP.link hP.sad hr.cut rfl hr.pos (by omega) hr.mid
    (by
      intro s' hs' h0 h
      have h0 : s' ≠ 0 := by simpa using h0
      exact hr.fresh s' (by omega) hs' h.2)
    (by
      intro hx
      cases h : t.ex w.rev
      · rw [hr.stop h] at hx; simp at hx
      · exact ⟨rfl, hr.close h⟩)
  simp only at hn hpts hdat hsad hcnt
  refine ⟨{ s with data := c.data, saddle := c.saddle, count := c.count, edge0 := w.edgeOf m.imax, left0 := w.leftOf m.imax }, ?_, ?_, ?_⟩
  · unfold curveTracer zoneCrosser
    simp only [hb, hf, bind, Except.bind, pure, Except.pure, if_true, hc, hpts, hn]
    simp
  · exact ⟨by simp only [hdat]; exact hP.link, hsad, by simp only [hdat]; exact hP.marks, by simp only [hdat]; exact hP.rows,
      by simp only [hdat]; exact hP.alld⟩
  · exact Or.inr ⟨A, w, rfl, rfl, rfl⟩

theorem pass2_run (h2 : 2 ≤ m.imax) (hne : 0 < m.ijmax) {fuel : Nat} (hfuel : 4 * (m.imax * m.jmax) + 1 ≤ fuel) {ntotal : Int}
    (hnt : (W.map fun w => ((L w + 1 : Nat) : Int)).sum ≤ ntotal) (B : List DE) :
    ∀ (A : List DE) (s : Site) (rounds : Nat), W = A ++ B → P2 m t W s → Pos2 m A s → B.length + 1 ≤ rounds →
      pass2 m lev fuel W.length ntotal rounds s (A.map fun w => (path t (L w) w).map (vtx m lev))
        (A.map fun w => ((L w + 1 : Nat) : Int)).sum = .ok (W.map fun w => (path t (L w) w).map (vtx m lev)) := by
  induction B with
  | nil =>
    intro A s rounds hs hP hpos hr
    obtain ⟨rounds, rfl⟩ : ∃ q, rounds = q + 1 := ⟨rounds - 1, by omega⟩
    rw [List.append_nil] at hs
    subst hs
    rw [pass2]
    unfold curveTracer
    rw [search2_end ok mo hW0 hkeys h2 hne hP hpos fuel]
    simp only [bind, Except.bind, pure, Except.pure, add_zero, List.length_map, if_true]
    rw [if_neg (by omega)]
  | cons w B ih =>
    intro A s rounds hs hP hpos hr
    obtain ⟨rounds, rfl⟩ : ∃ q, rounds = q + 1 := ⟨rounds - 1, by omega⟩
    obtain ⟨s', hct, hP', hpos'⟩ := curve2_step ok mo hW0 hkeys hL hs hP hpos hfuel
    have hlt : (A.map fun w => ((L w + 1 : Nat) : Int)).sum + ((L w + 1 : Nat) : Int) ≤ ntotal := by
      refine le_trans ?_ hnt
      rw [hs, List.map_append, List.sum_append, List.map_cons, List.sum_cons]
      have : 0 ≤ (B.map fun w => ((L w + 1 : Nat) : Int)).sum := List.sum_nonneg (by
        intro x hx
        rw [List.mem_map] at hx
        obtain ⟨v, _, rfl⟩ := hx
        positivity)
      omega
    rw [pass2, hct]
    simp only [bind, Except.bind]
    rw [if_neg (by omega), if_neg (by omega), if_pos (by omega), if_pos (by rw [hs]; simp)]
    have := ih (A ++ [w]) s' rounds (by rw [hs]; simp) hP' hpos' (by simp only [List.length_cons] at hr; omega)
    rw [List.map_append, List.map_append, List.sum_append] at this
    simpa using this

end

section
variable {m : Mesh K} {reg : Option (Nat → Bool)} {lev : K} {s : Site} {fl : Option Nat}

/-- both passes after `data_init` -/
theorem both_passes (hi : Inited m reg lev s fl) (hr : RegOK m reg) (hc : s.count ≠ 0) {fuel : Nat}
    (hfuel : 4 * (m.imax * m.jmax) + 2 ≤ fuel) {np : Nat} {nt : Int} {s' : Site} {S : St} {κ : Int}
    (hend : Ended m (mkTopo m reg lev) (marked m s.data) s' S κ) (hnp : np = S.W.length) (hnt : nt = S.points (mkTopo m reg lev)) :
    ∃ L : DE → Nat, pass2 m lev fuel np nt fuel s' [] 0 =
        .ok (S.W.map fun w => (path (mkTopo m reg lev) (L w) w).map (vtx m lev)) ∧
      (∀ w ∈ S.W, Route (mkTopo m reg lev) w (L w)) ∧
      (S.W.flatMap fun w => edgesOf (mkTopo m reg lev) w (L w)).Nodup ∧
      (∀ e, e ∈ (S.W.flatMap fun w => edgesOf (mkTopo m reg lev) w (L w)) ↔
        (mkTopo m reg lev).up e ∧ ((mkTopo m reg lev).ex e = true ∨ (mkTopo m reg lev).ex e.rev = true)) := by
  classical
  have ok := mkTopo_ok m reg lev
  have mo := inited_marksOK hi hr
  obtain ⟨s1, hP, hcnt, hs'⟩ := hend.before
  have htot := inited_total hi
  obtain ⟨a, ha⟩ : ∃ a, marked m s.data a := by
    have := count_pos (m := m) (data := s.data) (W := []) (fun a => Iff.rfl) (by simp) (by simp)
    by_contra hne
    push Not at hne
    have h3 := this.mpr (fun a h => absurd h (hne a))
    have h4 := total_nonneg m s.data
    simp at h3
    omega
  have h2 := ok.imax2 (mo.ex a ha)
  have har := marked_range ha
  have hd : ∀ a, S.M a → a ∈ S.W := by
    rw [← count_pos hP.mem.marks (hP.inv.wm ok mo) hP.inv.nodup, ← hP.mem.count]
    exact hcnt
  obtain ⟨L, hL, hnd, hcov, hR⟩ := partition_curves ok mo hP.inv hd
  refine ⟨L, ?_, hL, hnd, hcov⟩
  have hle : 0 ≤ s1.edge00 ∧ s1.edge00 < m.ijmax := by
    rw [hP.e00]
    rcases lastEdge_mem m.imax 0 S.W with h | ⟨w, hw, h⟩
    · rw [h.1]; omega
    · rw [h]; exact range_ijmax (ok.box (mo.ex w (hP.inv.wsub w hw))).2.2.2.2.2
  have hsame : ∀ k, (s'.data k).z = (s1.data k).z ∧ (s'.data k).iB = (s1.data k).iB ∧ (s'.data k).jB = (s1.data k).jB ∧
      (s'.data k).row = (s1.data k).row ∧ ∀ x, (s'.data k).bit x = (s1.data k).bit x := by
    intro k
    rw [hs']
    simp only [upd]
    split
    · rename_i h; rw [h]; exact ⟨rfl, rfl, rfl, rfl, fun x => by cases x <;> rfl⟩
    · exact ⟨rfl, rfl, rfl, rfl, fun x => rfl⟩
  have hP2 : P2 m (mkTopo m reg lev) S.W s' := by
    refine ⟨⟨?_, ?_, ?_⟩, ?_, ?_, ?_, ?_⟩
    · intro p hp; rw [(hsame _).1]; exact hP.mem.link.z p hp
    · intro i j hb; rw [(hsame _).2.1]; exact hP.mem.link.ib i j hb
    · intro i j hb; rw [(hsame _).2.2.1]; exact hP.mem.link.jb i j hb
    · rw [hs']; exact hP.mem.sad
    · intro b
      have : marked m s'.data b ↔ marked m s1.data b := by
        unfold marked mk
        rw [(hsame _).2.2.2.2]
      rw [this, hP.mem.marks]
      exact ⟨hd b, hP.inv.wm ok mo b⟩
    · intro k h0 h1
      rw [(hsame _).2.2.2.1]
      exact hP.rows k h0 h1
    · intro k h0 h1
      rw [hs', ← hP.e00]
      simp only [upd]
      split
      · rename_i h; simp [h]
      · rename_i h
        rw [hP.alld k h0 h1]
        simp [h]
  have hpos2 : Pos2 m [] s' := Or.inl ⟨rfl, by rw [hs'], by rw [hs']⟩
  have hsum : ∀ W : List DE, (W.map fun w => ((L w + 1 : Nat) : Int)).sum =
      ((W.flatMap fun w => edgesOf (mkTopo m reg lev) w (L w)).length : Int) + (W.countP fun d => (mkTopo m reg lev).ex d.rev) := by
    intro W
    induction W with
    | nil => simp
    | cons w W ih =>
      rw [List.map_cons, List.sum_cons, ih, List.flatMap_cons, List.length_append, List.countP_cons]
      have : (edgesOf (mkTopo m reg lev) w (L w)).length = lenOf (mkTopo m reg lev) w (L w) := by
        unfold edgesOf; simp
      rw [this]
      unfold lenOf
      split <;> push_cast <;> ring
  have hW4 : S.W.length ≤ 4 * (m.imax * m.jmax) := by
    refine le_trans ?_ (card_allDE m.imax m.jmax)
    rw [← List.toFinset_card_of_nodup hP.inv.nodup]
    apply Finset.card_le_card
    intro b hb
    rw [List.mem_toFinset] at hb
    exact ok.mem (mo.ex b (hP.inv.wsub b hb))
  have hR2 : (S.W.flatMap fun w => edgesOf (mkTopo m reg lev) w (L w)).length ≤ S.R.card := by
    rw [← List.toFinset_card_of_nodup hnd]
    apply Finset.card_le_card
    intro b hb
    rw [List.mem_toFinset] at hb
    exact hR b hb
  have := pass2_run ok mo hP.inv.wsub hP.keys hL h2 (by omega) (show 4 * (m.imax * m.jmax) + 1 ≤ fuel by omega) (ntotal := nt) (by
    rw [hsum, hnt]
    unfold St.points
    have : ((S.W.flatMap fun w => edgesOf (mkTopo m reg lev) w (L w)).length : Int) ≤ S.R.card := by exact_mod_cast hR2
    omega) S.W [] s' fuel rfl hP2 hpos2 (by omega)
  rw [hnp]
  simpa using this

/-- the result of `cntr_trace` before `reorder`: one curve for each start in `W`, together covering each
crossed edge once -/
theorem traceRaw_spec (m : Mesh K) (mask : Option (Nat → Bool)) (lev : K) {fuel : Nat} (junk : Arr Cell)
    (sjunk : Arr (Option Bool)) (rjunk : Nat → Bool) (hfuel : 4 * (m.imax * m.jmax) + 2 ≤ fuel) :
    ∃ (W : List DE) (L : DE → Nat) (t : Topo), t = mkTopo m (mask.map fun k => maskZones m.imax m.jmax k rjunk) lev ∧
      traceRaw m mask lev fuel junk sjunk rjunk = .ok (W.map fun w => (path t (L w) w).map (vtx m lev)) ∧
      (∀ w ∈ W, Route t w (L w)) ∧ (W.flatMap fun w => edgesOf t w (L w)).Nodup ∧
      (∀ e, e ∈ (W.flatMap fun w => edgesOf t w (L w)) ↔ t.up e ∧ (t.ex e = true ∨ t.ex e.rev = true)) ∧
      ∃ S, Runs m.imax t (St.init (marked m
        (dataInit m (mask.map fun k => maskZones m.imax m.jmax k rjunk) lev junk sjunk).data)) 0 S ∧ S.W = W := by
  set reg := mask.map fun k => maskZones m.imax m.jmax k rjunk with hreg
  have hr : RegOK m reg := by
    cases mask with
    | none => exact regOK_none m
    | some k => exact regOK_mask m k rjunk
  obtain ⟨fl, hi⟩ := dataInit_spec m reg lev junk sjunk
  set s := dataInit m reg lev junk sjunk with hs
  by_cases hc : s.count = 0
  · obtain ⟨f, rfl⟩ : ∃ f, fuel = f + 1 := ⟨fuel - 1, by omega⟩
    have hno : ∀ a, ¬ marked m s.data a := by
      have := count_pos (m := m) (data := s.data) (W := []) (fun a => Iff.rfl) (by simp) (by simp)
      have h3 := this.mp (by rw [← inited_total hi, hc]; simp)
      intro a ha
      have := h3 a ha
      simp at this
    refine ⟨[], fun _ => 0, _, rfl, ?_, by simp, by simp, ?_, St.init (marked m s.data), .stop ?_, rfl⟩
    · unfold traceRaw
      simp only [← hreg, ← hs]
      rw [pass1, no_marks hi hc]
      simp only [bind, Except.bind, pure, Except.pure, if_true]
      rw [pass2, no_marks hi hc]
      simp [bind, Except.bind, pure, Except.pure]
    · intro e
      have ok := mkTopo_ok m reg lev
      have mo := inited_marksOK hi hr
      simp only [List.flatMap_nil, List.not_mem_nil, false_iff]
      rintro ⟨hu, hx⟩
      rcases curve_of ok hu hx with ⟨x, r, _, hp, _, _⟩ | ⟨r, hcy⟩
      · exact hno x (mo.bnd x hp.up.cut (hp.mid 0 (by have := hp.pos; omega)) hp.first)
      · obtain ⟨q, hq⟩ := mo.cyc e r hcy
        exact hno _ hq
    · intro a ha; exact absurd ha (hno a)
  · obtain ⟨s', S', κ, h1, hend, hruns⟩ := first_pass hi hr hc hfuel
    obtain ⟨L, h2, h3, h4, h5⟩ := both_passes hi hr hc hfuel hend rfl rfl
    refine ⟨S'.W, L, _, rfl, ?_, h3, h4, h5, S', hruns, rfl⟩
    unfold traceRaw
    simp only [← hreg, ← hs, h1, bind, Except.bind, h2]

end
end Trackeddy.Cntr
