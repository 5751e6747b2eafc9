import Verif.Proofs.Cntr.Junk

/-!
Where the first pass leaves the starts of the curves: at the first start mark of a closed curve, and at one of the ends of the others.
-/
namespace Trackeddy.Cntr

variable {K : Type} [Field K] [LinearOrder K]

/-- the marks of a curve from boundary to boundary other than the one at its end -/
def OnPath (t : Topo) (M0 : DE → Prop) (x : DE) (r : Nat) (a : DE) : Prop := M0 a ∧ ∃ s < r, a = t.next^[s] x

/-- state of a closed curve, with the order of the marks -/
def CycleAt (imax : Nat) (t : Topo) (M0 : DE → Prop) (S : St) (κ : Int) (x : DE) : Prop :=
  ((∀ s, Fresh M0 S (t.next^[s] x)) ∧ ∀ s, M0 (t.next^[s] x) → κ < (t.next^[s] x).key imax) ∨
  ∃ k, (∀ s, Only S (t.next^[k] x) (t.next^[s] x)) ∧ ∀ s, M0 (t.next^[s] x) → (t.next^[k] x).key imax ≤ (t.next^[s] x).key imax

/-- some mark comes before the one at the end -/
def EndLater (imax : Nat) (t : Topo) (M0 : DE → Prop) (x : DE) (r : Nat) : Prop :=
  ∃ a, OnPath t M0 x r a ∧ a.key imax < (t.next^[r] x).rev.key imax

/-- state of a curve from boundary to boundary, with the order of the marks -/
def PathAt (imax : Nat) (t : Topo) (M0 : DE → Prop) (S : St) (κ : Int) (x : DE) (r : Nat) : Prop :=
  ((∀ s ≤ r, Fresh M0 S (t.next^[s] x)) ∧ (∀ a, OnPath t M0 x r a → κ < a.key imax) ∧ κ < (t.next^[r] x).rev.key imax) ∨
  ((∀ s ≤ r, Only S (t.next^[r] x).rev (t.next^[s] x)) ∧ ∀ a, OnPath t M0 x r a → (t.next^[r] x).rev.key imax < a.key imax) ∨
  ((∀ s ≤ r, Only S x (t.next^[s] x)) ∧ EndLater imax t M0 x r) ∨
  ((∃ k, 0 < k ∧ k < r ∧ (t.next^[k] x).isJ = false ∧ S.O (t.next^[k] x) ∧ (∀ s < k, Fresh M0 S (t.next^[s] x)) ∧
    ∀ s, k ≤ s → s ≤ r → Gone S (t.next^[s] x)) ∧ EndLater imax t M0 x r)

structure RunAt (imax : Nat) (t : Topo) (M0 : DE → Prop) (S : St) (κ : Int) : Prop where
  inv : Inv t M0 S
  osym : ∀ e, S.O e.rev → S.O e
  cyc : ∀ x r, IsCycle t x r → CycleAt imax t M0 S κ x
  pth : ∀ x r, IsPath t x r → PathAt imax t M0 S κ x r
  last : ∀ a ∈ S.W, a.key imax ≤ κ
  keys : S.W.Pairwise fun a b => a.key imax < b.key imax

section
variable {m : Mesh K} {lev : K} {t : Topo} (ok : TopoOK m lev t) {M0 : DE → Prop} (mo : MarksOK t M0)
include ok mo

theorem mark_box {a : DE} (h : M0 a) : InBox m.imax m.jmax (a.i, a.j) := (ok.box (mo.ex a h)).2.2.2.2.2

theorem mark_lt {a b : DE} (ha : M0 a) (hb : M0 b) (hne : a ≠ b) (h : a.key m.imax ≤ b.key m.imax) : a.key m.imax < b.key m.imax :=
  lt_of_le_of_ne h fun he => hne (key_inj (mark_box ok mo ha) (mark_box ok mo hb) he)

theorem end_mark {x : DE} {r : Nat} (hp : IsPath t x r) : M0 (t.next^[r] x).rev := by
  obtain ⟨q, rfl⟩ : ∃ q, r = q + 1 := ⟨r - 1, by have := hp.pos; omega⟩
  refine mo.bnd _ (t.cut_rev.mpr (hp.up.iter _).cut) ?_ ?_
  · rw [Topo.iter_ex_rev]; exact hp.mid q (by omega)
  · rw [DE.rev_rev]; exact hp.last

theorem first_mark {x : DE} {r : Nat} (hp : IsPath t x r) : M0 x :=
  mo.bnd _ hp.up.cut (by simpa using hp.mid 0 (by have := hp.pos; omega)) hp.first

theorem end_not {x : DE} {r : Nat} (hp : IsPath t x r) {s : Nat} : t.next^[s] x ≠ (t.next^[r] x).rev := by
  intro h
  have h1 := hp.up.iter s
  rw [h] at h1
  exact (hp.up.iter r).not_rev h1

/-- the marks of a path -/
theorem path_mark {x d : DE} {r s : Nat} (hp : IsPath t x r) (hs : s ≤ r) (hd : M0 d) (he : d = t.next^[s] x ∨ d = (t.next^[s] x).rev) :
    OnPath t M0 x r d ∨ d = (t.next^[r] x).rev := by
  rcases Nat.lt_or_ge s r with hlt | hge
  · rcases he with he | he
    · exact Or.inl ⟨hd, s, hlt, he⟩
    · exfalso
      have h1 : t.ex d.rev = true := by rw [he, DE.rev_rev]; exact hp.mid s hlt
      have h2 := (mo.inner d hd h1).2
      rw [he] at h2
      exact (hp.up.iter s).not_rev h2
  · have : s = r := by omega
    subst this
    rcases he with he | he
    · exfalso
      have := mo.ex d hd
      rw [he, hp.last] at this
      simp at this
    · exact Or.inr he

theorem cyc_mark {x d : DE} {r s : Nat} (hc : IsCycle t x r) (hd : M0 d) (he : d = t.next^[s] x ∨ d = (t.next^[s] x).rev) :
    d = t.next^[s] x := by
  rcases he with he | he
  · exact he
  · exfalso
    have h1 : t.ex d.rev = true := by rw [he, DE.rev_rev]; exact hc.ex_all s
    have h2 := (mo.inner d hd h1).2
    rw [he] at h2
    exact (hc.up.iter s).not_rev h2

theorem seen_after {S : St} {d : DE} {r : Nat} (hp : Plan t S d r) : t.norm d ∈ (after t S d r).R := by
  rw [mem_after_R]
  refine Or.inr ⟨0, ?_, rfl⟩
  unfold newLen
  have := hp.pos
  split <;> omega

theorem cyc_step {S : St} {κ : Int} {d : DE} {q : Nat} (hR : RunAt m.imax t M0 S κ) (hd : S.M d) (hw : d ∉ S.W)
    (hl : ∀ a, S.M a → κ < a.key m.imax → d.key m.imax ≤ a.key m.imax) (hp : Plan t S d q) (hi : Inv t M0 (after t S d q))
    {x : DE} {r : Nat} (hc : IsCycle t x r) : CycleAt m.imax t M0 (after t S d q) (d.key m.imax) x := by
  have hd0 := hR.inv.sub d hd
  by_cases hon : ∃ s, d = t.next^[s] x ∨ d = (t.next^[s] x).rev
  · obtain ⟨s, hs⟩ := hon
    have hs := cyc_mark ok mo hc hd0 hs
    rcases hR.cyc x r hc with ⟨hf, hk⟩ | ⟨k, ho, _⟩
    · right
      rcases hi.cycles x r hc with h | ⟨k, h⟩
      · exfalso
        have h1 := (h s).r
        rw [← hs] at h1
        have h2 := seen_after ok mo hp
        rw [Topo.norm_up (by rw [hs]; exact hc.up.iter s)] at h2
        exact h1 h2
      · have hv : t.next^[k] x = d := by
          by_contra hne
          have h1 : t.next^[k] x ∈ (after t S d q).W := (h k).w.mpr rfl
          rw [after_W hne] at h1
          exact (hf k).w h1
        refine ⟨k, h, fun p hp0 => ?_⟩
        rw [hv]
        exact hl _ ((hf p).m.mpr hp0) (hk p hp0)
    · exfalso
      have := ho s
      rw [← hs] at this
      exact hw (this.w.mpr (this.m.mp hd))
  · have hne : ∀ s, t.next^[s] x ≠ d ∧ t.next^[s] x ≠ d.rev := fun s =>
      ⟨fun h => hon ⟨s, Or.inl h.symm⟩, fun h => hon ⟨s, Or.inr (by rw [h, DE.rev_rev])⟩⟩
    rcases hR.cyc x r hc with ⟨hf, hk⟩ | ⟨k, ho, hk⟩
    · left
      rcases hi.cycles x r hc with h | ⟨k, h⟩
      · refine ⟨h, fun s hs => ?_⟩
        exact mark_lt ok mo hd0 hs (hne s).1.symm (hl _ ((hf s).m.mpr hs) (hk s hs))
      · exfalso
        have h1 : t.next^[k] x ∈ (after t S d q).W := (h k).w.mpr rfl
        rw [after_W (hne k).1] at h1
        exact (hf k).w h1
    · right
      have hw' : t.next^[k] x ∈ (after t S d q).W := by rw [after_W (hne k).1]; exact (ho k).w.mpr rfl
      rcases hi.cycles x r hc with h | ⟨k', h⟩
      · exact absurd hw' (h k).w
      · have : t.next^[k] x = t.next^[k'] x := (h k).w.mp hw'
        exact ⟨k, by rw [this]; exact h, hk⟩

theorem pth_step {S : St} {κ : Int} {d : DE} {q : Nat} (hR : RunAt m.imax t M0 S κ) (hd : S.M d) (hw : d ∉ S.W)
    (hl : ∀ a, S.M a → κ < a.key m.imax → d.key m.imax ≤ a.key m.imax) (hp : Plan t S d q) (hi : Inv t M0 (after t S d q))
    {x : DE} {r : Nat} (hc : IsPath t x r) : PathAt m.imax t M0 (after t S d q) (d.key m.imax) x r := by
  have hd0 := hR.inv.sub d hd
  have mx := first_mark ok mo hc
  have mB := end_mark ok mo hc
  have hpos := hc.pos
  have iter0 : t.next^[0] x = x := rfl
  by_cases hon : ∃ s ≤ r, d = t.next^[s] x ∨ d = (t.next^[s] x).rev
  · obtain ⟨s, hsr, hs⟩ := hon
    have hxB : x ∉ S.W ∧ (t.next^[r] x).rev ∉ S.W := by
      rcases hR.pth x r hc with ⟨hf, _⟩ | ⟨ho, _⟩ | ⟨ho, _⟩ | ⟨⟨k, k0, kr, _, _, hf, hg⟩, _⟩
      · exact ⟨(hf 0 (by omega)).w, (hf r le_rfl).wr⟩
      · exfalso
        have := ho s hsr
        rcases hs with hs | hs
        · rw [← hs] at this; exact hw (this.w.mpr (this.m.mp hd))
        · rw [hs] at hd hw; exact hw (this.wr.mpr (this.mr.mp hd))
      · exfalso
        have := ho s hsr
        rcases hs with hs | hs
        · rw [← hs] at this; exact hw (this.w.mpr (this.m.mp hd))
        · rw [hs] at hd hw; exact hw (this.wr.mpr (this.mr.mp hd))
      · exact ⟨(hf 0 k0).w, (hg r (by omega) le_rfl).wr⟩
    rcases path_mark ok mo hc hsr hd0 hs with hin | rfl
    · -- a mark before the end
      have hlater : EndLater m.imax t M0 x r := by
        rcases hR.pth x r hc with ⟨hf, hk, hkB⟩ | ⟨ho, _⟩ | ⟨_, h⟩ | ⟨_, h⟩
        · refine ⟨d, hin, ?_⟩
          obtain ⟨_, s', _, hs'⟩ := hin
          exact mark_lt ok mo hd0 mB (by rw [hs']; exact end_not ok mo hc) (hl _ ((hf r le_rfl).mr.mpr mB) hkB)
        · exfalso
          exact hxB.2 ((ho r le_rfl).wr.mpr rfl)
        · exact h
        · exact h
      obtain ⟨_, s', hs'r, hs'⟩ := hin
      have hR' := seen_after ok mo hp
      rw [Topo.norm_up (by rw [hs']; exact hc.up.iter s')] at hR'
      rcases hi.paths x r hc with h | ⟨w, hw', h⟩ | h
      · exfalso
        have := (h s' hs'r.le).r
        rw [← hs'] at this
        exact this hR'
      · rcases hw' with rfl | rfl
        · exact Or.inr (Or.inr (Or.inl ⟨h, hlater⟩))
        · exfalso
          have h1 : (t.next^[r] x).rev ∈ (after t S d q).W := (h r le_rfl).wr.mpr rfl
          rw [after_W (by rw [hs']; exact (end_not ok mo hc).symm)] at h1
          exact hxB.2 h1
      · exact Or.inr (Or.inr (Or.inr ⟨h, hlater⟩))
    · -- the end
      rcases hR.pth x r hc with ⟨hf, hk, hkB⟩ | ⟨ho, _⟩ | ⟨ho, _⟩ | ⟨⟨k, k0, kr, _, _, hf, hg⟩, _⟩
      · have hR' := seen_after ok mo hp
        rw [Topo.norm_rev (hc.up.iter r)] at hR'
        have hW : (t.next^[r] x).rev ∈ (after t S (t.next^[r] x).rev q).W := by
          unfold after
          rw [if_neg]
          · simp
          · rintro ⟨h, _⟩
            rw [DE.rev_rev, hc.last] at h
            simp at h
        rcases hi.paths x r hc with h | ⟨w, hw', h⟩ | ⟨k, k0, kr, _, _, hf', hg'⟩
        · exact absurd hR' (h r le_rfl).r
        · have : w = (t.next^[r] x).rev := ((h r le_rfl).wr.mp hW).symm
          subst this
          refine Or.inr (Or.inl ⟨h, fun a ha => ?_⟩)
          obtain ⟨ha0, s', hs'r, hs'⟩ := ha
          have hak := hk a ⟨ha0, s', hs'r, hs'⟩
          exact mark_lt ok mo mB ha0 (by rw [hs']; exact (end_not ok mo hc).symm)
            (hl a (by rw [hs'] at ha0 ⊢; exact (hf s' hs'r.le).m.mpr ha0) hak)
        · exact absurd hW (hg' r (by omega) le_rfl).wr
      · exact absurd ((ho r le_rfl).wr.mpr rfl) hw
      · exfalso
        have := ho r le_rfl
        exact hw (this.wr.mpr (this.mr.mp hd))
      · exact absurd hd (hg r (by omega) le_rfl).mr
  · have hne : ∀ s ≤ r, t.next^[s] x ≠ d ∧ t.next^[s] x ≠ d.rev := fun s hs =>
      ⟨fun h => hon ⟨s, hs, Or.inl h.symm⟩, fun h => hon ⟨s, hs, Or.inr (by rw [h, DE.rev_rev])⟩⟩
    have hneB : (t.next^[r] x).rev ≠ d := fun h => (hne r le_rfl).2 (by rw [← h, DE.rev_rev])
    have hnex : x ≠ d := (hne 0 (by omega)).1
    rcases hR.pth x r hc with ⟨hf, hk, hkB⟩ | ⟨ho, hk⟩ | ⟨ho, hk⟩ | ⟨⟨k, k0, kr, hJ, hO, hf, hg⟩, hk⟩
    · left
      rcases hi.paths x r hc with h | ⟨w, hw', h⟩ | ⟨k, k0, kr, _, hO, _, _⟩
      · refine ⟨h, fun a ha => ?_, ?_⟩
        · have hak := hk a ha
          obtain ⟨ha0, s', hs'r, hs'⟩ := ha
          refine mark_lt ok mo hd0 ha0 (by rw [hs']; exact (hne s' hs'r.le).1.symm) (hl a ?_ hak)
          rw [hs'] at ha0 ⊢
          exact (hf s' hs'r.le).m.mpr ha0
        · exact mark_lt ok mo hd0 mB hneB.symm (hl _ ((hf r le_rfl).mr.mpr mB) hkB)
      · exfalso
        rcases hw' with rfl | rfl
        · have h1 : w ∈ (after t S d q).W := (h 0 (by omega)).w.mpr rfl
          rw [after_W hnex] at h1
          exact (hf 0 (by omega)).w h1
        · have h1 : (t.next^[r] x).rev ∈ (after t S d q).W := (h r le_rfl).wr.mpr rfl
          rw [after_W hneB] at h1
          exact (hf r le_rfl).wr h1
      · exfalso
        rw [after_O (hne k kr.le).1 (hne k kr.le).2] at hO
        exact (hf k kr.le).o hO
    · right; left
      have hW : (t.next^[r] x).rev ∈ (after t S d q).W := by rw [after_W hneB]; exact (ho r le_rfl).wr.mpr rfl
      rcases hi.paths x r hc with h | ⟨w, _, h⟩ | ⟨k, k0, kr, _, _, _, hg'⟩
      · exact absurd hW (h r le_rfl).wr
      · have : w = (t.next^[r] x).rev := ((h r le_rfl).wr.mp hW).symm
        subst this
        exact ⟨h, hk⟩
      · exact absurd hW (hg' r (by omega) le_rfl).wr
    · right; right; left
      have hW : x ∈ (after t S d q).W := by rw [after_W hnex]; exact (ho 0 (by omega)).w.mpr rfl
      rcases hi.paths x r hc with h | ⟨w, _, h⟩ | ⟨k, k0, kr, _, _, hf', _⟩
      · exact absurd hW (h 0 (by omega)).w
      · have : w = x := ((h 0 (by omega)).w.mp hW).symm
        subst this
        exact ⟨h, hk⟩
      · exact absurd hW (hf' 0 k0).w
    · right; right; right
      refine ⟨?_, hk⟩
      rcases hi.paths x r hc with h | ⟨w, hw', h⟩ | h
      · exfalso
        have h1 := (h r le_rfl).r
        have h2 := (hg r (by omega) le_rfl).r
        exact h1 (by rw [after_R]; exact Finset.mem_union_left _ h2)
      · exfalso
        rcases hw' with rfl | rfl
        · have h1 : w ∈ (after t S d q).W := (h 0 (by omega)).w.mpr rfl
          rw [after_W hnex] at h1
          exact (hf 0 k0).w h1
        · have h1 : (t.next^[r] x).rev ∈ (after t S d q).W := (h r le_rfl).wr.mpr rfl
          rw [after_W hneB] at h1
          exact (hg r (by omega) le_rfl).wr h1
      · exact h

theorem run_step {S : St} {κ : Int} {d : DE} {q : Nat} (hR : RunAt m.imax t M0 S κ) (hd : S.M d) (hw : d ∉ S.W) (hk : κ < d.key m.imax)
    (hl : ∀ a, S.M a → κ < a.key m.imax → d.key m.imax ≤ a.key m.imax) (hp : Plan t S d q) :
    RunAt m.imax t M0 (after t S d q) (d.key m.imax) := by
  have hi : Inv t M0 (after t S d q) := by
    obtain ⟨q', _, hp', hi, _⟩ := visit ok mo hR.inv hd hw hR.osym
    rw [hp.unique hp']
    exact hi
  refine ⟨hi, ?_, fun x r hc => cyc_step ok mo hR hd hw hl hp hi hc, fun x r hc => pth_step ok mo hR hd hw hl hp hi hc, ?_, ?_⟩
  · intro e he
    unfold after at he ⊢
    split_ifs at he ⊢
    · rcases he with he | he | he
      · exact Or.inl (hR.osym e he)
      · exact Or.inr (Or.inr (by rw [← he, DE.rev_rev]))
      · exact Or.inr (Or.inl (DE.rev_inj he))
    · exact hR.osym e he
  · intro a ha
    by_cases hne : a = d
    · rw [hne]
    · rw [after_W hne] at ha
      exact (hR.last a ha).trans hk.le
  · unfold after
    split_ifs
    · exact hR.keys
    · simp only
      rw [List.pairwise_append]
      refine ⟨hR.keys, List.pairwise_singleton _ _, fun a ha b hb => ?_⟩
      rw [List.mem_singleton] at hb
      rw [hb]
      exact lt_of_le_of_lt (hR.last a ha) hk

theorem run_end {S S' : St} {κ : Int} (h : Runs m.imax t S κ S') (hR : RunAt m.imax t M0 S κ) :
    (∃ κ', RunAt m.imax t M0 S' κ') ∧ ∀ a, S'.M a → a ∈ S'.W := by
  induction h with
  | stop hall => exact ⟨⟨_, hR⟩, hall⟩
  | step hd hw hk hl hp _ ih => exact ih (run_step ok mo hR hd hw hk hl hp)

theorem run_init : RunAt m.imax t M0 (St.init M0) 0 := by
  have hpos : ∀ a, M0 a → 0 < a.key m.imax := by
    intro a ha
    have := edge_pos ok (mo.ex a ha)
    have h4 := a.d.rank_range
    unfold DE.key
    omega
  have hf : ∀ e, Fresh M0 (St.init M0) e := fun e =>
    ⟨Iff.rfl, Iff.rfl, fun h => h, by simp [St.init], by simp [St.init], by simp [St.init]⟩
  exact ⟨Inv.init t M0, fun _ h => h, fun x r _ => Or.inl ⟨fun s => hf _, fun s hs => hpos _ hs⟩,
    fun x r hc => Or.inl ⟨fun s _ => hf _, fun a ha => hpos _ ha.1, hpos _ (end_mark ok mo hc)⟩, by simp [St.init], by simp [St.init]⟩

/-- where the first pass leaves the starts -/
theorem starts {S : St} (h : Runs m.imax t (St.init M0) 0 S) :
    S.W.Pairwise (fun a b => a.key m.imax < b.key m.imax) ∧ (∀ w ∈ S.W, M0 w) ∧
    (∀ w ∈ S.W, ∀ r, Route t w r → t.ex w.rev = true → t.up w ∧ ∀ s, M0 (t.next^[s] w) → w.key m.imax ≤ (t.next^[s] w).key m.imax) ∧
    ∀ w ∈ S.W, ∀ r, Route t w r → t.ex w.rev = false →
      (t.up w ∧ ∃ a s, s < r ∧ a = t.next^[s] w ∧ M0 a ∧ a.key m.imax < (t.next^[r] w).rev.key m.imax) ∨
      (t.up w.rev ∧ ∀ a s, 0 < s → s ≤ r → a = (t.next^[s] w).rev → M0 a → w.key m.imax < a.key m.imax) := by
  obtain ⟨⟨κ, hR⟩, hall⟩ := run_end ok mo h (run_init ok mo)
  refine ⟨hR.keys, hR.inv.wsub, fun w hw r hr hx => ?_, fun w hw r hr hx => ?_⟩
  · obtain ⟨r', hcv⟩ := curve_start ok mo hR.inv hall hw
    have := hr.unique hcv.route
    subst this
    rcases hcv.edges with ⟨_, _, _, hx', _⟩ | ⟨hc, _, _⟩
    · rw [hx'] at hx; simp at hx
    refine ⟨hc.up, ?_⟩
    rcases hR.cyc w r hc with ⟨hf, _⟩ | ⟨k, ho, hk⟩
    · exact absurd hw (hf 0).w
    · have : w = t.next^[k] w := (ho 0).w.mp hw
      rw [← this] at hk
      exact hk
  · obtain ⟨r', hcv⟩ := curve_start ok mo hR.inv hall hw
    have := hr.unique hcv.route
    subst this
    rcases hcv with ⟨x, hp, hwx, ho⟩ | ⟨hc, _⟩
    swap
    · have := hc.ex_rev_all 0
      simp only [Function.iterate_zero, id_eq] at this
      rw [this] at hx; simp at hx
    rcases hR.pth x r hp with ⟨hf, _⟩ | ⟨ho', hk⟩ | ⟨ho', a, ⟨ha, s, hs, hse⟩, hk⟩ | ⟨⟨k, k0, kr, _, _, hf, hg⟩, _⟩
    · exfalso
      rcases hwx with rfl | rfl
      · exact (hf 0 (Nat.zero_le _)).w hw
      · exact (hf r le_rfl).wr hw
    · right
      have hwB : w = (t.next^[r] x).rev := by
        rcases hwx with rfl | rfl
        · exact (ho' 0 (Nat.zero_le _)).w.mp hw
        · rfl
      refine ⟨by rw [hwB, DE.rev_rev]; exact hp.up.iter r, fun a s s0 hs hse ha => ?_⟩
      rw [hwB, Topo.iter_rev hp.up.cut r s hs, DE.rev_rev] at hse
      rw [hwB]
      exact hk a ⟨ha, r - s, by omega, hse⟩
    · left
      have hwB : w = x := by
        rcases hwx with rfl | rfl
        · rfl
        · exact (ho' r le_rfl).wr.mp hw
      subst hwB
      exact ⟨hp.up, a, s, hs, hse, ha, hk⟩
    · exfalso
      rcases hwx with rfl | rfl
      · exact (hf 0 k0).w hw
      · exact (hg r (by omega) le_rfl).wr hw
end

end Trackeddy.Cntr
