import Verif.Proofs.Cntr.FirstPass

/-!
The curves that are drawn on the second pass: one for each start that was kept. Together they cover every
crossed edge once.
-/
namespace Trackeddy.Cntr

variable {K : Type} [Field K] [LinearOrder K]

/-- the way from a kept start to its end -/
structure Route (t : Topo) (w : DE) (r : Nat) : Prop where
  pos : 1 ≤ r
  cut : t.cut w
  mid : ∀ s < r, t.ex (t.next^[s] w) = true
  close : t.ex w.rev = true → t.next^[r] w = w
  fresh : ∀ s, 0 < s → s < r → t.next^[s] w ≠ w
  stop : t.ex w.rev = false → t.ex (t.next^[r] w) = false

/-- number of edges on the way, the start of a closed curve counted once -/
def lenOf (t : Topo) (w : DE) (r : Nat) : Nat := if t.ex w.rev = true then r else r + 1

/-- the edges on the way -/
noncomputable def edgesOf (t : Topo) (w : DE) (r : Nat) : List DE :=
  (List.range (lenOf t w r)).map fun s => t.norm (t.next^[s] w)

theorem mem_edgesOf {t : Topo} {w e : DE} {r : Nat} : e ∈ edgesOf t w r ↔ ∃ s < lenOf t w r, t.norm (t.next^[s] w) = e := by
  unfold edgesOf; simp

/-- what a start is the start of -/
def Curve (t : Topo) (S : St) (w : DE) (r : Nat) : Prop :=
  (∃ x, IsPath t x r ∧ (w = x ∨ w = (t.next^[r] x).rev) ∧ ∀ s ≤ r, Only S w (t.next^[s] x)) ∨
  (IsCycle t w r ∧ ∀ s, Only S w (t.next^[s] w))

section
variable {m : Mesh K} {lev : K} {t : Topo} (ok : TopoOK m lev t) {M0 : DE → Prop} (mo : MarksOK t M0)
  {S : St} (hi : Inv t M0 S) (hd : ∀ a, S.M a → a ∈ S.W)
include ok mo hi hd

theorem curve_start {w : DE} (hw : w ∈ S.W) : ∃ r, Curve t S w r := by
  have h0 := hi.wsub w hw
  have hex := mo.ex w h0
  obtain ⟨hp, hc⟩ := hi.done mo hd
  rcases Topo.up_or (mo.cut w h0) with hu | hu
  · rcases curve_of ok hu (Or.inl hex) with ⟨x, r, s, hpx, hs, he⟩ | ⟨r, hcy⟩
    · obtain ⟨v, hv, ho⟩ := hp x r hpx
      have h1 := ho s hs
      rw [he] at h1
      have hwv := h1.w.mp hw
      subst hwv
      exact ⟨r, Or.inl ⟨x, hpx, hv, ho⟩⟩
    · obtain ⟨k, ho⟩ := hc w r hcy
      have h1 := ho 0
      simp only [Function.iterate_zero, id_eq] at h1
      have hwv := h1.w.mp hw
      rw [← hwv] at ho
      exact ⟨r, Or.inr ⟨hcy, ho⟩⟩
  · rcases curve_of ok hu (Or.inr (by rw [DE.rev_rev]; exact hex)) with ⟨x, r, s, hpx, hs, he⟩ | ⟨r, hcy⟩
    · obtain ⟨v, hv, ho⟩ := hp x r hpx
      have h1 := ho s hs
      rw [he] at h1
      have hwv := h1.wr.mp (by rw [DE.rev_rev]; exact hw)
      rw [DE.rev_rev] at hwv
      subst hwv
      exact ⟨r, Or.inl ⟨x, hpx, hv, ho⟩⟩
    · exfalso
      have h1 := hcy.ex_all 0
      simp only [Function.iterate_zero, id_eq] at h1
      exact hu.not_rev (by rw [DE.rev_rev]; exact (mo.inner w h0 h1).2)

omit ok mo hi hd in
theorem Curve.edges {w : DE} {r : Nat} (h : Curve t S w r) :
    (∃ x, IsPath t x r ∧ (w = x ∨ w = (t.next^[r] x).rev) ∧ t.ex w.rev = false ∧
      ∀ s ≤ r, t.norm (t.next^[s] w) = t.next^[if w = x then s else r - s] x) ∨
    (IsCycle t w r ∧ t.ex w.rev = true ∧ ∀ s, t.norm (t.next^[s] w) = t.next^[s] w) := by
  rcases h with ⟨x, hp, hw, _⟩ | ⟨hc, _⟩
  · left
    refine ⟨x, hp, hw, ?_, ?_⟩
    · rcases hw with rfl | rfl
      · exact hp.first
      · rw [DE.rev_rev]; exact hp.last
    · intro s hs
      split
      · rename_i h; subst h; exact Topo.norm_up (hp.up.iter s)
      · rename_i h
        rcases hw with rfl | rfl
        · exact absurd rfl h
        · rw [Topo.iter_rev hp.up.cut r s hs, Topo.norm_rev (hp.up.iter _)]
  · right
    refine ⟨hc, ?_, fun s => Topo.norm_up (hc.up.iter s)⟩
    simpa using hc.ex_rev_all 0

omit ok mo hi hd in
theorem Curve.route {w : DE} {r : Nat} (h : Curve t S w r) : Route t w r := by
  rcases h with ⟨x, hp, rfl | rfl, _⟩ | ⟨hc, _⟩
  · refine ⟨hp.pos, hp.up.cut, hp.mid, ?_, ?_, fun _ => hp.last⟩
    · intro h; rw [hp.first] at h; simp at h
    · intro s h0 hs
      obtain ⟨q, rfl⟩ : ∃ q, s = q + 1 := ⟨s - 1, by omega⟩
      exact hp.not_back (by omega)
  · have hit := Topo.iter_rev (t := t) hp.up.cut r
    refine ⟨hp.pos, t.cut_rev.mpr (hp.up.iter r).cut, ?_, ?_, ?_, ?_⟩
    · intro s hs
      rw [hit s (le_of_lt hs)]
      obtain ⟨q, hq⟩ : ∃ q, r - s = q + 1 := ⟨r - s - 1, by omega⟩
      rw [hq, Topo.iter_ex_rev]
      exact hp.mid q (by omega)
    · intro h; rw [DE.rev_rev, hp.last] at h; simp at h
    · intro s h0 hs he
      rw [hit s (le_of_lt hs)] at he
      have := hp.inj (by omega) le_rfl (DE.rev_inj he)
      omega
    · intro _
      rw [hit r le_rfl, Nat.sub_self]
      simp only [Function.iterate_zero, id_eq]
      exact hp.first
  · refine ⟨hc.pos, hc.up.cut, hc.mid, fun _ => hc.close, hc.least, ?_⟩
    intro h
    have := hc.ex_rev_all 0
    simp only [Function.iterate_zero, id_eq] at this
    rw [h] at this; simp at this

omit ok mo hi hd in
theorem Curve.lenOf_le {w : DE} {r : Nat} : lenOf t w r ≤ r + 1 := by unfold lenOf; split <;> omega

omit ok mo hi hd in
theorem Curve.nodup {w : DE} {r : Nat} (h : Curve t S w r) : (edgesOf t w r).Nodup := by
  unfold edgesOf
  apply List.Nodup.map_on _ List.nodup_range
  intro a ha b hb hab
  rw [List.mem_range] at ha hb
  rcases h.edges with ⟨x, hp, hw, hx, hn⟩ | ⟨hc, hx, hn⟩
  · unfold lenOf at ha hb
    simp only [hx, Bool.false_eq_true, if_false] at ha hb
    rw [hn a (by omega), hn b (by omega)] at hab
    split at hab
    · exact hp.inj (by omega) (by omega) hab
    · have := hp.inj (by omega) (by omega) hab
      omega
  · unfold lenOf at ha hb
    simp only [hx, if_true] at ha hb
    rw [hn, hn] at hab
    exact hc.inj ha hb hab

omit ok mo hi hd in
theorem Curve.same {w w' : DE} {r r' : Nat} (h : Curve t S w r) (h' : Curve t S w' r') (hw : w ∈ S.W) (hw' : w' ∈ S.W) {e : DE}
    (he : e ∈ edgesOf t w r) (he' : e ∈ edgesOf t w' r') : w = w' := by
  rw [mem_edgesOf] at he he'
  obtain ⟨s, hs, hse⟩ := he
  obtain ⟨s', hs', hse'⟩ := he'
  have hl := Curve.lenOf_le (t := t) (w := w) (r := r)
  have hl' := Curve.lenOf_le (t := t) (w := w') (r := r')
  rcases h with ⟨x, hp, hv, ho⟩ | ⟨hc, ho⟩ <;> rcases h' with ⟨x', hp', hv', ho'⟩ | ⟨hc', ho'⟩
  · have hn : ∃ q ≤ r, t.next^[q] x = e := by
      rcases hv with rfl | rfl
      · exact ⟨s, by omega, by rw [← hse, Topo.norm_up (hp.up.iter s)]⟩
      · refine ⟨r - s, by omega, ?_⟩
        rw [← hse, Topo.iter_rev hp.up.cut r s (by omega), Topo.norm_rev (hp.up.iter _)]
    have hn' : ∃ q ≤ r', t.next^[q] x' = e := by
      rcases hv' with rfl | rfl
      · exact ⟨s', by omega, by rw [← hse', Topo.norm_up (hp'.up.iter s')]⟩
      · refine ⟨r' - s', by omega, ?_⟩
        rw [← hse', Topo.iter_rev hp'.up.cut r' s' (by omega), Topo.norm_rev (hp'.up.iter _)]
    obtain ⟨q, hq, hqe⟩ := hn
    obtain ⟨q', hq', hqe'⟩ := hn'
    have hx := (hp.meet hp' hq hq' (hqe.trans hqe'.symm)).1
    subst hx
    have hr := hp.len_unique hp'
    subst hr
    rcases hv' with h1 | h1
    · have := (ho 0 (Nat.zero_le _)).w
      simp only [Function.iterate_zero, id_eq] at this
      rw [h1] at hw' ⊢
      exact (this.mp hw').symm
    · have := (ho r le_rfl).wr
      rw [← h1] at this
      exact (this.mp hw').symm
  · exfalso
    have h2 : t.next^[s'] w' = e := by rw [← hse', Topo.norm_up (hc'.up.iter _)]
    rcases hv with rfl | rfl
    · have h1 : t.next^[s] w = e := by rw [← hse, Topo.norm_up (hp.up.iter s)]
      exact path_cycle hp hc' (by omega) (h1.trans h2.symm)
    · have h1 : t.next^[r - s] x = e := by
        rw [← hse, Topo.iter_rev hp.up.cut r s (by omega), Topo.norm_rev (hp.up.iter _)]
      exact path_cycle hp hc' (by omega) (h1.trans h2.symm)
  · exfalso
    have h2 : t.next^[s] w = e := by rw [← hse, Topo.norm_up (hc.up.iter _)]
    rcases hv' with rfl | rfl
    · have h1 : t.next^[s'] w' = e := by rw [← hse', Topo.norm_up (hp'.up.iter s')]
      exact path_cycle hp' hc (by omega) (h1.trans h2.symm)
    · have h1 : t.next^[r' - s'] x' = e := by
        rw [← hse', Topo.iter_rev hp'.up.cut r' s' (by omega), Topo.norm_rev (hp'.up.iter _)]
      exact path_cycle hp' hc (by omega) (h1.trans h2.symm)
  · have h1 : t.next^[s] w = e := by rw [← hse, Topo.norm_up (hc.up.iter _)]
    have h2 : t.next^[s'] w' = e := by rw [← hse', Topo.norm_up (hc'.up.iter _)]
    obtain ⟨k, hk⟩ := hc.meet hc' (h1.trans h2.symm)
    have := (ho k).w
    rw [← hk] at this
    exact (this.mp hw').symm

omit ok mo hi hd in
theorem Curve.seen {w e : DE} {r : Nat} (h : Curve t S w r) (he : e ∈ edgesOf t w r) :
    e ∈ S.R ∧ t.up e ∧ (t.ex e = true ∨ t.ex e.rev = true) := by
  rw [mem_edgesOf] at he
  obtain ⟨s, hs, rfl⟩ := he
  have hl := Curve.lenOf_le (t := t) (w := w) (r := r)
  rcases h.edges with ⟨x, hp, hv, hx, hn⟩ | ⟨hc, hx, hn⟩
  · rw [hn s (by omega)]
    set q := if w = x then s else r - s with hq
    have hqr : q ≤ r := by rw [hq]; split <;> omega
    refine ⟨?_, hp.up.iter q, ?_⟩
    · rcases h with ⟨x', hp', hv', ho⟩ | ⟨hc, _⟩
      · have hxx : x' = x := by
          rcases hv with h1 | h1 <;> rcases hv' with h3 | h3
          · rw [← h1, ← h3]
          · exfalso
            have := hp.up
            rw [← h1, h3] at this
            exact (hp'.up.iter r).not_rev this
          · exfalso
            have := hp'.up
            rw [← h3, h1] at this
            exact (hp.up.iter r).not_rev this
          · exact (hp'.meet hp le_rfl le_rfl (DE.rev_inj (h3.symm.trans h1))).1
        subst hxx
        exact (ho q hqr).r
      · exfalso
        have := hc.ex_rev_all 0
        simp only [Function.iterate_zero, id_eq] at this
        rw [hx] at this; simp at this
    · rcases Nat.lt_or_ge q r with hlt | hge
      · exact Or.inl (hp.mid q hlt)
      · obtain ⟨p, hp'⟩ : ∃ p, q = p + 1 := ⟨q - 1, by have := hp.pos; omega⟩
        right
        rw [hp', Topo.iter_ex_rev]
        exact hp.mid p (by omega)
  · rw [hn]
    refine ⟨?_, hc.up.iter s, Or.inl (hc.ex_all s)⟩
    rcases h with ⟨x', hp', hv', _⟩ | ⟨_, ho⟩
    · exfalso
      rcases hv' with rfl | rfl
      · rw [hp'.first] at hx; simp at hx
      · rw [DE.rev_rev, hp'.last] at hx; simp at hx
    · exact (ho s).r

/-- the curves cover all crossed edges -/
theorem curve_cover {e : DE} (hu : t.up e) (hx : t.ex e = true ∨ t.ex e.rev = true) :
    ∃ w ∈ S.W, ∃ r, Curve t S w r ∧ e ∈ edgesOf t w r := by
  obtain ⟨hp, hc⟩ := hi.done mo hd
  rcases curve_of ok hu hx with ⟨x, r, s, hpx, hs, he⟩ | ⟨r, hcy⟩
  · obtain ⟨w, hv, ho⟩ := hp x r hpx
    have hcv : Curve t S w r := Or.inl ⟨x, hpx, hv, ho⟩
    refine ⟨w, ?_, r, hcv, ?_⟩
    · rcases hv with h1 | h1
      · have := (ho 0 (Nat.zero_le _)).w
        simp only [Function.iterate_zero, id_eq] at this
        rw [h1] at this ⊢
        exact this.mpr rfl
      · have := (ho r le_rfl).wr
        rw [h1] at this ⊢
        exact this.mpr rfl
    · rw [mem_edgesOf]
      rcases hv with rfl | rfl
      · refine ⟨s, ?_, by rw [he, Topo.norm_up hu]⟩
        unfold lenOf
        rw [hpx.first]
        simp; omega
      · refine ⟨r - s, ?_, ?_⟩
        · unfold lenOf
          rw [DE.rev_rev, hpx.last]
          rw [if_neg (by simp)]; omega
        · rw [Topo.iter_rev hpx.up.cut r (r - s) (by omega), show r - (r - s) = s by omega, he, Topo.norm_rev hu]
  · obtain ⟨k, ho⟩ := hc e r hcy
    have hcw := hcy.rotate k
    have how : ∀ s, Only S (t.next^[k] e) (t.next^[s] (t.next^[k] e)) := by
      intro s; rw [← Function.iterate_add_apply]; exact ho _
    refine ⟨t.next^[k] e, (ho k).w.mpr rfl, r, Or.inr ⟨hcw, how⟩, ?_⟩
    obtain ⟨q, hq⟩ := hcw.meet hcy (s := 0) (s' := k) rfl
    rw [mem_edgesOf]
    refine ⟨q % r, ?_, ?_⟩
    · unfold lenOf
      have := hcw.ex_rev_all 0
      simp only [Function.iterate_zero, id_eq] at this
      rw [if_pos this]
      exact Nat.mod_lt _ hcy.pos
    · rw [← hcw.iter_mod, ← hq, Topo.norm_up hu]

/-- each crossed edge belongs to one curve -/
theorem partition_curves : ∃ L : DE → Nat, (∀ w ∈ S.W, Route t w (L w)) ∧
    (S.W.flatMap fun w => edgesOf t w (L w)).Nodup ∧
    (∀ e, e ∈ (S.W.flatMap fun w => edgesOf t w (L w)) ↔ t.up e ∧ (t.ex e = true ∨ t.ex e.rev = true)) ∧
    (∀ e ∈ (S.W.flatMap fun w => edgesOf t w (L w)), e ∈ S.R) := by
  classical
  have hch : ∀ w, ∃ r, w ∈ S.W → Curve t S w r := by
    intro w
    by_cases hw : w ∈ S.W
    · obtain ⟨r, hr⟩ := curve_start ok mo hi hd hw
      exact ⟨r, fun _ => hr⟩
    · exact ⟨0, fun h => absurd h hw⟩
  choose L hL using hch
  refine ⟨L, fun w hw => (hL w hw).route, ?_, ?_, ?_⟩
  · rw [List.nodup_flatMap]
    refine ⟨fun w hw => (hL w hw).nodup, ?_⟩
    have hnd := hi.nodup
    refine List.Pairwise.imp_of_mem ?_ hnd
    intro a b ha hb hab e he he'
    exact hab ((hL a ha).same (hL b hb) ha hb he he')
  · intro e
    rw [List.mem_flatMap]
    constructor
    · rintro ⟨w, hw, he⟩
      exact ((hL w hw).seen he).2
    · rintro ⟨hu, hx⟩
      obtain ⟨w, hw, r, hcv, he⟩ := curve_cover ok mo hi hd hu hx
      refine ⟨w, hw, ?_⟩
      have : r = L w := by
        rcases hcv.edges with ⟨x, hp, hv, hx1, hn⟩ | ⟨hc, hx1, hn⟩
        · have h1 := hcv.route
          have h2 := (hL w hw).route
          have e1 := h1.stop hx1
          have e2 := h2.stop hx1
          rcases lt_trichotomy r (L w) with h | h | h
          · rw [h2.mid _ h] at e1; simp at e1
          · exact h
          · rw [h1.mid _ h] at e2; simp at e2
        · have h1 := hcv.route
          have h2 := (hL w hw).route
          have e1 := h1.close hx1
          have e2 := h2.close hx1
          rcases lt_trichotomy r (L w) with h | h | h
          · exact absurd e1 (h2.fresh _ h1.pos h)
          · exact h
          · exact absurd e2 (h1.fresh _ h2.pos h)
      rw [← this]; exact he
  · intro e he
    rw [List.mem_flatMap] at he
    obtain ⟨w, hw, he⟩ := he
    exact ((hL w hw).seen he).1

end
end Trackeddy.Cntr
