import Verif.Proofs.Cntr.Orbit

/-!
The first pass, curve by curve: what one call of `curve_tracer` does to the start marks, the open ends and the
set of edges seen.
-/
namespace Trackeddy.Cntr

variable {K : Type} [Field K] [LinearOrder K]

open Classical in
/-- an edge with the high point first -/
noncomputable def Topo.norm (t : Topo) (e : DE) : DE := if t.up e then e else e.rev

theorem Topo.norm_up {t : Topo} {e : DE} (h : t.up e) : t.norm e = e := if_pos h
theorem Topo.norm_rev {t : Topo} {e : DE} (h : t.up e) : t.norm e.rev = e := by
  unfold Topo.norm; rw [if_neg h.not_rev, DE.rev_rev]

/-- marks, open ends, starts that are kept, edges seen -/
structure St where
  M : DE → Prop
  O : DE → Prop
  W : List DE
  R : Finset DE

/-- what is known about the marks made by `data_init` -/
structure MarksOK (t : Topo) (M0 : DE → Prop) : Prop where
  ex : ∀ a, M0 a → t.ex a = true
  cut : ∀ a, M0 a → t.cut a
  inner : ∀ a, M0 a → t.ex a.rev = true → a.isJ = false ∧ t.up a
  bnd : ∀ a, t.cut a → t.ex a = true → t.ex a.rev = false → M0 a
  cyc : ∀ x r, IsCycle t x r → ∃ s, M0 (t.next^[s] x)

structure Fresh (M0 : DE → Prop) (S : St) (e : DE) : Prop where
  m : S.M e ↔ M0 e
  mr : S.M e.rev ↔ M0 e.rev
  o : ¬ S.O e
  w : e ∉ S.W
  wr : e.rev ∉ S.W
  r : e ∉ S.R

structure Gone (S : St) (e : DE) : Prop where
  m : ¬ S.M e
  mr : ¬ S.M e.rev
  w : e ∉ S.W
  wr : e.rev ∉ S.W
  r : e ∈ S.R

structure Only (S : St) (v e : DE) : Prop where
  m : S.M e ↔ e = v
  mr : S.M e.rev ↔ e.rev = v
  w : e ∈ S.W ↔ e = v
  wr : e.rev ∈ S.W ↔ e.rev = v
  r : e ∈ S.R

/-- state of a curve from boundary to boundary: untouched, done, or done from `k` on -/
def PathSt (t : Topo) (M0 : DE → Prop) (S : St) (x : DE) (r : Nat) : Prop :=
  (∀ s ≤ r, Fresh M0 S (t.next^[s] x)) ∨
  (∃ w, (w = x ∨ w = (t.next^[r] x).rev) ∧ ∀ s ≤ r, Only S w (t.next^[s] x)) ∨
  (∃ k, 0 < k ∧ k < r ∧ (t.next^[k] x).isJ = false ∧ S.O (t.next^[k] x) ∧ (∀ s < k, Fresh M0 S (t.next^[s] x)) ∧
    ∀ s, k ≤ s → s ≤ r → Gone S (t.next^[s] x))

/-- state of a closed curve -/
def CycSt (t : Topo) (M0 : DE → Prop) (S : St) (x : DE) : Prop :=
  (∀ s, Fresh M0 S (t.next^[s] x)) ∨ (∃ k, ∀ s, Only S (t.next^[k] x) (t.next^[s] x))

structure Inv (t : Topo) (M0 : DE → Prop) (S : St) : Prop where
  paths : ∀ x r, IsPath t x r → PathSt t M0 S x r
  cycles : ∀ x r, IsCycle t x r → CycSt t M0 S x
  sub : ∀ a, S.M a → M0 a
  wsub : ∀ a ∈ S.W, M0 a
  nodup : S.W.Nodup

/-- the steps made when the curve is traced from `d` -/
structure Plan (t : Topo) (S : St) (d : DE) (r : Nat) : Prop where
  pos : 1 ≤ r
  mid : ∀ s < r, t.ex (t.next^[s] d) = true
  go : ∀ s < r, s ≠ 0 → t.next^[s] d ≠ d ∧ ((t.next^[s] d).isJ = true ∨ ¬ S.O (t.next^[s] d))
  stop : t.ex (t.next^[r] d) = true → (t.next^[r] d).isJ = false ∧
    (S.O (t.next^[r] d) ∨ t.ex d.rev = true ∧ t.next^[r] d = d)
  /-- a closed curve has no open end at its start -/
  closed : t.next^[r] d = d → ¬ S.O d

/-- number of new edges -/
def newLen (t : Topo) (d : DE) (r : Nat) : Nat := if t.ex (t.next^[r] d) = true then r else r + 1

open Classical in
/-- the state after the visit -/
noncomputable def after (t : Topo) (S : St) (d : DE) (r : Nat) : St :=
  if t.ex d.rev = true ∧ t.next^[r] d ≠ d then
    { M := fun a => (S.M a ∧ ¬ Clr t 0 r d d a) ∧ a ≠ d
      O := fun a => S.O a ∨ a = d ∨ a = d.rev
      W := S.W
      R := S.R ∪ (Finset.range (newLen t d r)).image fun s => t.norm (t.next^[s] d) }
  else
    { M := fun a => S.M a ∧ ¬ Clr t 0 r d d a
      O := S.O
      W := S.W ++ [d]
      R := S.R ∪ (Finset.range (newLen t d r)).image fun s => t.norm (t.next^[s] d) }

section
variable {t : Topo} {M0 : DE → Prop} {S : St} {d : DE} {r : Nat}

theorem after_R : (after t S d r).R = S.R ∪ (Finset.range (newLen t d r)).image fun s => t.norm (t.next^[s] d) := by
  unfold after; split <;> rfl

theorem after_M_sub {a : DE} (h : (after t S d r).M a) : S.M a ∧ ¬ Clr t 0 r d d a := by
  unfold after at h
  split at h
  · exact h.1
  · exact h

theorem after_M {a : DE} (hne : a ≠ d) : (after t S d r).M a ↔ S.M a ∧ ¬ Clr t 0 r d d a := by
  unfold after
  split
  · simp only [hne, ne_eq, not_false_eq_true, and_true]
  · rfl

theorem after_O {a : DE} (h1 : a ≠ d) (h2 : a ≠ d.rev) : (after t S d r).O a ↔ S.O a := by
  unfold after
  split
  · simp only [h1, h2, or_false]
  · rfl

theorem after_W {a : DE} (h1 : a ≠ d) : a ∈ (after t S d r).W ↔ a ∈ S.W := by
  unfold after
  split
  · rfl
  · simp [h1]

theorem mem_after_R {b : DE} : b ∈ (after t S d r).R ↔ b ∈ S.R ∨ ∃ s < newLen t d r, t.norm (t.next^[s] d) = b := by
  classical
  rw [after_R, Finset.mem_union, Finset.mem_image]
  simp only [Finset.mem_range]

theorem newLen_le : newLen t d r ≤ r + 1 := by unfold newLen; split <;> omega

/-- an edge that is not touched -/
structure Untouched (t : Topo) (d : DE) (r : Nat) (b : DE) : Prop where
  up : t.up b
  ne : ∀ s ≤ r, t.norm (t.next^[s] d) ≠ b

theorem Untouched.clr {b : DE} (h : Untouched t d r b) (a : DE) (ha : a = b ∨ a = b.rev) : ¬ Clr t 0 r d d a := by
  have hn : ∀ s ≤ r, ¬ (b = t.next^[s] d ∨ b = (t.next^[s] d).rev) := by
    rintro s hs (he | he)
    · apply h.ne s hs
      rw [← he, Topo.norm_up h.up]
    · apply h.ne s hs
      have : t.next^[s] d = b.rev := by rw [he, DE.rev_rev]
      rw [this, Topo.norm_rev h.up]
  rintro (⟨s, hs, _, _, he⟩ | ⟨_, he, _⟩)
  · apply hn s (le_of_lt hs)
    rcases ha with rfl | rfl
    · exact he
    · rcases he with he | he
      · right; rw [← he, DE.rev_rev]
      · left; exact DE.rev_inj he
  · apply hn r le_rfl
    rcases ha with rfl | rfl
    · exact Or.inr he
    · left; exact DE.rev_inj he

theorem Untouched.ne_d {b : DE} (h : Untouched t d r b) : b ≠ d ∧ b.rev ≠ d := by
  have := h.ne 0 (Nat.zero_le _)
  simp only [Function.iterate_zero, id_eq] at this
  constructor
  · rintro rfl
    exact this (Topo.norm_up h.up)
  · rintro rfl
    exact this (Topo.norm_rev h.up)

theorem Untouched.same {b : DE} (h : Untouched t d r b) :
    ((after t S d r).M b ↔ S.M b) ∧ ((after t S d r).M b.rev ↔ S.M b.rev) ∧ ((after t S d r).O b ↔ S.O b) ∧
    (b ∈ (after t S d r).W ↔ b ∈ S.W) ∧ (b.rev ∈ (after t S d r).W ↔ b.rev ∈ S.W) ∧
    (b ∈ (after t S d r).R ↔ b ∈ S.R) := by
  obtain ⟨n1, n2⟩ := h.ne_d
  have n3 : b ≠ d.rev := by
    rintro rfl
    exact n2 (DE.rev_rev _)
  refine ⟨?_, ?_, after_O n1 n3, after_W n1, after_W n2, ?_⟩
  · rw [after_M n1]; simp only [h.clr b (Or.inl rfl), not_false_eq_true, and_true]
  · rw [after_M n2]; simp only [h.clr _ (Or.inr rfl), not_false_eq_true, and_true]
  · rw [mem_after_R]
    constructor
    · rintro (h' | ⟨s, hs, he⟩)
      · exact h'
      · exact absurd he (h.ne s (by have := newLen_le (t := t) (d := d) (r := r); omega))
    · exact Or.inl

theorem Untouched.fresh {b : DE} (h : Untouched t d r b) (hf : Fresh M0 S b) : Fresh M0 (after t S d r) b := by
  obtain ⟨h1, h2, h3, h4, h5, h6⟩ := h.same (S := S)
  exact ⟨h1.trans hf.m, h2.trans hf.mr, by rw [h3]; exact hf.o, by rw [h4]; exact hf.w, by rw [h5]; exact hf.wr,
    by rw [h6]; exact hf.r⟩

theorem Untouched.gone {b : DE} (h : Untouched t d r b) (hf : Gone S b) : Gone (after t S d r) b := by
  obtain ⟨h1, h2, h3, h4, h5, h6⟩ := h.same (S := S)
  exact ⟨by rw [h1]; exact hf.m, by rw [h2]; exact hf.mr, by rw [h4]; exact hf.w, by rw [h5]; exact hf.wr,
    by rw [h6]; exact hf.r⟩

theorem Untouched.only {b w : DE} (h : Untouched t d r b) (hf : Only S w b) : Only (after t S d r) w b := by
  obtain ⟨h1, h2, h3, h4, h5, h6⟩ := h.same (S := S)
  exact ⟨h1.trans hf.m, h2.trans hf.mr, h4.trans hf.w, h5.trans hf.wr, by rw [h6]; exact hf.r⟩

theorem PathSt.untouched {y : DE} {q : Nat} (h : ∀ s ≤ q, Untouched t d r (t.next^[s] y)) (hp : PathSt t M0 S y q) :
    PathSt t M0 (after t S d r) y q := by
  rcases hp with hp | ⟨w, hw, hp⟩ | ⟨k, k0, kr, kJ, kO, hp, hq⟩
  · exact Or.inl fun s hs => (h s hs).fresh (hp s hs)
  · exact Or.inr (Or.inl ⟨w, hw, fun s hs => (h s hs).only (hp s hs)⟩)
  · refine Or.inr (Or.inr ⟨k, k0, kr, kJ, ?_, fun s hs => (h s (by omega)).fresh (hp s hs),
      fun s h1 h2 => (h s h2).gone (hq s h1 h2)⟩)
    exact (h k (le_of_lt kr)).same.2.2.1.mpr kO

theorem CycSt.untouched {y : DE} (h : ∀ s, Untouched t d r (t.next^[s] y)) (hp : CycSt t M0 S y) :
    CycSt t M0 (after t S d r) y := by
  rcases hp with hp | ⟨k, hp⟩
  · exact Or.inl fun s => (h s).fresh (hp s)
  · exact Or.inr ⟨k, fun s => (h s).only (hp s)⟩

/-- the parts of the invariant that do not depend on the curve -/
theorem Inv.after_rest (hi : Inv t M0 S) (hd : S.M d) (hw : d ∉ S.W) :
    (∀ a, (after t S d r).M a → M0 a) ∧ (∀ a ∈ (after t S d r).W, M0 a) ∧ (after t S d r).W.Nodup := by
  refine ⟨fun a ha => hi.sub a (after_M_sub ha).1, ?_, ?_⟩
  · intro a ha
    by_cases hne : a = d
    · rw [hne]; exact hi.sub d hd
    · rw [after_W hne] at ha; exact hi.wsub a ha
  · unfold after
    split
    · exact hi.nodup
    · rw [List.nodup_append]
      refine ⟨hi.nodup, by simp, ?_⟩
      intro a ha b hb
      simp only [List.mem_singleton] at hb
      rintro rfl
      rw [hb] at ha
      exact hw ha

/-- number of new edges -/
theorem card_new (hn : ∀ s < newLen t d r, t.norm (t.next^[s] d) ∉ S.R)
    (hinj : ∀ s < newLen t d r, ∀ s' < newLen t d r, t.norm (t.next^[s] d) = t.norm (t.next^[s'] d) → s = s') :
    (after t S d r).R.card = S.R.card + newLen t d r := by
  classical
  rw [after_R, Finset.card_union_of_disjoint, Finset.card_image_of_injOn, Finset.card_range]
  · intro a ha b hb hab
    exact hinj a (by simpa using ha) b (by simpa using hb) hab
  · rw [Finset.disjoint_right]
    intro b hb
    simp only [Finset.mem_image, Finset.mem_range] at hb
    obtain ⟨s, hs, rfl⟩ := hb
    exact hn s hs

/-! ### closed curves -/

theorem visit_cycle (mo : MarksOK t M0) (hi : Inv t M0 S) (hc : IsCycle t d r) (hd : S.M d) (hw : d ∉ S.W) :
    Plan t S d r ∧ Inv t M0 (after t S d r) ∧ (after t S d r).R.card = S.R.card + newLen t d r := by
  have hfr : ∀ s, Fresh M0 S (t.next^[s] d) := by
    rcases hi.cycles d r hc with h | ⟨k, h⟩
    · exact h
    · exfalso
      have h0 := h 0
      exact hw (h0.w.mpr (h0.m.mp hd))
  have hlen : newLen t d r = r := by unfold newLen; rw [if_pos (hc.ex_all r)]
  have hJ : d.isJ = false := (mo.inner d (hi.sub d hd) (hc.ex_rev_all 0)).1
  have hR : (after t S d r).W = S.W ++ [d] ∧ ∀ a, (after t S d r).M a ↔ S.M a ∧ ¬ Clr t 0 r d d a := by
    unfold after
    rw [if_neg (fun h => h.2 hc.close)]
    exact ⟨rfl, fun _ => Iff.rfl⟩
  have hself : ∀ s, Only (after t S d r) d (t.next^[s] d) := by
    intro s'
    rw [hc.iter_mod]
    have hlt := Nat.mod_lt s' hc.pos
    generalize s' % r = s at hlt
    have hf := hfr s
    have hu := hc.up.iter s
    have hex := hc.ex_all s
    have hexr := hc.ex_rev_all s
    have hnrd : (t.next^[s] d).rev ≠ d := fun h => hu.not_rev (by rw [h]; exact hc.up)
    have hmr : ¬ S.M (t.next^[s] d).rev := by
      rw [hf.mr]
      intro h
      exact hu.not_rev (mo.inner _ h (by rw [DE.rev_rev]; exact hex)).2
    refine ⟨?_, ?_, ?_, ?_, ?_⟩
    · rw [hR.2]
      constructor
      · rintro ⟨h1, h2⟩
        by_contra hne
        have hs0 : s ≠ 0 := by rintro rfl; exact hne rfl
        have hiJ := (mo.inner _ (hf.m.mp h1) hexr).1
        exact h2 (Or.inl ⟨s, hlt, by omega, hiJ, Or.inl rfl⟩)
      · intro he
        rw [he]
        refine ⟨hd, ?_⟩
        rintro (⟨q, hq, h0, _, h | h⟩ | ⟨h, _⟩)
        · exact hc.least q (by omega) hq h.symm
        · exact (hc.up.iter q).not_rev (by rw [← h]; exact hc.up)
        · rw [hc.ex_all] at h; simp at h
    · simp only [hnrd, iff_false]
      intro h
      exact hmr (after_M_sub h).1
    · rw [hR.1]
      simp [hf.w]
    · rw [hR.1]
      simp [hf.wr]
    · rw [mem_after_R, hlen]
      exact Or.inr ⟨s, hlt, Topo.norm_up hu⟩
  have hrest := hi.after_rest (r := r) hd hw
  refine ⟨⟨hc.pos, hc.mid, fun s hs h0 => ⟨hc.least s (by omega) hs, Or.inr (hfr s).o⟩, ?_, fun _ => (hfr 0).o⟩,
    ⟨?_, ?_, hrest.1, hrest.2.1, hrest.2.2⟩, ?_⟩
  · intro _
    rw [hc.close]
    exact ⟨hJ, Or.inr ⟨hc.ex_rev_all 0, rfl⟩⟩
  · intro y q hy
    refine PathSt.untouched (fun s hs => ⟨hy.up.iter s, fun s' _ => ?_⟩) (hi.paths y q hy)
    rw [Topo.norm_up (hc.up.iter s')]
    exact (path_cycle hy hc hs).symm
  · intro y q hy
    by_cases hm : ∃ s s', t.next^[s] d = t.next^[s'] y
    · obtain ⟨s, s', he⟩ := hm
      obtain ⟨k, rfl⟩ := hc.meet hy he
      obtain ⟨k', hk'⟩ := hy.meet hc he.symm
      refine Or.inr ⟨k', fun s => ?_⟩
      rw [← hk', ← Function.iterate_add_apply]
      exact hself _
    · push Not at hm
      refine CycSt.untouched (fun s => ⟨hy.up.iter s, fun s' _ => ?_⟩) (hi.cycles y q hy)
      rw [Topo.norm_up (hc.up.iter s')]
      exact hm s' s
  · apply card_new
    · intro s _
      rw [Topo.norm_up (hc.up.iter s)]
      exact (hfr s).r
    · intro s hs s' hs' he
      rw [Topo.norm_up (hc.up.iter s), Topo.norm_up (hc.up.iter s')] at he
      rw [hlen] at hs hs'
      exact hc.inj hs hs' he

/-! ### curves from boundary to boundary -/

theorem Gone.after {b : DE} (hg : Gone S b) (h1 : b ≠ d) (h2 : b.rev ≠ d) : Gone (after t S d r) b :=
  ⟨fun h => hg.m (after_M_sub h).1, fun h => hg.mr (after_M_sub h).1, by rw [after_W h1]; exact hg.w,
    by rw [after_W h2]; exact hg.wr, mem_after_R.mpr (Or.inl hg.r)⟩

theorem Gone.only {b v : DE} (hg : Gone S b) (h1 : b ≠ v) (h2 : b.rev ≠ v) : Only S v b :=
  ⟨by simp only [h1, hg.m], by simp only [h2, hg.mr], by simp only [h1, hg.w], by simp only [h2, hg.wr], hg.r⟩

/-- what is known about the way from `d = next^[k] x` to its end `next^[e] x` -/
structure Way (t : Topo) (M0 : DE → Prop) (S : St) (x : DE) (r k e : Nat) : Prop where
  lt : k < e
  le : e ≤ r
  fresh : ∀ s < e, Fresh M0 S (t.next^[s] x)
  stop : (e = r ∧ Fresh M0 S (t.next^[r] x)) ∨
    (e < r ∧ (t.next^[e] x).isJ = false ∧ S.O (t.next^[e] x) ∧ ∀ s, e ≤ s → s ≤ r → Gone S (t.next^[s] x))

theorem way_of {x : DE} {k : Nat} (hi : Inv t M0 S) (hp : IsPath t x r) (hk : k < r) (hd : S.M (t.next^[k] x))
    (hw : t.next^[k] x ∉ S.W) : ∃ e, Way t M0 S x r k e := by
  rcases hi.paths x r hp with h | ⟨w, _, h⟩ | ⟨k', k0, kr, kJ, kO, h, hq⟩
  · exact ⟨r, hk, le_rfl, fun s hs => h s (le_of_lt hs), Or.inl ⟨rfl, h r le_rfl⟩⟩
  · have := h k (le_of_lt hk)
    exact absurd (this.w.mpr (this.m.mp hd)) hw
  · refine ⟨k', ?_, le_of_lt kr, h, Or.inr ⟨kr, kJ, kO, hq⟩⟩
    by_contra hle
    exact (hq k (by omega) (le_of_lt hk)).m hd

theorem visit_fwd (mo : MarksOK t M0) {x : DE} {k e : Nat} (hi : Inv t M0 S) (hp : IsPath t x r) (hkr : k < r)
    (hdx : t.next^[k] x = d) (hd : S.M d) (hw : d ∉ S.W) (way : Way t M0 S x r k e) :
    Plan t S d (e - k) ∧ Inv t M0 (after t S d (e - k)) ∧
      (after t S d (e - k)).R.card = S.R.card + newLen t d (e - k) := by
  have hit : ∀ s, t.next^[s] d = t.next^[s + k] x := by
    intro s; rw [← hdx, ← Function.iterate_add_apply]
  have hlt := way.lt
  have hle := way.le
  have hend : t.next^[e - k] d = t.next^[e] x := by rw [hit]; congr 2; omega
  have hu : ∀ s, t.up (t.next^[s] x) := fun s => hp.up.iter s
  have hud : t.up d := by rw [← hdx]; exact hu k
  have hinj : ∀ s ≤ r, t.next^[s] x = d → s = k := fun s hs h => hp.inj hs (le_of_lt hkr) (h.trans hdx.symm)
  have hnr : ∀ s, (t.next^[s] x).rev ≠ d := fun s h => (hu s).not_rev (by rw [h]; exact hud)
  have hrec : ∀ s, t.next^[s] x ≠ d.rev := fun s h => hud.not_rev (by rw [← h]; exact hu s)
  have hncl : t.next^[e - k] d ≠ d := by
    rw [hend]
    intro h
    have := hinj e hle h
    omega
  have hlenge : e - k ≤ newLen t d (e - k) := by unfold newLen; split <;> omega
  have hexr : ∀ s, 0 < s → s ≤ r → t.ex (t.next^[s] x).rev = true := by
    intro s h0 hs
    obtain ⟨q, rfl⟩ : ∃ q, s = q + 1 := ⟨s - 1, by omega⟩
    rw [Topo.iter_ex_rev]; exact hp.mid q (by omega)
  have hMr : ∀ s < e, ¬ S.M (t.next^[s] x).rev := by
    intro s hs h
    rcases Nat.eq_zero_or_pos s with rfl | h0
    · have := mo.ex _ ((way.fresh 0 hs).mr.mp h)
      have h1 := hp.first
      simp only [Function.iterate_zero, id_eq] at this
      rw [this] at h1; simp at h1
    · exact (hu s).not_rev (mo.inner _ ((way.fresh s hs).mr.mp h) (by rw [DE.rev_rev]; exact hp.mid s (by omega))).2
  -- beyond the start everything is gone
  have hgone : ∀ s, k < s → s ≤ r → Gone (after t S d (e - k)) (t.next^[s] x) := by
    intro s hks hsr
    have hne : t.next^[s] x ≠ d := fun h => by have := hinj s hsr h; omega
    rcases lt_or_ge s e with hse | hse
    · have hf := way.fresh s hse
      refine ⟨?_, ?_, by rw [after_W hne]; exact hf.w, by rw [after_W (hnr s)]; exact hf.wr, ?_⟩
      · intro h
        obtain ⟨h1, h2⟩ := after_M_sub h
        have hiJ := (mo.inner _ (hf.m.mp h1) (hexr s (by omega) hsr)).1
        refine h2 (Or.inl ⟨s - k, by omega, by omega, ?_⟩)
        rw [hit, show s - k + k = s by omega]
        exact ⟨hiJ, Or.inl rfl⟩
      · intro h
        exact hMr s hse (after_M_sub h).1
      · rw [mem_after_R]
        refine Or.inr ⟨s - k, by omega, ?_⟩
        rw [hit, show s - k + k = s by omega, Topo.norm_up (hu s)]
    · rcases way.stop with ⟨her, hf⟩ | ⟨her, _, _, hg⟩
      · obtain rfl : s = r := by omega
        have hexE : t.ex (t.next^[e - k] d) = false := by rw [hend, her]; exact hp.last
        refine ⟨?_, ?_, by rw [after_W hne]; exact hf.w, by rw [after_W (hnr s)]; exact hf.wr, ?_⟩
        · intro h
          have := mo.ex _ (hf.m.mp (after_M_sub h).1)
          rw [hp.last] at this; simp at this
        · intro h
          refine (after_M_sub h).2 (Or.inr ⟨hexE, ?_, hnr s⟩)
          rw [hend, her]
        · rw [mem_after_R]
          refine Or.inr ⟨s - k, ?_, ?_⟩
          · unfold newLen; rw [hexE]; simp; omega
          · rw [hit, show s - k + k = s by omega, Topo.norm_up (hu s)]
      · exact (hg s hse hsr).after hne (hnr s)
  have htouch : ∀ s ≤ e - k, t.norm (t.next^[s] d) = t.next^[s + k] x := by
    intro s _; rw [hit, Topo.norm_up (hu _)]
  have hbefore : ∀ s < k, Untouched t d (e - k) (t.next^[s] x) := by
    intro s hs
    refine ⟨hu s, fun s' hs' he => ?_⟩
    rw [htouch s' hs'] at he
    have := hp.inj (by omega) (by omega) he
    omega
  have hdR : d ∈ (after t S d (e - k)).R := by
    rw [mem_after_R]
    exact Or.inr ⟨0, by omega, Topo.norm_up hud⟩
  have hdfr : Fresh M0 S d := by have := way.fresh k hlt; rwa [hdx] at this
  have hself : PathSt t M0 (after t S d (e - k)) x r := by
    rcases Nat.eq_zero_or_pos k with hk0 | hk0
    · right; left
      have hxd : x = d := by rw [hk0] at hdx; exact hdx
      refine ⟨d, Or.inl hxd.symm, ?_⟩
      intro s hs
      rcases Nat.eq_zero_or_pos s with h0 | h0
      · rw [h0]
        simp only [Function.iterate_zero, id_eq]
        rw [hxd]
        have hnrd : d.rev ≠ d := DE.rev_ne d
        have hex : ¬ (t.ex d.rev = true ∧ t.next^[e - k] d ≠ d) := by
          rw [← hxd, hp.first]; simp
        have hW : (after t S d (e - k)).W = S.W ++ [d] := by unfold after; rw [if_neg hex]
        have hM : ∀ a, (after t S d (e - k)).M a ↔ S.M a ∧ ¬ Clr t 0 (e - k) d d a := by
          intro a; unfold after; rw [if_neg hex]
        refine ⟨?_, ?_, by rw [hW]; simp, ?_, hdR⟩
        · rw [hM]
          simp only [iff_true]
          refine ⟨hd, ?_⟩
          rintro (⟨q, hq, h0, _, h | h⟩ | ⟨_, _, h⟩)
          · rw [hit] at h
            have := hinj _ (by omega) h.symm
            omega
          · rw [hit] at h
            exact hnr _ h.symm
          · exact h rfl
        · simp only [hnrd, iff_false]
          intro h
          have := hMr 0 (by omega)
          simp only [Function.iterate_zero, id_eq] at this
          rw [hxd] at this
          exact this (after_M_sub h).1
        · rw [hW]
          have := hdfr.wr
          simp [this, hnrd]
      · exact (hgone s (by omega) hs).only (fun h => by have := hinj s hs h; omega) (hnr s)
    · right; right
      have hexd : t.ex d.rev = true := by rw [← hdx]; exact hexr k hk0 (le_of_lt hkr)
      have hcond : t.ex d.rev = true ∧ t.next^[e - k] d ≠ d := ⟨hexd, hncl⟩
      refine ⟨k, hk0, hkr, ?_, ?_, fun s hs => (hbefore s hs).fresh (way.fresh s (by omega)), ?_⟩
      · rw [hdx]; exact (mo.inner d (hi.sub d hd) hexd).1
      · rw [hdx]; unfold after; rw [if_pos hcond]; exact Or.inr (Or.inl rfl)
      · intro s hs hsr
        rcases Nat.eq_or_lt_of_le hs with he | hs
        · subst he
          rw [hdx]
          have hW : (after t S d (e - k)).W = S.W := by unfold after; rw [if_pos hcond]
          refine ⟨?_, ?_, by rw [hW]; exact hw, by rw [hW]; exact hdfr.wr, hdR⟩
          · unfold after; rw [if_pos hcond]; exact fun h => h.2 rfl
          · intro h
            have := hMr k hlt
            rw [hdx] at this
            exact this (after_M_sub h).1
        · exact hgone s hs hsr
  have hrest := hi.after_rest (r := e - k) hd hw
  refine ⟨⟨by omega, ?_, ?_, ?_, fun h => absurd h hncl⟩, ⟨?_, ?_, hrest.1, hrest.2.1, hrest.2.2⟩, ?_⟩
  · intro s hs
    rw [hit]; exact hp.mid _ (by omega)
  · intro s hs h0
    rw [hit]
    exact ⟨fun h => by have := hinj _ (by omega) h; omega, Or.inr (way.fresh _ (by omega)).o⟩
  · rw [hend]
    intro hex
    rcases way.stop with ⟨her, _⟩ | ⟨_, hJ, hO, _⟩
    · rw [her, hp.last] at hex; simp at hex
    · exact ⟨hJ, Or.inl hO⟩
  · intro y q hy
    by_cases hm : ∃ s ≤ q, ∃ s' ≤ r, t.next^[s] y = t.next^[s'] x
    · obtain ⟨s, hs, s', hs', he⟩ := hm
      obtain ⟨rfl, _⟩ := hy.meet hp hs hs' he
      rw [hy.len_unique hp]
      exact hself
    · push Not at hm
      refine PathSt.untouched (fun s hs => ⟨hy.up.iter s, fun s' hs' => ?_⟩) (hi.paths y q hy)
      rw [htouch s' hs']
      exact (hm s hs _ (by omega)).symm
  · intro y q hy
    refine CycSt.untouched (fun s => ⟨hy.up.iter s, fun s' hs' => ?_⟩) (hi.cycles y q hy)
    rw [htouch s' hs']
    exact path_cycle hp hy (by omega)
  · have hL : ∀ s < newLen t d (e - k), s ≤ e - k ∧ s + k ≤ r := by
      intro s hs
      have := newLen_le (t := t) (d := d) (r := e - k)
      omega
    apply card_new
    · intro s hs
      rw [htouch s (hL s hs).1]
      rcases lt_or_ge (s + k) e with hse | hse
      · exact (way.fresh _ hse).r
      · rcases way.stop with ⟨her, hf⟩ | ⟨her, _, _, _⟩
        · rw [show s + k = r by have := hL s hs; omega]
          exact hf.r
        · exfalso
          have hx : newLen t d (e - k) = e - k := by
            unfold newLen; rw [hend, if_pos (hp.mid e her)]
          omega
    · intro s hs s' hs' he
      rw [htouch s (hL s hs).1, htouch s' (hL s' hs').1] at he
      have := hp.inj (hL s hs).2 (hL s' hs').2 he
      omega

theorem visit_bwd (mo : MarksOK t M0) {x : DE} (hi : Inv t M0 S) (hp : IsPath t x r)
    (hdx : (t.next^[r] x).rev = d) (hd : S.M d) (hw : d ∉ S.W) (hO : ∀ e, S.O e.rev → S.O e) :
    Plan t S d r ∧ Inv t M0 (after t S d r) ∧ (after t S d r).R.card = S.R.card + newLen t d r := by
  have hpos := hp.pos
  have hu : ∀ s, t.up (t.next^[s] x) := fun s => hp.up.iter s
  have hfr : ∀ s ≤ r, Fresh M0 S (t.next^[s] x) := by
    rcases hi.paths x r hp with h | ⟨w, _, h⟩ | ⟨k', k0, kr, kJ, kO, h, hq⟩
    · exact h
    · have := h r le_rfl
      rw [← hdx] at hd hw
      exact absurd (this.wr.mpr (this.mr.mp hd)) hw
    · rw [← hdx] at hd
      exact absurd hd (hq r (le_of_lt kr) le_rfl).mr
  have hit : ∀ s ≤ r, t.next^[s] d = (t.next^[r - s] x).rev := by
    intro s hs; rw [← hdx]; exact Topo.iter_rev hp.up.cut r s hs
  have hnu : ¬ t.up d := by rw [← hdx]; exact (hu r).not_rev
  have hne : ∀ s, t.next^[s] x ≠ d := fun s h => hnu (by rw [← h]; exact hu s)
  have hinj : ∀ s ≤ r, (t.next^[s] x).rev = d → s = r := by
    intro s hs h
    rw [← hdx] at h
    exact hp.inj hs le_rfl (DE.rev_inj h)
  have hend : t.next^[r] d = x.rev := by rw [hit r le_rfl, Nat.sub_self]; rfl
  have hlast : t.ex (t.next^[r] d) = false := by rw [hend]; exact hp.first
  have hexd : t.ex d.rev = false := by rw [← hdx, DE.rev_rev]; exact hp.last
  have hlen : newLen t d r = r + 1 := by unfold newLen; rw [hlast]; simp
  have hexr : ∀ s, 0 < s → s ≤ r → t.ex (t.next^[s] x).rev = true := by
    intro s h0 hs
    obtain ⟨q, rfl⟩ : ∃ q, s = q + 1 := ⟨s - 1, by omega⟩
    rw [Topo.iter_ex_rev]; exact hp.mid q (by omega)
  have hex : ¬ (t.ex d.rev = true ∧ t.next^[r] d ≠ d) := by rw [hexd]; simp
  have hW : (after t S d r).W = S.W ++ [d] := by unfold after; rw [if_neg hex]
  have hM : ∀ a, (after t S d r).M a ↔ S.M a ∧ ¬ Clr t 0 r d d a := by
    intro a; unfold after; rw [if_neg hex]
  have htouch : ∀ s ≤ r, t.norm (t.next^[s] d) = t.next^[r - s] x := by
    intro s hs; rw [hit s hs, Topo.norm_rev (hu _)]
  have hself : ∀ s ≤ r, Only (after t S d r) d (t.next^[s] x) := by
    intro s hs
    have hf := hfr s hs
    refine ⟨?_, ?_, ?_, ?_, ?_⟩
    · simp only [hne s, iff_false]
      rw [hM]
      rintro ⟨h1, h2⟩
      have h0 := hf.m.mp h1
      have hlt : s < r := by
        rcases Nat.eq_or_lt_of_le hs with h | h
        · have := mo.ex _ h0
          rw [h, hp.last] at this; simp at this
        · exact h
      rcases Nat.eq_zero_or_pos s with hs0 | hs0
      · subst hs0
        refine h2 (Or.inr ⟨hlast, ?_, hne 0⟩)
        rw [hend, DE.rev_rev]; rfl
      · have hJ := (mo.inner _ h0 (hexr s hs0 hs)).1
        refine h2 (Or.inl ⟨r - s, by omega, by omega, ?_⟩)
        rw [hit (r - s) (by omega), show r - (r - s) = s by omega]
        exact ⟨by rw [DE.rev_isJ]; exact hJ, Or.inr (DE.rev_rev _).symm⟩
    · constructor
      · intro h
        by_contra hnd
        have hsr : s < r := by
          rcases Nat.eq_or_lt_of_le hs with h' | h'
          · exact absurd (by rw [h']; exact hdx) hnd
          · exact h'
        have h0 := hf.mr.mp ((hM _).mp h).1
        exact (hu s).not_rev (mo.inner _ h0 (by rw [DE.rev_rev]; exact hp.mid s hsr)).2
      · intro h
        rw [h, hM]
        refine ⟨hd, ?_⟩
        rintro (⟨q, hq, h0, _, h | h⟩ | ⟨_, _, h⟩)
        · rw [hit q (by omega)] at h
          have := hinj _ (by omega) h.symm
          omega
        · rw [hit q (by omega), DE.rev_rev] at h
          exact hne _ h.symm
        · exact h rfl
    · rw [hW]; simp [hf.w]
    · rw [hW]; simp [hf.wr]
    · rw [mem_after_R, hlen]
      refine Or.inr ⟨r - s, by omega, ?_⟩
      rw [htouch _ (by omega)]
      congr 2
      omega
  have hrest := hi.after_rest (r := r) hd hw
  refine ⟨⟨hpos, ?_, ?_, ?_, ?_⟩, ⟨?_, ?_, hrest.1, hrest.2.1, hrest.2.2⟩, ?_⟩
  · intro s hs
    rw [hit s (le_of_lt hs)]; exact hexr _ (by omega) (by omega)
  · intro s hs h0
    rw [hit s (le_of_lt hs)]
    exact ⟨fun h => by have := hinj _ (by omega) h; omega, Or.inr fun h => (hfr (r - s) (by omega)).o (hO _ h)⟩
  · rw [hlast]; simp
  · intro h
    rw [h] at hlast
    rw [show d = t.next^[0] d from rfl, hit 0 (Nat.zero_le _), hexr _ (by omega) (by omega)] at hlast
    simp at hlast
  · intro y q hy
    by_cases hm : ∃ s ≤ q, ∃ s' ≤ r, t.next^[s] y = t.next^[s'] x
    · obtain ⟨s, hs, s', hs', he⟩ := hm
      obtain ⟨rfl, _⟩ := hy.meet hp hs hs' he
      rw [hy.len_unique hp]
      exact Or.inr (Or.inl ⟨d, Or.inr hdx.symm, hself⟩)
    · push Not at hm
      refine PathSt.untouched (fun s hs => ⟨hy.up.iter s, fun s' hs' => ?_⟩) (hi.paths y q hy)
      rw [htouch s' hs']
      exact (hm s hs _ (by omega)).symm
  · intro y q hy
    refine CycSt.untouched (fun s => ⟨hy.up.iter s, fun s' hs' => ?_⟩) (hi.cycles y q hy)
    rw [htouch s' hs']
    exact path_cycle hp hy (by omega)
  · apply card_new
    · intro s hs
      rw [hlen] at hs
      rw [htouch s (by omega)]
      exact (hfr _ (by omega)).r
    · intro s hs s' hs' he
      rw [hlen] at hs hs'
      rw [htouch s (by omega), htouch s' (by omega)] at he
      have := hp.inj (by omega) (by omega) he
      omega

end

/-- a visit to a marked start -/
theorem visit {m : Mesh K} {lev : K} {t : Topo} (ok : TopoOK m lev t) {M0 : DE → Prop} (mo : MarksOK t M0) {S : St}
    (hi : Inv t M0 S) {d : DE} (hd : S.M d) (hw : d ∉ S.W) (hO : ∀ e, S.O e.rev → S.O e) :
    ∃ r, r ≤ 4 * (m.imax * m.jmax) ∧ Plan t S d r ∧ Inv t M0 (after t S d r) ∧
      (after t S d r).R.card = S.R.card + newLen t d r := by
  have h0 := hi.sub d hd
  have hex := mo.ex d h0
  rcases Topo.up_or (mo.cut d h0) with hu | hu
  · rcases curve_of ok hu (Or.inl hex) with ⟨x, r, s, hp, hs, he⟩ | ⟨r, hc⟩
    · have hlt : s < r := by
        rcases Nat.eq_or_lt_of_le hs with h | h
        · rw [← he, h, hp.last] at hex; simp at hex
        · exact h
      obtain ⟨e, way⟩ := way_of hi hp hlt (by rw [he]; exact hd) (by rw [he]; exact hw)
      refine ⟨e - s, ?_, visit_fwd mo hi hp hlt he hd hw way⟩
      have := hp.len_le ok
      have := way.le
      omega
    · exact ⟨r, hc.len_le ok, visit_cycle mo hi hc hd hw⟩
  · have hexr : t.ex d.rev = false := by
      cases h : t.ex d.rev
      · rfl
      · exact absurd hu (mo.inner d h0 h).2.not_rev
    rcases curve_of ok hu (Or.inr (by rw [DE.rev_rev]; exact hex)) with ⟨x, r, s, hp, hs, he⟩ | ⟨r, hc⟩
    · have hsr : s = r := by
        rcases Nat.eq_or_lt_of_le hs with h | h
        · exact h
        · have := hp.mid s h
          rw [he, hexr] at this; simp at this
      subst hsr
      exact ⟨s, hp.len_le ok, visit_bwd mo hi hp (by rw [he, DE.rev_rev]) hd hw hO⟩
    · have := hc.ex_all 0
      simp only [Function.iterate_zero, id_eq] at this
      rw [hexr] at this; simp at this

end Trackeddy.Cntr
