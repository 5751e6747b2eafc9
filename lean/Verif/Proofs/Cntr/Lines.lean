import Verif.Proofs.Cntr.Traced

/-!
Neighbours on a contour line.
-/
namespace Trackeddy.Cntr
open Trackeddy.Spec

variable {K : Type} [Field K] [LinearOrder K]

/-- joined through a given cell -/
def JoinedIn (G : Grid K) (lev : K) (c : ℕ × ℕ) (e e' : Side) : Prop :=
  G.IsCell c ∧ e ∈ sidesOf c ∧ e' ∈ sidesOf c ∧ e ≠ e' ∧ G.Crossed lev e ∧ G.Crossed lev e' ∧
    ((∀ s ∈ sidesOf c, G.Crossed lev s) →
      ∃ p, (p = e.a ∨ p = e.b) ∧ (p = e'.a ∨ p = e'.b) ∧ (G.Above lev p ↔ ¬ G.CentreAbove lev c))

theorem JoinedIn.symm {G : Grid K} {lev : K} {c : ℕ × ℕ} {e e' : Side} (h : JoinedIn G lev c e e') : JoinedIn G lev c e' e := by
  obtain ⟨h1, h2, h3, h4, h5, h6, h7⟩ := h
  refine ⟨h1, h3, h2, h4.symm, h6, h5, fun hall => ?_⟩
  obtain ⟨p, p1, p2, p3⟩ := h7 hall
  exact ⟨p, p2, p1, p3⟩

theorem sides_mem {c : ℕ × ℕ} {e : Side} : e ∈ sidesOf c ↔ e = ⟨c.1, c.2, false⟩ ∨ e = ⟨c.1 + 1, c.2, true⟩ ∨
    e = ⟨c.1, c.2 + 1, false⟩ ∨ e = ⟨c.1, c.2, true⟩ := by
  simp [sidesOf]

/-- the partner of a side in a cell is unique -/
theorem JoinedIn.unique {G : Grid K} {lev : K} {c : ℕ × ℕ} {e f g : Side} (h : JoinedIn G lev c e f)
    (h' : JoinedIn G lev c e g) : f = g := by
  by_contra hne
  obtain ⟨c1, c2⟩ := c
  obtain ⟨_, he, hf, n1, x1, x2, h7⟩ := h
  obtain ⟨_, _, hg, n2, _, x3, h7'⟩ := h'
  rw [sides_mem] at he hf hg
  simp only [sides_mem, forall_eq_or_imp, forall_eq] at h7 h7'
  unfold Grid.Crossed at *
  simp only [Side.a, Side.b, if_true, if_false, Bool.false_eq_true] at *
  generalize G.CentreAbove lev (c1, c2) = C at h7 h7'
  rcases he with rfl | rfl | rfl | rfl <;> rcases hf with rfl | rfl | rfl | rfl <;>
    first | exact absurd rfl n1 | skip
  all_goals rcases hg with rfl | rfl | rfl | rfl <;> first | exact absurd rfl n2 | exact absurd rfl hne | skip
  all_goals
    simp only [if_true, if_false, Bool.false_eq_true] at x1 x2 x3 h7 h7'
    by_cases A : G.Above lev (c1, c2) <;> by_cases B : G.Above lev (c1 + 1, c2) <;>
      by_cases D : G.Above lev (c1, c2 + 1) <;> by_cases E : G.Above lev (c1 + 1, c2 + 1) <;>
      simp only [A, B, D, E, not_true_eq_false, not_false_eq_true, iff_true, iff_false, true_iff, false_iff, forall_const,
        and_self, and_true, true_and, iff_self] at x1 x2 x3 h7 h7'
  all_goals
    obtain ⟨p, p1, p2, p3⟩ := h7
    obtain ⟨q, q1, q2, q3⟩ := h7'
    rcases p1 with rfl | rfl <;> simp only [Prod.mk.injEq, Nat.add_eq_left, Nat.left_eq_add, one_ne_zero, and_true, and_false,
      true_and, or_false, false_or, and_self, or_true, true_or] at p2 <;>
    rcases q1 with rfl | rfl <;> simp only [Prod.mk.injEq, Nat.add_eq_left, Nat.left_eq_add, one_ne_zero, and_true, and_false,
      true_and, or_false, false_or, and_self, or_true, true_or] at q2 <;>
    simp only [A, B, D, E, true_iff, false_iff, not_not] at p3 q3 <;> first | exact absurd p3 q3 | exact absurd q3 p3

theorem two_cells {e : Side} {a b c : ℕ × ℕ} (ha : e ∈ sidesOf a) (hb : e ∈ sidesOf b) (hc : e ∈ sidesOf c) (hab : a ≠ b) :
    c = a ∨ c = b := by
  obtain ⟨a1, a2⟩ := a
  obtain ⟨b1, b2⟩ := b
  obtain ⟨c1, c2⟩ := c
  obtain ⟨i, j, v⟩ := e
  simp only [sides_mem, Side.mk.injEq, ne_eq, Prod.mk.injEq] at *
  cases v <;> simp only [Bool.false_eq_true, Bool.true_eq_false, and_false, and_true, or_false, false_or] at * <;> omega

theorem adj_next {α : Type} {l : List α} {k : Nat} (hk : k + 1 < l.length) : Adjacent l l[k] l[k + 1] :=
  ⟨k, Or.inl ⟨List.getElem?_eq_getElem _, List.getElem?_eq_getElem _⟩⟩

theorem _root_.Trackeddy.Spec.Adjacent.symm {α : Type} {l : List α} {a b : α} (h : Adjacent l a b) : Adjacent l b a := by
  obtain ⟨k, h | h⟩ := h
  · exact ⟨k, Or.inr h⟩
  · exact ⟨k, Or.inl h⟩

theorem _root_.Trackeddy.Spec.Adjacent.mem {α : Type} {l : List α} {a b : α} (h : Adjacent l a b) : a ∈ l ∧ b ∈ l := by
  obtain ⟨k, h | h⟩ := h
  · exact ⟨List.mem_of_getElem? h.1, List.mem_of_getElem? h.2⟩
  · exact ⟨List.mem_of_getElem? h.2, List.mem_of_getElem? h.1⟩

theorem _root_.Trackeddy.Spec.Adjacent.map {α β : Type} (g : α → β) {l : List α} {v w : β} :
    Adjacent (l.map g) v w ↔ ∃ a b, Adjacent l a b ∧ v = g a ∧ w = g b := by
  constructor
  · rintro ⟨k, ⟨h1, h2⟩ | ⟨h1, h2⟩⟩ <;> rw [List.getElem?_map, Option.map_eq_some_iff] at h1 h2 <;>
      obtain ⟨a, ha, rfl⟩ := h1 <;> obtain ⟨b, hb, rfl⟩ := h2
    · exact ⟨a, b, ⟨k, Or.inl ⟨ha, hb⟩⟩, rfl, rfl⟩
    · exact ⟨b, a, ⟨k, Or.inr ⟨ha, hb⟩⟩, rfl, rfl⟩
  · rintro ⟨a, b, ⟨k, ⟨h1, h2⟩ | ⟨h1, h2⟩⟩, rfl, rfl⟩
    · exact ⟨k, Or.inl ⟨by rw [List.getElem?_map, h1]; rfl, by rw [List.getElem?_map, h2]; rfl⟩⟩
    · exact ⟨k, Or.inr ⟨by rw [List.getElem?_map, h1]; rfl, by rw [List.getElem?_map, h2]; rfl⟩⟩

/-- every side of a closed contour line has two neighbours on it -/
theorem closed_two {G : Grid K} {lev : K} {es : List Side} (h : G.IsContour lev es) (hn : (body es).Nodup)
    (hcl : es.head? = es.getLast?) {e : Side} (he : e ∈ es) :
    ∃ (a b : ℕ × ℕ) (u v : Side), Adjacent es e u ∧ Adjacent es e v ∧ u ≠ v ∧ JoinedIn G lev a e u ∧ JoinedIn G lev b e v := by
  obtain ⟨h2, hch, hclosed, hopen⟩ := h
  rw [List.isChain_iff_getElem] at hch
  have step : ∀ (k : Nat) (hk : k + 1 < es.length), ∃ c, JoinedIn G lev c es[k] es[k + 1] := hch
  have hhead : es.head? = some es[0] := by rw [List.head?_eq_getElem?, List.getElem?_eq_getElem (by omega)]
  have hlast : es.getLast? = some es[es.length - 1] := by
    rw [List.getLast?_eq_getElem?, List.getElem?_eq_getElem (by omega)]
  have h5 := hclosed hcl
  unfold body at hn
  rw [if_pos hcl] at hn
  have inj : ∀ (i j : Nat) (hi : i < es.length) (hj : j < es.length), 0 < i → 0 < j → es[i] = es[j] → i = j := by
    intro i j hi hj i0 j0 hij
    have := (List.Nodup.getElem_inj_iff hn (i := i - 1) (j := j - 1) (hi := by simp; omega) (hj := by simp; omega)).mp (by
      rw [List.getElem_tail, List.getElem_tail]
      have e1 : i - 1 + 1 = i := by omega
      have e2 : j - 1 + 1 = j := by omega
      simp only [e1, e2]; exact hij)
    omega
  have e2 : es[0] = es[es.length - 1] := by rw [hhead, hlast] at hcl; exact Option.some.inj hcl
  -- a position after the first
  have main : ∀ k (hk : k < es.length), 0 < k → es[k] = e → ∃ (a b : ℕ × ℕ) (u v : Side), Adjacent es e u ∧ Adjacent es e v ∧ u ≠ v ∧ JoinedIn G lev a e u ∧ JoinedIn G lev b e v := by
    intro k hk k0 hke
    obtain ⟨a, ja⟩ := step (k - 1) (by omega)
    have e1 : es[k - 1 + 1] = es[k] := by congr 1; omega
    rw [e1, hke] at ja
    have q1 := adj_next (l := es) (k := k - 1) (by omega)
    rw [e1, hke] at q1
    by_cases hkl : k + 1 < es.length
    · obtain ⟨b, jb⟩ := step k hkl
      rw [hke] at jb
      have q2 := adj_next hkl
      rw [hke] at q2
      refine ⟨a, b, _, _, q1.symm, q2, ?_, ja.symm, jb⟩
      intro heq
      rcases Nat.eq_zero_or_pos (k - 1) with h0 | h0
      · have e3 : es[k - 1] = es[es.length - 1] := by rw [← e2]; congr 1
        rw [e3] at heq
        have := inj _ _ _ _ (by omega) (by omega) heq
        omega
      · have := inj _ _ _ _ h0 (by omega) heq
        omega
    · have hkl' : k = es.length - 1 := by omega
      obtain ⟨b, jb⟩ := step 0 (by omega)
      have e4 : es[0] = e := by rw [← hke, e2]; congr 1; exact hkl'.symm
      rw [e4] at jb
      have q2 := adj_next (l := es) (k := 0) (by omega)
      rw [e4] at q2
      refine ⟨a, b, _, _, q1.symm, q2, ?_, ja.symm, jb⟩
      intro heq
      have := inj _ _ _ _ (by omega) (by omega) heq
      omega
  obtain ⟨k, hk, hke⟩ := List.getElem_of_mem he
  rcases Nat.eq_zero_or_pos k with h0 | h0
  · subst h0
    exact main (es.length - 1) (by omega) (by omega) (by rw [← e2]; exact hke)
  · exact main k hk h0 hke

/-- a closed contour line does not touch the border -/
theorem closed_not_border {G : Grid K} {lev : K} {es : List Side} (h : G.IsContour lev es) (hn : (body es).Nodup)
    (hcl : es.head? = es.getLast?) {e : Side} (he : e ∈ es) : ¬ G.Border e := by
  intro hb
  obtain ⟨a, b, u, v, _, _, huv, ja, jb⟩ := closed_two h hn hcl he
  have : a = b := hb.unique ⟨ja.1, ja.2.1⟩ ⟨jb.1, jb.2.1⟩
  subst this
  exact huv (ja.unique jb)

end Trackeddy.Cntr
