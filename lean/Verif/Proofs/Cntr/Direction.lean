import Verif.Proofs.Cntr.TracedUnique
import Verif.Proofs.Cntr.Symmetry

/-!
The higher values are on the same side all along a contour line, and what happens if the sign of the data is reversed.
-/
namespace Trackeddy.Cntr
open Trackeddy.Spec

variable {K : Type} [Field K] [LinearOrder K]

/-- seen from the cell that is left, the side that is on the left when entering is on the right when leaving -/
theorem leftAbove_across {G : Grid K} {lev : K} {c : ℕ × ℕ} {e f : Side} (h : JoinedIn G lev c e f) (hl : G.LeftAbove lev e c) :
    ¬ G.LeftAbove lev f c := by
  obtain ⟨c1, c2⟩ := c
  obtain ⟨_, he, hf, n1, x1, x2, h7⟩ := h
  rw [sides_mem] at he hf
  simp only [sides_mem, forall_eq_or_imp, forall_eq] at h7
  unfold Grid.LeftAbove at *
  unfold Grid.Crossed at *
  simp only [Side.a, Side.b, if_true, if_false, Bool.false_eq_true] at *
  generalize G.CentreAbove lev (c1, c2) = C at h7
  rcases he with rfl | rfl | rfl | rfl <;> rcases hf with rfl | rfl | rfl | rfl <;> first | exact absurd rfl n1 | skip
  all_goals
    simp only [if_true, if_false, Bool.false_eq_true, Prod.mk.injEq, Nat.left_eq_add, Nat.add_eq_left, one_ne_zero, and_true, true_and, and_false, false_and,
      and_self, iff_true, iff_false, not_true_eq_false, not_false_eq_true, or_false, false_or, iff_self] at x1 x2 h7 hl ⊢
    by_cases A : G.Above lev (c1, c2) <;> by_cases B : G.Above lev (c1 + 1, c2) <;>
      by_cases D : G.Above lev (c1, c2 + 1) <;> by_cases E : G.Above lev (c1 + 1, c2 + 1) <;>
      simp only [A, B, D, E, not_true_eq_false, not_false_eq_true, iff_true, iff_false, true_iff, false_iff, forall_const,
        and_self, and_true, true_and, iff_self] at x1 x2 h7 hl ⊢
  all_goals
    obtain ⟨p, p1, p2, p3⟩ := h7
    rcases p1 with rfl | rfl <;> simp only [Prod.mk.injEq, Nat.add_eq_left, Nat.left_eq_add, one_ne_zero, and_true, and_false,
      true_and, or_false, false_or, and_self, or_true, true_or] at p2

theorem leftAbove_or {G : Grid K} {lev : K} {e : Side} {c : ℕ × ℕ} (hx : G.Crossed lev e) (d : ℕ × ℕ) (hc : e ∈ sidesOf c) (hd : e ∈ sidesOf d)
    (hne : c ≠ d) : G.LeftAbove lev e c ↔ ¬ G.LeftAbove lev e d := by
  constructor
  · exact fun h h' => hne (leftAbove_unique hx hc hd h h')
  · intro h
    by_contra h'
    have key : (c = e.a ↔ e.vert = true) ↔ ¬ (d = e.a ↔ e.vert = true) := by
      obtain ⟨i, j, v⟩ := e
      obtain ⟨a1, a2⟩ := c
      obtain ⟨b1, b2⟩ := d
      simp only [sides_mem, Side.mk.injEq, Side.a, Prod.mk.injEq, ne_eq] at *
      cases v <;> simp only [Bool.false_eq_true, Bool.true_eq_false, and_false, and_true, or_false, false_or, iff_false, iff_true] at * <;> omega
    unfold Grid.LeftAbove at h h'
    unfold Grid.Crossed at hx
    rw [key] at h'
    by_cases q : (d = e.a ↔ e.vert = true) <;> by_cases A : G.Above lev e.a <;> by_cases B : G.Above lev e.b <;>
      simp only [q, A, B, not_true_eq_false, not_false_eq_true, and_true, true_and, and_false, false_and, or_false, false_or, iff_self,
        or_self, and_self, true_or, or_true] at h h' hx

/-- the higher values are on the left of every piece -/
theorem highLeft_all {G : Grid K} {lev : K} {es : List Side} (h : G.IsContour lev es) (hn : (body es).Nodup) (hH : G.HighLeft lev es) {k : ℕ}
    (hk : k + 1 < es.length) : ∃ c, JoinedIn G lev c es[k] es[k + 1] ∧ G.LeftAbove lev es[k] c := by
  have j := h.joined
  rw [List.isChain_iff_getElem] at j
  induction k with
  | zero =>
    obtain ⟨e, f, c, a1, a2, a3, a4, a5, a6⟩ := hH
    obtain ⟨d, jd⟩ : ∃ c, JoinedIn G lev c es[0] es[1] := j 0 hk
    rw [List.getElem?_eq_getElem (by omega)] at a1 a2
    cases a1; cases a2
    rw [shared_cell jd.2.2.2.1 a4 a5 jd.2.1 jd.2.2.1] at a6
    exact ⟨d, jd, a6⟩
  | succ k ih =>
    obtain ⟨c, jc, hc⟩ := ih (by omega)
    obtain ⟨d, jd⟩ : ∃ c, JoinedIn G lev c es[k + 1] es[k + 2] := j (k + 1) hk
    refine ⟨d, jd, ?_⟩
    have hne : d ≠ c := by rintro rfl; exact apart h hn hk (jc.symm.unique jd)
    exact (leftAbove_or jd.2.2.2.2.1 c jd.2.1 jc.2.2.1 hne).mpr (leftAbove_across jc hc)

theorem highLeft_reverse {G : Grid K} {lev : K} {es : List Side} (h : G.IsContour lev es) (hn : (body es).Nodup) (hH : G.HighLeft lev es) :
    ∃ e f c, es.reverse[0]? = some e ∧ es.reverse[1]? = some f ∧ JoinedIn G lev c e f ∧ ¬ G.LeftAbove lev e c := by
  have two := h.two
  obtain ⟨c, jc, hc⟩ := highLeft_all h hn hH (k := es.length - 2) (by omega)
  refine ⟨es[es.length - 2 + 1], es[es.length - 2], c, ?_, ?_, jc.symm, leftAbove_across jc hc⟩
  · rw [List.getElem?_reverse (by omega), List.getElem?_eq_getElem (by omega)]
    congr 2; omega
  · rw [List.getElem?_reverse (by omega), List.getElem?_eq_getElem (by omega)]
    congr 2

/-! ### reversed sign -/

section
variable [IsStrictOrderedRing K] {X Y : NdArr K} {Z : NdArr (Option K)} {lev : K}

theorem neg_leftAbove (h : NoTies Z lev) {e : Side} {c : ℕ × ℕ} (he : (arrGrid X Y Z none).InMesh e) (hx : (arrGrid X Y Z none).Crossed lev e) :
    (arrGrid X Y Z.neg none).LeftAbove (-lev) e c ↔ ¬ (arrGrid X Y Z none).LeftAbove lev e c := by
  obtain ⟨a1, a2, b1, b2⟩ := inMesh_bounds he
  unfold Grid.LeftAbove
  rw [neg_above h a1 a2, neg_above h b1 b2]
  unfold Grid.Crossed at hx
  by_cases q : (c = e.a ↔ e.vert = true) <;> by_cases A : (arrGrid X Y Z none).Above lev e.a <;>
    by_cases B : (arrGrid X Y Z none).Above lev e.b <;> simp [q, A, B] at hx ⊢

theorem neg_start (h : NoTies Z lev) {e : Side} (hi : 0 < e.i → e.i + 1 < Z.cols) (hj : e.vert = true → e.j + 1 < Z.rows) :
    (arrGrid X Y Z.neg none).Start (-lev) e ↔ (arrGrid X Y Z none).Start lev e := by
  unfold Grid.Start
  refine and_congr_right fun hv => and_congr_right fun h0 => ?_
  have hi := hi h0
  have hj := hj hv
  have N : ∀ a b : ℕ, a < Z.cols → b < Z.rows → ((arrGrid X Y Z.neg none).Above (-lev) (a, b) ↔ ¬ (arrGrid X Y Z none).Above lev (a, b)) :=
    fun a b ha hb => neg_above h ha hb
  rw [N e.i (e.j + 1) (by omega) hj, N e.i e.j (by omega) (by omega), N (e.i - 1) (e.j + 1) (by omega) hj, N (e.i + 1) (e.j + 1) hi hj,
    N (e.i + 1) e.j hi (by omega)]
  simp only [not_not]
  exact or_comm

theorem closed_inner {es : List Side} (hc : (arrGrid X Y Z none).IsContour lev es) (hn : (body es).Nodup) (hcl : es.head? = es.getLast?) {e : Side}
    (he : e ∈ es) : (e.vert = true → e.i + 1 < Z.cols) ∧ (e.vert = true → e.j + 1 < Z.rows) := by
  obtain ⟨a, b, u, v, _, _, huv, ja, jb⟩ := closed_two hc hn hcl he
  have hab : a ≠ b := by rintro rfl; exact huv (ja.unique jb)
  have ca := isCell_none.mp ja.1
  have cb := isCell_none.mp jb.1
  have sa := ja.2.1
  have sb := jb.2.1
  obtain ⟨i, j, w⟩ := e
  obtain ⟨a1, a2⟩ := a
  obtain ⟨b1, b2⟩ := b
  simp only [sides_mem, Side.mk.injEq, ne_eq, Prod.mk.injEq] at *
  cases w <;> simp only [Bool.false_eq_true, Bool.true_eq_false, and_false, and_true, or_false, false_or, false_implies, true_implies] at * <;> omega

theorem neg_closedAt (h : NoTies Z lev) {es : List Side} (hc : (arrGrid X Y Z none).IsContour lev es) (hn : (body es).Nodup)
    (hcl : es.head? = es.getLast?) (hC : ClosedAt (arrGrid X Y Z none) lev es) : ClosedAt (arrGrid X Y Z.neg none) (-lev) es.reverse := by
  obtain ⟨hH, e, h1, h2, h3⟩ := hC
  have hs : ∀ f ∈ es, ((arrGrid X Y Z.neg none).Start (-lev) f ↔ (arrGrid X Y Z none).Start lev f) := by
    intro f hf
    have hi := closed_inner hc hn hcl hf
    by_cases hv : f.vert = true
    · exact neg_start h (fun _ => hi.1 hv) hi.2
    · exact ⟨fun hh => absurd hh.1 hv, fun hh => absurd hh.1 hv⟩
  refine ⟨?_, e, by rw [List.head?_reverse, ← hcl, h1], (hs e (List.mem_of_mem_head? h1)).mpr h2, ?_⟩
  · obtain ⟨e, f, c, g1, g2, g3, g4⟩ := highLeft_reverse hc hn hH
    refine ⟨e, f, c, g1, g2, ?_, g3.2.1, g3.2.2.1, (neg_leftAbove h ⟨c, g3.1, g3.2.1⟩ g3.2.2.2.2.1).mpr g4⟩
    have := (isCell_none (X := X) (Y := Y) (Z := Z)).mp g3.1
    rw [isCell_none]; exact this
  · intro f hf hne hst
    rw [List.mem_reverse] at hf
    exact h3 f hf hne ((hs f hf).mp hst)

theorem body_reverse {es : List Side} (h2 : 2 ≤ es.length) (hn : (body es).Nodup) : (body es.reverse).Nodup := by
  unfold body at hn ⊢
  rw [List.head?_reverse, List.getLast?_reverse]
  by_cases hcl : es.head? = es.getLast?
  · rw [if_pos hcl.symm]
    rw [if_pos hcl] at hn
    have hp : es.reverse.tail.Perm es.tail := by
      have e1 : es.reverse.tail = es.dropLast.reverse := by rw [List.tail_reverse]
      rw [e1]
      refine (List.reverse_perm _).trans ?_
      have hne : es ≠ [] := by rintro rfl; simp at h2
      have a := List.dropLast_append_getLast hne
      have b := List.cons_head_tail hne
      have hh : es.head hne = es.getLast hne := by
        rw [List.head?_eq_some_head hne, List.getLast?_eq_some_getLast hne] at hcl
        exact Option.some.inj hcl
      have p1 : (es.getLast hne :: es.dropLast).Perm es := by
        conv_rhs => rw [← a]
        exact (List.perm_append_singleton _ _).symm
      have p2 : (es.getLast hne :: es.tail).Perm es := by rw [← hh, b]
      exact (p1.trans p2.symm).cons_inv
    exact hp.nodup_iff.mpr hn
  · rw [if_neg (Ne.symm hcl)]
    rw [if_neg hcl] at hn
    exact List.nodup_reverse.mpr hn

/-- the closed lines of the map with reversed sign are those of the map, in the same order, with the same start, in the other direction -/
theorem neg_closed (h : NoTies Z lev) {cs cs' : List (List Side)} (hG : Traced (arrGrid X Y Z none) lev cs)
    (hN : Traced (arrGrid X Y Z.neg none) (-lev) cs') : closedLines cs' = (closedLines cs).map List.reverse := by
  have hn := neg_contours h hG.lines
  have eq : ∀ es ∈ cs, ∀ es' ∈ cs', es.head? = es.getLast? → es'.head? = es'.getLast? → (∀ e, e ∈ es ↔ e ∈ es') → es' = es.reverse := by
    intro es hes es' hes' h1 h2 hm
    have two := (hn.each es hes).two
    have hx := List.getElem_mem (l := es) (n := 0) (by omega)
    have nd := contours_nodup hG.lines hes
    exact closed_eq (hN.lines.each es' hes') (contours_nodup hN.lines hes') (contour_reverse (hn.each es hes)) (body_reverse two nd)
      ((hm _).mp hx) (List.mem_reverse.mpr hx) (hN.closed es' hes' h2) (neg_closedAt h (hG.lines.each es hes) nd h1 (hG.closed es hes h1))
  unfold closedLines
  refine order_eq (hN.order.filter _) ?_ fun es' => ⟨fun hes => ?_, fun hes => ?_⟩
  · rw [List.pairwise_map]
    refine List.Pairwise.imp_of_mem ?_ (hG.order.filter _)
    rintro a b ha hb ⟨e, e', h1, h2, h3⟩
    have ca := of_decide_eq_true (List.mem_filter.1 ha).2
    have cb := of_decide_eq_true (List.mem_filter.1 hb).2
    exact ⟨e, e', by rw [List.head?_reverse, ← ca, h1], by rw [List.head?_reverse, ← cb, h2], h3⟩
  · obtain ⟨h1, h2⟩ := List.mem_filter.1 hes
    have h2 := of_decide_eq_true h2
    obtain ⟨es, h3, hm, _, hcl, _⟩ := contours_unique hN.lines hn h1
    have := hcl.mp h2
    exact List.mem_map.mpr ⟨es, List.mem_filter.mpr ⟨h3, decide_eq_true this⟩, (eq es h3 es' h1 this h2 fun e => (hm e).symm).symm⟩
  · obtain ⟨es, hm, rfl⟩ := List.mem_map.mp hes
    obtain ⟨h1, h2⟩ := List.mem_filter.1 hm
    have h2 := of_decide_eq_true h2
    obtain ⟨es', h3, hm, _, hcl, _⟩ := contours_unique hn hN.lines h1
    have := hcl.mp h2
    rw [← eq es h1 es' h3 h2 this hm]
    exact List.mem_filter.mpr ⟨h3, decide_eq_true this⟩

end
end Trackeddy.Cntr
