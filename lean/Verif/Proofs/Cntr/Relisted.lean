import Verif.Spec.Relisted
import Verif.Proofs.Cntr.TracedUnique
import Verif.Proofs.Cntr.Symmetry

/-!
Contour lines that consist of the same sides are the same lists up to start and direction.
-/
namespace Trackeddy.Cntr
open Trackeddy.Spec

variable {K : Type} [Field K] [LinearOrder K]

theorem restarted_map {α β : Type} (g : α → β) {l m : List α} (h : Restarted l m) : Restarted (l.map g) (m.map g) := by
  rcases h with rfl | ⟨p, x, A, B, rfl, rfl⟩
  · exact Or.inl rfl
  · exact Or.inr ⟨g p, g x, A.map g, B.map g, by simp, by simp⟩

theorem relisted_map {α β : Type} (g : α → β) {l l' : List α} (h : Relisted l l') : Relisted (l.map g) (l'.map g) := by
  obtain ⟨m, h1, h2⟩ := h
  refine ⟨m.map g, restarted_map g h1, ?_⟩
  rcases h2 with rfl | rfl
  · exact Or.inl rfl
  · exact Or.inr (by simp)

theorem relisted_mem {α : Type} {l l' : List α} (h : Relisted l l') (a : α) : a ∈ l' ↔ a ∈ l := by
  obtain ⟨m, h1, h2⟩ := h
  have hm : a ∈ m ↔ a ∈ l := by
    rcases h1 with rfl | ⟨p, x, A, B, rfl, rfl⟩
    · rfl
    · simp only [List.mem_append, List.mem_cons, List.not_mem_nil, or_false]
      tauto
  rcases h2 with rfl | rfl
  · exact hm
  · rw [List.mem_reverse, hm]

theorem relisted_length {α : Type} {l l' : List α} (h : Relisted l l') : l'.length = l.length := by
  obtain ⟨m, h1, h2⟩ := h
  have hm : m.length = l.length := by
    rcases h1 with rfl | ⟨p, x, A, B, rfl, rfl⟩
    · rfl
    · simp; omega
  rcases h2 with rfl | rfl
  · exact hm
  · rw [List.length_reverse, hm]

theorem split_closed {es : List Side} {p : Side} (h2 : 2 ≤ es.length) (h0 : es.head? = some p) (h1 : es.getLast? = some p) :
    ∃ Q, es = p :: Q ++ [p] := by
  match es, h2, h0, h1 with
  | q :: T, h2, h0, h1 =>
    simp only [List.head?_cons, Option.some.injEq] at h0
    subst h0
    have hT : T ≠ [] := by
      rintro rfl
      simp at h2
    refine ⟨T.dropLast, ?_⟩
    have : T.getLast? = some q := by
      rw [List.getLast?_cons] at h1
      simp only [Option.some.injEq] at h1
      rw [List.getLast?_eq_some_getLast hT] at h1 ⊢
      simpa using h1
    rw [List.getLast?_eq_some_getLast hT, Option.some.injEq] at this
    rw [List.cons_append]
    congr 1
    conv_lhs => rw [← List.dropLast_append_getLast hT, this]

theorem restart_contour {G : Grid K} {lev : K} {p x : Side} {A B : List Side} (h : G.IsContour lev (p :: A ++ x :: B ++ [p]))
    (hn : (body (p :: A ++ x :: B ++ [p])).Nodup) :
    G.IsContour lev (x :: B ++ p :: A ++ [x]) ∧ (body (x :: B ++ p :: A ++ [x])).Nodup := by
  have cl : ∀ (a : Side) (T : List Side), (a :: T ++ [a]).head? = (a :: T ++ [a]).getLast? := by
    intro a T
    rw [List.getLast?_concat]
    rfl
  have c1 : (p :: A ++ x :: B ++ [p]).head? = (p :: A ++ x :: B ++ [p]).getLast? := by
    have := cl p (A ++ x :: B)
    simpa using this
  have c2 : (x :: B ++ p :: A ++ [x]).head? = (x :: B ++ p :: A ++ [x]).getLast? := by
    have := cl x (B ++ p :: A)
    simpa using this
  refine ⟨⟨by simp; omega, ?_, fun _ => ?_, fun hh => absurd c2 hh⟩, ?_⟩
  · have hj := h.joined
    rw [List.append_assoc, List.cons_append (a := x), List.isChain_split] at hj
    have h2 : (x :: B ++ [p]).IsChain (G.Joined lev) := hj.2
    rw [List.append_assoc, List.cons_append (a := p), List.isChain_split]
    exact ⟨h2, hj.1⟩
  · have := h.closed c1
    simp only [List.length_append, List.length_cons, List.length_nil] at this ⊢
    omega
  · unfold body at hn ⊢
    rw [if_pos c1] at hn
    rw [if_pos c2]
    have hp : (p :: A ++ x :: B ++ [p]).tail.Perm (x :: B ++ p :: A ++ [x]).tail := by
      simp only [List.cons_append, List.tail_cons, List.append_assoc]
      have e1 : A ++ x :: (B ++ [p]) = (A ++ [x]) ++ (B ++ [p]) := by simp
      have e2 : B ++ p :: (A ++ [x]) = (B ++ [p]) ++ (A ++ [x]) := by simp
      rw [e1, e2]
      exact List.perm_append_comm
    exact hp.nodup_iff.mp hn

theorem closed_begin {G : Grid K} {lev : K} {x : Side} {Q es' : List Side} (h : G.IsContour lev (x :: Q ++ [x]))
    (hn : (body (x :: Q ++ [x])).Nodup) (h' : G.IsContour lev es') (hn' : (body es').Nodup) (h0 : es'.head? = some x) :
    es' = x :: Q ++ [x] ∨ es' = (x :: Q ++ [x]).reverse := by
  set m := x :: Q ++ [x] with hm
  have hxm : x ∈ m := by simp [hm]
  have hx' : x ∈ es' := List.mem_of_mem_head? h0
  have hs := contour_same h hn h' hn' hxm hx'
  have two' := h'.two
  have g0 : es'[0]'(by omega) = x := by
    rw [List.head?_eq_getElem?, List.getElem?_eq_getElem (by omega)] at h0
    exact Option.some.inj h0
  have hj' := h'.joined
  rw [List.isChain_iff_getElem] at hj'
  have hj := hj' 0 (by omega)
  rw [g0] at hj
  have hcl : m.head? = m.getLast? := by rw [hm, List.getLast?_concat]; rfl
  have hnm : (Q ++ [x]).Nodup := by
    unfold body at hn
    rw [if_pos hcl] at hn
    simpa [hm] using hn
  have hxQ : x ∉ Q := by
    rw [List.nodup_append] at hnm
    intro hh
    exact hnm.2.2 x hh x (by simp) rfl
  have hlen : m.length = Q.length + 2 := by simp [hm]
  have only : ∀ k, m[k]? = some x → k = 0 ∨ k = Q.length + 1 := by
    intro k hk
    by_contra hcon
    push Not at hcon
    have hk2 : k < Q.length + 2 := by
      have := List.getElem?_eq_some_iff.mp hk
      obtain ⟨a, _⟩ := this
      omega
    obtain ⟨q, rfl⟩ : ∃ q, k = q + 1 := ⟨k - 1, by omega⟩
    rw [hm, List.cons_append, List.getElem?_cons_succ, List.getElem?_append_left (by omega)] at hk
    exact hxQ (List.mem_of_getElem? hk)
  obtain ⟨k, hk | hk⟩ := contour_closed h hn hxm hj
  · left
    have hk0 : k = 0 := by
      rcases only k hk.1 with h1 | h1
      · exact h1
      · have := List.getElem?_eq_some_iff.mp hk.2
        obtain ⟨a, _⟩ := this
        omega
    subst hk0
    refine (same_begin h hn h' hn' hs.1 ?_ ?_).symm
    · rw [hk.1, ← List.head?_eq_getElem?, h0]
    · rw [hk.2, List.getElem?_eq_getElem (by omega)]
  · right
    have hk0 : k = Q.length := by
      rcases only (k + 1) hk.2 with h1 | h1 <;> omega
    subst hk0
    have hnr : (body m.reverse).Nodup := by
      have hclr : m.reverse.head? = m.reverse.getLast? := by rw [List.head?_reverse, List.getLast?_reverse, hcl]
      unfold body
      rw [if_pos hclr]
      have : m.reverse.tail = Q.reverse ++ [x] := by simp [hm]
      rw [this]
      rw [List.nodup_append] at hnm ⊢
      exact ⟨List.nodup_reverse.mpr hnm.1, hnm.2.1, fun a ha b hb => hnm.2.2 a (List.mem_reverse.mp ha) b hb⟩
    refine (same_begin (contour_reverse h) hnr h' hn' (by simpa using hs.1) ?_ ?_).symm
    · have : m.reverse[0]? = some x := by simp [hm]
      rw [this, ← List.head?_eq_getElem?, h0]
    · rw [List.getElem?_reverse (by omega), List.getElem?_eq_getElem (l := es') (by omega)]
      have : m.length - 1 - 1 = Q.length := by omega
      rw [this]
      exact hk.1

/-- two contour lines with a common side, both closed or both open -/
theorem contour_relisted {G : Grid K} {lev : K} {es es' : List Side} (h : G.IsContour lev es) (hn : (body es).Nodup)
    (h' : G.IsContour lev es') (hn' : (body es').Nodup) (hc : es.head? = es.getLast? ↔ es'.head? = es'.getLast?) {e : Side}
    (he : e ∈ es) (he' : e ∈ es') : Relisted es es' := by
  by_cases hcl : es.head? = es.getLast?
  · have hcl' := hc.mp hcl
    have two := h.two
    have two' := h'.two
    obtain ⟨p, hp⟩ : ∃ p, es.head? = some p := ⟨es[0], by rw [List.head?_eq_getElem?, List.getElem?_eq_getElem (by omega)]⟩
    obtain ⟨x, hx⟩ : ∃ x, es'.head? = some x := ⟨es'[0], by rw [List.head?_eq_getElem?, List.getElem?_eq_getElem (by omega)]⟩
    obtain ⟨Q, hQ⟩ := split_closed two hp (hcl ▸ hp)
    have hxes : x ∈ es := (sameLine_mem two (contour_same h hn h' hn' he he') x).mpr (List.mem_of_mem_head? hx)
    subst hQ
    by_cases hxp : x = p
    · subst hxp
      exact ⟨_, Or.inl rfl, closed_begin h hn h' hn' hx⟩
    · have hxQ : x ∈ Q := by
        simp only [List.cons_append, List.mem_cons, List.mem_append, List.not_mem_nil, or_false] at hxes
        tauto
      obtain ⟨A, B, rfl⟩ := List.append_of_mem hxQ
      have h1 : G.IsContour lev (p :: A ++ x :: B ++ [p]) := by simpa using h
      have hn1 : (body (p :: A ++ x :: B ++ [p])).Nodup := by simpa using hn
      obtain ⟨h2, hn2⟩ := restart_contour h1 hn1
      refine ⟨x :: B ++ p :: A ++ [x], Or.inr ⟨p, x, A, B, by simp, rfl⟩, ?_⟩
      have := closed_begin (x := x) (Q := B ++ p :: A) (by simpa using h2) (by simpa using hn2) h' hn' hx
      simpa using this
  · have hcl' : ¬ es'.head? = es'.getLast? := fun hh => hcl (hc.mpr hh)
    exact ⟨es, Or.inl rfl, open_ends h hn h' hn' he he' hcl hcl'⟩

/-- contour lines are unique up to order, start and direction -/
theorem contours_polygons {G : Grid K} {lev : K} {cs cs' : List (List Side)} (h : Contours G lev cs) (h' : Contours G lev cs') :
    SamePolygons cs cs' := by
  obtain ⟨M, hM, hF⟩ := contours_sameLines h h'
  refine ⟨M, hM, ?_⟩
  rw [List.forall₂_iff_get] at hF ⊢
  refine ⟨hF.1, fun i h1 h2 => ?_⟩
  have hs := hF.2 i h1 h2
  have m1 : cs.get ⟨i, h1⟩ ∈ cs := List.get_mem _ _
  have m2 : M.get ⟨i, h2⟩ ∈ cs' := hM.mem_iff.mp (List.get_mem _ _)
  generalize cs.get ⟨i, h1⟩ = es at hs m1
  generalize M.get ⟨i, h2⟩ = es' at hs m2
  have two := (h.each es m1).two
  obtain ⟨es2, hes2, hm, _, hcl, _⟩ := contours_unique h h' m1
  have he := List.getElem_mem (l := es) (n := 0) (by omega)
  have he' := (sameLine_mem two hs _).mp he
  have : es2 = es' := line_eq h' hes2 m2 ((hm _).mp he) he'
  subst this
  exact contour_relisted (h.each es m1) (contours_nodup h m1) (h'.each _ m2) (contours_nodup h' m2) hcl he he'

theorem samePolygons_map {α β : Type} (g : α → β) {L L' : List (List α)} (h : SamePolygons L L') :
    SamePolygons (L.map (List.map g)) (L'.map (List.map g)) := by
  obtain ⟨M, hM, hF⟩ := h
  refine ⟨M.map (List.map g), hM.map _, ?_⟩
  rw [List.forall₂_map_left_iff, List.forall₂_map_right_iff]
  exact hF.imp fun _ _ hh => relisted_map g hh

/-- the lines of the isomorphic grid as lists of points -/
theorem iso_lists [IsStrictOrderedRing K] {G H : Grid K} {lev : K} (I : Iso G H lev) {cs : List (List Side)} (h : Contours G lev cs) :
    ∃ ds, Contours H lev ds ∧ ds.map (List.map (H.point lev)) = cs.map (List.map (G.point lev)) := by
  refine ⟨cs.map (List.map I.σ), I.contours h, ?_⟩
  rw [List.map_map]
  apply List.map_congr_left
  intro es hes
  simp only [Function.comp, List.map_map]
  apply List.map_congr_left
  intro e he
  obtain ⟨h1, h2⟩ := contour_sides (h.each es hes) he
  exact I.point h1 h2

/-- the result for the isomorphic grid -/
theorem iso_polygons [IsStrictOrderedRing K] {G H : Grid K} {lev : K} (I : Iso G H lev) {cs cs' : List (List Side)}
    (h : Contours G lev cs) (h' : Contours H lev cs') :
    SamePolygons (cs.map (List.map (G.point lev))) (cs'.map (List.map (H.point lev))) := by
  obtain ⟨ds, h1, h2⟩ := iso_lists I h
  rw [← h2]
  exact samePolygons_map _ (contours_polygons h1 h')

end Trackeddy.Cntr
