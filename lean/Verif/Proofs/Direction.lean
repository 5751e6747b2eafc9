import Verif.Proofs.Cntr.Direction
import Verif.Proofs.Crossing
import Verif.Props.Contour

/-!
Vertices of closed lines, and on which side of a piece of a contour the grid points are.
-/
namespace Trackeddy.Crossing
open Trackeddy.Spec Trackeddy.UnitCell Trackeddy.Cntr

set_option linter.unusedSectionVars false

variable {K : Type} [Field K] [LinearOrder K] [IsStrictOrderedRing K] {G : Grid K}

/-- a line of vertices ends where it starts only if it does so as a line of sides -/
theorem closed_vertices (hG : G.Rect) {l : K} (hm : G.Misses l) {es : List Side} (h : G.IsContour l es)
    (hf : ∀ e ∈ es, ∃ p, G.point l e = some p) : (es.map (G.point l)).head? = (es.map (G.point l)).getLast? ↔ es.head? = es.getLast? := by
  have two := h.two
  have e0 : es.head? = some es[0] := by rw [List.head?_eq_getElem?, List.getElem?_eq_getElem (by omega)]
  have e1 : es.getLast? = some es[es.length - 1] := by rw [List.getLast?_eq_getElem?, List.getElem?_eq_getElem (by omega)]
  rw [List.head?_map, List.getLast?_map, e0, e1]
  simp only [Option.map_some, Option.some.injEq]
  refine ⟨fun hp => ?_, fun hp => by rw [hp]⟩
  have j := h.joined
  rw [List.isChain_iff_getElem] at j
  obtain ⟨p, hp0⟩ := hf es[0] (List.getElem_mem _)
  obtain ⟨q, hq⟩ := hf es[1] (List.getElem_mem _)
  obtain ⟨p', hp'⟩ := hf es[es.length - 2] (List.getElem_mem _)
  have hl : es.length - 2 + 1 = es.length - 1 := by omega
  have jl := j (es.length - 2) (by omega)
  simp only [hl] at jl
  rw [hp0] at hp
  have m1 : mix p q 0 = mix p' p 1 := by unfold mix; exact Prod.ext (by simp) (by simp)
  rcases pieces_same hG hm (j 0 (by omega)) jl hp0 hq hp' hp.symm ⟨le_rfl, zero_le_one⟩ ⟨zero_le_one, le_rfl⟩ m1 with
    (⟨h1, h2⟩ | ⟨h1, -⟩) | ⟨g, g1, g2⟩
  · exfalso
    have h2 : es[1] = es[es.length - 1] := h2
    rw [h2, ← hp] at hq
    injection hq with hq
    exact piece_proper hG hm (j 0 (by omega)) hp0 (by show G.point l es[1] = _; rw [h2]; exact hp.symm) rfl
  · exact h1
  · rcases g1 with ⟨g1, -⟩ | ⟨-, g1⟩
    · rcases g2 with ⟨-, g2⟩ | ⟨g2, -⟩
      · exact absurd g2 one_ne_zero
      · rw [← g1, g2]
    · exact absurd g1 zero_ne_one

/-- a weight between two values on different sides of the level -/
theorem weight_strict {u w lev : K} (h : u < lev ∧ lev < w ∨ w < lev ∧ lev < u) : 0 < (lev - u) / (w - u) ∧ (lev - u) / (w - u) < 1 := by
  rcases h with ⟨h1, h2⟩ | ⟨h1, h2⟩
  · have : 0 < w - u := by linarith
    exact ⟨div_pos (by linarith) this, by rw [div_lt_one this]; linarith⟩
  · have : w - u < 0 := by linarith
    exact ⟨div_pos_of_neg_of_neg (by linarith) this, by rw [div_lt_one_of_neg this]; linarith⟩

/-- the vertex on a crossed side -/
theorem vertex_on {xs ys : ℕ → K} (hg : ∀ i j, i < G.nx → j < G.ny → G.x (i, j) = xs i ∧ G.y (i, j) = ys j)
    (hx : ∀ i j, i < j → j < G.nx → xs i < xs j) (hy : ∀ i j, i < j → j < G.ny → ys i < ys j) {l : K} (hm : G.Misses l) {e : Side}
    (he : G.InMesh e) (hc : G.Crossed l e) {p : K × K} (hp : G.point l e = some p) :
    (e.vert = true → p.1 = xs e.i ∧ ys e.j < p.2 ∧ p.2 < ys (e.j + 1)) ∧ (e.vert = false → p.2 = ys e.j ∧ xs e.i < p.1 ∧ p.1 < xs (e.i + 1)) := by
  obtain ⟨b1, b2⟩ := inMesh_sideIn he
  obtain ⟨a1, a2⟩ := sideIn_a ⟨b1, b2⟩
  have hz : ∃ u v, G.z e.a = some u ∧ G.z e.b = some v := by
    unfold Grid.point at hp
    cases hu : G.z e.a with
    | none => rw [hu] at hp; simp at hp
    | some u =>
      cases hw : G.z e.b with
      | none => rw [hu, hw] at hp; simp at hp
      | some v => exact ⟨u, v, rfl, rfl⟩
  obtain ⟨u, v, hu, hv⟩ := hz
  have nu : u ≠ l := by rintro rfl; exact hm _ _ a1 a2 hu
  have nv : v ≠ l := by rintro rfl; exact hm _ _ b1 b2 hv
  have hs : u < l ∧ l < v ∨ v < l ∧ l < u := by
    unfold Grid.Crossed Grid.Above at hc
    rw [hu, hv] at hc
    simp only [Option.some.injEq, exists_eq_left'] at hc
    rcases lt_or_gt_of_ne nu with h1 | h1 <;> rcases lt_or_gt_of_ne nv with h2 | h2
    · exact absurd ⟨fun h => absurd h (lt_asymm h1), fun h => absurd h (lt_asymm h2)⟩ hc
    · exact Or.inl ⟨h1, h2⟩
    · exact Or.inr ⟨h2, h1⟩
    · exact absurd ⟨fun _ => h2, fun _ => h1⟩ hc
  obtain ⟨w0, w1⟩ := weight_strict hs
  unfold Grid.point at hp
  rw [hu, hv] at hp
  simp only [Option.some.injEq] at hp
  generalize (l - u) / (v - u) = w at hp w0 w1
  obtain ⟨i, j, vt⟩ := e
  cases vt
  · simp only [Side.a, Side.b, Bool.false_eq_true, if_false] at a1 a2 b1 b2 hp
    rw [(hg _ _ a1 a2).1, (hg _ _ a1 a2).2, (hg _ _ b1 b2).1, (hg _ _ b1 b2).2] at hp
    have := hx i (i + 1) (by omega) b1
    refine ⟨fun h => by simp at h, fun _ => ?_⟩
    rw [← hp]
    exact ⟨by simp, by simp only; nlinarith, by simp only; nlinarith⟩
  · simp only [Side.a, Side.b, if_true] at a1 a2 b1 b2 hp
    rw [(hg _ _ a1 a2).1, (hg _ _ a1 a2).2, (hg _ _ b1 b2).1, (hg _ _ b1 b2).2] at hp
    have := hy j (j + 1) (by omega) b2
    refine ⟨fun _ => ?_, fun h => by simp at h⟩
    rw [← hp]
    exact ⟨by simp, by simp only; nlinarith, by simp only; nlinarith⟩

/-- the grid points at the ends of the side where a piece starts: the higher one is on the left, the lower one on the right -/
theorem piece_left (hG : G.Ascending) {l : K} (hm : G.Misses l) {c : ℕ × ℕ} {e f : Side} (h : JoinedIn G l c e f) (hl : G.LeftAbove l e c)
    {p q : K × K} (hp : G.point l e = some p) (hq : G.point l f = some q) :
    ∃ a b, (a = e.a ∧ b = e.b ∨ a = e.b ∧ b = e.a) ∧ G.Above l a ∧ ¬ G.Above l b ∧ LeftOf p q (G.place a) ∧ LeftOf q p (G.place b) := by
  obtain ⟨xs, ys, hg, hx, hy⟩ := hG
  obtain ⟨hc, he, hf, hne, ce, cf, _⟩ := h
  have vp := vertex_on hg hx hy hm ⟨c, hc, he⟩ ce hp
  have vq := vertex_on hg hx hy hm ⟨c, hc, hf⟩ cf hq
  obtain ⟨b1, b2⟩ := inMesh_sideIn ⟨c, hc, he⟩
  obtain ⟨a1, a2⟩ := sideIn_a ⟨b1, b2⟩
  obtain ⟨n1, n2, _⟩ := hc
  have sx := hx c.1 (c.1 + 1) (by omega) n1
  have sy := hy c.2 (c.2 + 1) (by omega) n2
  obtain ⟨c1, c2⟩ := c
  -- the four sides as first side, the other three as second one
  have fin : ∀ a b : ℕ × ℕ, (a = e.a ∧ b = e.b ∨ a = e.b ∧ b = e.a) → G.Above l a → LeftOf p q (G.place a) ∧ LeftOf q p (G.place b) →
      ∃ a b, (a = e.a ∧ b = e.b ∨ a = e.b ∧ b = e.a) ∧ G.Above l a ∧ ¬ G.Above l b ∧ LeftOf p q (G.place a) ∧ LeftOf q p (G.place b) := by
    intro a b hab hA hL
    refine ⟨a, b, hab, hA, fun hB => ce ?_, hL⟩
    rcases hab with ⟨rfl, rfl⟩ | ⟨rfl, rfl⟩
    · exact ⟨fun _ => hB, fun _ => hA⟩
    · exact ⟨fun _ => hA, fun _ => hB⟩
  unfold Grid.LeftAbove at hl
  rw [sides_mem] at he hf
  unfold LeftOf Grid.place at *
  have ga := hg e.a.1 e.a.2 a1 a2
  have gb := hg e.b.1 e.b.2 b1 b2
  rcases he with rfl | rfl | rfl | rfl
  all_goals
    simp only [Side.a, Side.b, if_true, if_false, Bool.false_eq_true, Prod.mk.injEq, Nat.left_eq_add, Nat.add_eq_left, one_ne_zero, and_true,
      true_and, and_false, false_and, and_self, iff_true, iff_false, not_true_eq_false, not_false_eq_true, or_false, false_or, iff_self,
      true_implies, false_implies, Bool.true_eq_false] at hl vp ga gb fin ⊢
  · obtain ⟨p2, p3, p4⟩ := vp
    have qy : p.2 < q.2 := by
      rcases hf with rfl | rfl | rfl | rfl
      · exact absurd rfl hne
      · have := vq.1 rfl; simp only at this; linarith
      · have := vq.2 rfl; simp only at this; linarith
      · have := vq.1 rfl; simp only at this; linarith
    refine fin _ _ (Or.inl ⟨rfl, rfl⟩) hl ?_
    rw [ga.1, ga.2, gb.1, gb.2, ← p2]
    constructor <;> nlinarith
  · obtain ⟨p2, p3, p4⟩ := vp
    have qx : q.1 < p.1 := by
      rcases hf with rfl | rfl | rfl | rfl
      · have := vq.2 rfl; simp only at this; linarith
      · exact absurd rfl hne
      · have := vq.2 rfl; simp only at this; linarith
      · have := vq.1 rfl; simp only at this; linarith
    refine fin _ _ (Or.inl ⟨rfl, rfl⟩) hl ?_
    rw [ga.1, ga.2, gb.1, gb.2, ← p2]
    constructor <;> nlinarith
  · obtain ⟨p2, p3, p4⟩ := vp
    have qy : q.2 < p.2 := by
      rcases hf with rfl | rfl | rfl | rfl
      · have := vq.2 rfl; simp only at this; linarith
      · have := vq.1 rfl; simp only at this; linarith
      · exact absurd rfl hne
      · have := vq.1 rfl; simp only at this; linarith
    refine fin _ _ (Or.inr ⟨rfl, rfl⟩) hl ?_
    rw [ga.1, ga.2, gb.1, gb.2, ← p2]
    constructor <;> nlinarith
  · obtain ⟨p2, p3, p4⟩ := vp
    have qx : p.1 < q.1 := by
      rcases hf with rfl | rfl | rfl | rfl
      · have := vq.2 rfl; simp only at this; linarith
      · have := vq.1 rfl; simp only at this; linarith
      · have := vq.2 rfl; simp only at this; linarith
      · exact absurd rfl hne
    refine fin _ _ (Or.inr ⟨rfl, rfl⟩) hl ?_
    rw [ga.1, ga.2, gb.1, gb.2, ← p2]
    constructor <;> nlinarith

end Trackeddy.Crossing
