import Verif.Proofs.Cntr.Unique
import Mathlib.Tactic.FieldSimp
import Mathlib.Tactic.Linarith

/-!
Contour lines under rearrangements of the grid and under reversal of the sign of the data.
-/
namespace Trackeddy.Cntr
open Trackeddy.Spec

variable {K : Type} [Field K] [LinearOrder K]

/-- an isomorphism of grids with data -/
structure Iso (G H : Grid K) (lev : K) where
  σ : Side → Side
  τ : Side → Side
  κ : ℕ × ℕ → ℕ × ℕ
  lam : ℕ × ℕ → ℕ × ℕ
  π : ℕ × ℕ → ℕ × ℕ
  cell : ∀ {c}, G.IsCell c → H.IsCell (κ c)
  cell' : ∀ {c}, H.IsCell c → G.IsCell (lam c)
  side : ∀ {c e}, G.IsCell c → e ∈ sidesOf c → σ e ∈ sidesOf (κ c)
  side' : ∀ {c e}, H.IsCell c → e ∈ sidesOf c → τ e ∈ sidesOf (lam c)
  inv : ∀ {e}, G.InMesh e → τ (σ e) = e
  inv' : ∀ {e}, H.InMesh e → σ (τ e) = e
  cinv' : ∀ {c}, H.IsCell c → κ (lam c) = c
  ends : ∀ {e}, G.InMesh e → ((σ e).a = π e.a ∧ (σ e).b = π e.b) ∨ ((σ e).a = π e.b ∧ (σ e).b = π e.a)
  z : ∀ {p : ℕ × ℕ}, p.1 < G.nx → p.2 < G.ny → H.z (π p) = G.z p
  x : ∀ {p : ℕ × ℕ}, p.1 < G.nx → p.2 < G.ny → H.x (π p) = G.x p
  y : ∀ {p : ℕ × ℕ}, p.1 < G.nx → p.2 < G.ny → H.y (π p) = G.y p
  centre : ∀ {c}, G.IsCell c → (H.CentreAbove lev (κ c) ↔ G.CentreAbove lev c)

namespace Iso
variable {G H : Grid K} {lev : K} (I : Iso G H lev)
include I

theorem inMesh {e : Side} (h : G.InMesh e) : H.InMesh (I.σ e) := by
  obtain ⟨c, h1, h2⟩ := h
  exact ⟨I.κ c, I.cell h1, I.side h1 h2⟩

theorem inMesh' {e : Side} (h : H.InMesh e) : G.InMesh (I.τ e) := by
  obtain ⟨c, h1, h2⟩ := h
  exact ⟨I.lam c, I.cell' h1, I.side' h1 h2⟩

theorem inj {e f : Side} (he : G.InMesh e) (hf : G.InMesh f) (h : I.σ e = I.σ f) : e = f := by
  rw [← I.inv he, h, I.inv hf]

theorem above {p : ℕ × ℕ} (h1 : p.1 < G.nx) (h2 : p.2 < G.ny) : H.Above lev (I.π p) ↔ G.Above lev p := by
  unfold Grid.Above
  rw [I.z h1 h2]

theorem crossed {e : Side} (h : G.InMesh e) : H.Crossed lev (I.σ e) ↔ G.Crossed lev e := by
  have h' := h
  obtain ⟨c, h1, h2⟩ := h'
  obtain ⟨⟨a1, a2⟩, b1, b2⟩ := side_inside h1 h2
  unfold Grid.Crossed
  rcases I.ends h with ⟨ha, hb⟩ | ⟨ha, hb⟩
  · rw [ha, hb, I.above a1 a2, I.above b1 b2]
  · rw [ha, hb, I.above a1 a2, I.above b1 b2]
    exact not_congr iff_comm

theorem joined {e f : Side} (h : G.Joined lev e f) : H.Joined lev (I.σ e) (I.σ f) := by
  obtain ⟨c, hc, h1, h2, h3, h4, h5, h6⟩ := h
  have he : G.InMesh e := ⟨c, hc, h1⟩
  have hf : G.InMesh f := ⟨c, hc, h2⟩
  refine ⟨I.κ c, I.cell hc, I.side hc h1, I.side hc h2, fun hh => h3 (I.inj he hf hh), (I.crossed he).mpr h4,
    (I.crossed hf).mpr h5, fun hall => ?_⟩
  obtain ⟨p, p1, p2, p3⟩ := h6 fun s hs => (I.crossed ⟨c, hc, hs⟩).mp (hall _ (I.side hc hs))
  obtain ⟨⟨a1, a2⟩, b1, b2⟩ := side_inside hc h1
  have hp : p.1 < G.nx ∧ p.2 < G.ny := by
    rcases p1 with rfl | rfl
    · exact ⟨a1, a2⟩
    · exact ⟨b1, b2⟩
  refine ⟨I.π p, ?_, ?_, ?_⟩
  · rcases I.ends he with ⟨ha, hb⟩ | ⟨ha, hb⟩ <;> rw [ha, hb] <;> rcases p1 with rfl | rfl <;> simp
  · rcases I.ends hf with ⟨ha, hb⟩ | ⟨ha, hb⟩ <;> rw [ha, hb] <;> rcases p2 with rfl | rfl <;> simp
  · rw [I.above hp.1 hp.2, I.centre hc]; exact p3

theorem border {e : Side} (h : G.Border e) : H.Border (I.σ e) := by
  obtain ⟨c, ⟨hc, hs⟩, hu⟩ := h
  have he : G.InMesh e := ⟨c, hc, hs⟩
  refine ⟨I.κ c, ⟨I.cell hc, I.side hc hs⟩, fun d ⟨hd, hds⟩ => ?_⟩
  have := hu (I.lam d) ⟨I.cell' hd, by have := I.side' hd hds; rwa [I.inv he] at this⟩
  rw [← this, I.cinv' hd]

theorem point [IsStrictOrderedRing K] {e : Side} (h : G.InMesh e) (hc : G.Crossed lev e) : H.point lev (I.σ e) = G.point lev e := by
  have h' := h
  obtain ⟨c, h1, h2⟩ := h'
  obtain ⟨⟨a1, a2⟩, b1, b2⟩ := side_inside h1 h2
  unfold Grid.Crossed Grid.Above at hc
  unfold Grid.point
  rcases I.ends h with ⟨ha, hb⟩ | ⟨ha, hb⟩
  · rw [ha, hb, I.z a1 a2, I.z b1 b2, I.x a1 a2, I.x b1 b2, I.y a1 a2, I.y b1 b2]
  · rw [ha, hb, I.z a1 a2, I.z b1 b2, I.x a1 a2, I.x b1 b2, I.y a1 a2, I.y b1 b2]
    cases hu : G.z e.a <;> cases hw : G.z e.b <;> simp only
    rename_i u w
    rw [hu, hw] at hc
    simp only [Option.some.injEq, exists_eq_left'] at hc
    have hne : u ≠ w := fun hh => hc (by rw [hh])
    have h1 : u - w ≠ 0 := sub_ne_zero.mpr hne
    have h2 : w - u ≠ 0 := sub_ne_zero.mpr hne.symm
    have h3 : (lev - w) / (u - w) = 1 - (lev - u) / (w - u) := by
      rw [eq_sub_iff_add_eq, div_add_div _ _ h1 h2, div_eq_one_iff_eq (mul_ne_zero h1 h2)]
      ring
    rw [h3]
    congr 2 <;> ring

theorem contours {cs : List (List Side)} (h : Contours G lev cs) : Contours H lev (cs.map (List.map I.σ)) := by
  have mesh : ∀ es ∈ cs, ∀ e ∈ es, G.InMesh e := fun es hes e he => (contour_sides (h.each es hes) he).1
  have closed_iff : ∀ es ∈ cs, ((es.map I.σ).head? = (es.map I.σ).getLast? ↔ es.head? = es.getLast?) := by
    intro es hes
    have h2 := (h.each es hes).two
    rw [List.head?_map, List.getLast?_map]
    have hhead : es.head? = some es[0] := by rw [List.head?_eq_getElem?, List.getElem?_eq_getElem (by omega)]
    have hlast : es.getLast? = some es[es.length - 1] := by
      rw [List.getLast?_eq_getElem?, List.getElem?_eq_getElem (by omega)]
    rw [hhead, hlast]
    simp only [Option.map_some, Option.some.injEq]
    exact ⟨fun hh => I.inj (mesh es hes _ (List.getElem_mem _)) (mesh es hes _ (List.getElem_mem _)) hh, fun hh => by rw [hh]⟩
  have hbody : ∀ es ∈ cs, body (es.map I.σ) = (body es).map I.σ := by
    intro es hes
    unfold body
    by_cases hc : es.head? = es.getLast?
    · rw [if_pos hc, if_pos ((closed_iff es hes).mpr hc), List.map_tail]
    · rw [if_neg hc, if_neg (fun hh => hc ((closed_iff es hes).mp hh))]
  have hflat : (cs.map (List.map I.σ)).flatMap body = (cs.flatMap body).map I.σ := by
    rw [List.flatMap_map, List.map_flatMap]
    exact List.flatMap_congr hbody
  refine ⟨?_, ?_, ?_⟩
  · intro es' hes'
    obtain ⟨es, hes, rfl⟩ := List.mem_map.mp hes'
    obtain ⟨h1, h2, h3, h4⟩ := h.each es hes
    refine ⟨by rw [List.length_map]; exact h1, ?_, fun hc => ?_, fun hc e he => ?_⟩
    · rw [List.isChain_map]
      exact h2.imp fun _ _ => I.joined
    · rw [List.length_map]; exact h3 ((closed_iff es hes).mp hc)
    · rw [List.head?_map, List.getLast?_map, Option.map_eq_some_iff, Option.map_eq_some_iff] at he
      have h5 := h4 fun hh => hc ((closed_iff es hes).mpr hh)
      rcases he with ⟨f, hf, rfl⟩ | ⟨f, hf, rfl⟩
      · exact I.border (h5 f (Or.inl hf))
      · exact I.border (h5 f (Or.inr hf))
  · rw [hflat]
    apply List.Nodup.map_on _ h.once
    intro a ha b hb hab
    exact I.inj ((h.all a).mp ha).1 ((h.all b).mp hb).1 hab
  · intro e
    rw [hflat, List.mem_map]
    constructor
    · rintro ⟨f, hf, rfl⟩
      obtain ⟨h1, h2⟩ := (h.all f).mp hf
      exact ⟨I.inMesh h1, (I.crossed h1).mpr h2⟩
    · rintro ⟨h1, h2⟩
      refine ⟨I.τ e, (h.all _).mpr ⟨I.inMesh' h1, ?_⟩, I.inv' h1⟩
      rw [← I.crossed (I.inMesh' h1), I.inv' h1]; exact h2

end Iso

theorem sameLine_map {α β : Type} (g : α → β) {l l' : List α} (h : SameLine l l') : SameLine (l.map g) (l'.map g) := by
  refine ⟨by rw [List.length_map, List.length_map]; exact h.1, fun a b => ?_⟩
  rw [Adjacent.map, Adjacent.map]
  simp only [h.2]

theorem sameLine_symm {α : Type} {l l' : List α} (h : SameLine l l') : SameLine l' l := ⟨h.1.symm, fun a b => (h.2 a b).symm⟩

theorem sameLine_trans {α : Type} {l l' l'' : List α} (h : SameLine l l') (h' : SameLine l' l'') : SameLine l l'' :=
  ⟨h.1.trans h'.1, fun a b => (h.2 a b).trans (h'.2 a b)⟩

theorem sameLines_map {α β : Type} (g : α → β) {L L' : List (List α)} (h : SameLines L L') :
    SameLines (L.map (List.map g)) (L'.map (List.map g)) := by
  obtain ⟨M, hM, hF⟩ := h
  refine ⟨M.map (List.map g), hM.map _, ?_⟩
  rw [List.forall₂_map_left_iff, List.forall₂_map_right_iff]
  exact hF.imp fun _ _ hh => sameLine_map g hh

theorem sameLines_trans {α : Type} {L L' L'' : List (List α)} (h : SameLines L L') (h' : SameLines L' L'') : SameLines L L'' := by
  obtain ⟨M, hM, hF⟩ := h
  obtain ⟨M', hM', hF'⟩ := h'
  obtain ⟨N, hN1, hN2⟩ := List.perm_comp_forall₂ hM hF'
  refine ⟨N, hN2.trans hM', ?_⟩
  clear hM hM' hF' hN2
  induction hF generalizing N with
  | nil => cases hN1; exact List.Forall₂.nil
  | cons h1 _ ih =>
    cases hN1 with
    | cons h2 h3 => exact List.Forall₂.cons (sameLine_trans h1 h2) (ih _ h3)

/-- the result for the isomorphic grid -/
theorem iso_lines [IsStrictOrderedRing K] {G H : Grid K} {lev : K} (I : Iso G H lev) {cs cs' : List (List Side)}
    (h : Contours G lev cs) (h' : Contours H lev cs') :
    SameLines (cs.map (List.map (G.point lev))) (cs'.map (List.map (H.point lev))) := by
  have hp : ∀ es ∈ cs, es.map (G.point lev) = (es.map I.σ).map (H.point lev) := by
    intro es hes
    rw [List.map_map]
    apply List.map_congr_left
    intro e he
    obtain ⟨h1, h2⟩ := contour_sides (h.each es hes) he
    exact (I.point h1 h2).symm
  have hpp : cs.map (List.map (G.point lev)) = (cs.map (List.map I.σ)).map (List.map (H.point lev)) := by
    rw [List.map_map]
    exact List.map_congr_left hp
  rw [hpp]
  exact sameLines_map _ (contours_sameLines (I.contours h) h')

/-! ### rearranged arrays -/

theorem inMesh_bounds {X Y : NdArr K} {Z : NdArr (Option K)} {e : Side} (h : (arrGrid X Y Z none).InMesh e) :
    e.a.1 < Z.cols ∧ e.a.2 < Z.rows ∧ e.b.1 < Z.cols ∧ e.b.2 < Z.rows := by
  obtain ⟨c, h1, h2⟩ := h
  obtain ⟨⟨a1, a2⟩, b1, b2⟩ := side_inside h1 h2
  exact ⟨a1, a2, b1, b2⟩

theorem isCell_none {X Y : NdArr K} {Z : NdArr (Option K)} {c : ℕ × ℕ} :
    (arrGrid X Y Z none).IsCell c ↔ c.1 + 1 < Z.cols ∧ c.2 + 1 < Z.rows := by
  unfold Grid.IsCell
  simp [arrGrid]

/-- rows in reverse order -/
def flipRowsIso {X Y : NdArr K} {Z : NdArr (Option K)} (h : SameShape X Y Z none) (lev : K) :
    Iso (arrGrid X Y Z none) (arrGrid X.flipRows Y.flipRows Z.flipRows none) lev where
  σ e := if e.vert then ⟨e.i, Z.rows - 2 - e.j, true⟩ else ⟨e.i, Z.rows - 1 - e.j, false⟩
  τ e := if e.vert then ⟨e.i, Z.rows - 2 - e.j, true⟩ else ⟨e.i, Z.rows - 1 - e.j, false⟩
  κ c := (c.1, Z.rows - 2 - c.2)
  lam c := (c.1, Z.rows - 2 - c.2)
  π p := (p.1, Z.rows - 1 - p.2)
  cell := by
    intro c hc
    rw [isCell_none] at hc ⊢
    simp only [NdArr.flipRows]; omega
  cell' := by
    intro c hc
    rw [isCell_none] at hc ⊢
    simp only [NdArr.flipRows] at hc; omega
  side := by
    intro c e hc he
    rw [isCell_none] at hc
    rw [sides_mem] at he ⊢
    rcases he with rfl | rfl | rfl | rfl <;> simp only [Bool.false_eq_true, if_false, if_true, Side.mk.injEq, and_true, and_false,
      or_false, false_or, true_and, true_or, or_true] <;> omega
  side' := by
    intro c e hc he
    rw [isCell_none] at hc
    simp only [NdArr.flipRows] at hc
    rw [sides_mem] at he ⊢
    rcases he with rfl | rfl | rfl | rfl <;> simp only [Bool.false_eq_true, if_false, if_true, Side.mk.injEq, and_true, and_false,
      or_false, false_or, true_and, true_or, or_true] <;> omega
  inv := by
    intro e he
    have := inMesh_bounds he
    obtain ⟨i, j, v⟩ := e
    cases v <;> simp only [Side.a, Side.b, Bool.false_eq_true, if_false, if_true] at this ⊢ <;> congr 1 <;> omega
  inv' := by
    intro e he
    have := inMesh_bounds he
    obtain ⟨i, j, v⟩ := e
    cases v <;> simp only [Side.a, Side.b, Bool.false_eq_true, if_false, if_true, NdArr.flipRows] at this ⊢ <;> congr 1 <;> omega
  cinv' := by
    intro c hc
    rw [isCell_none] at hc
    simp only [NdArr.flipRows] at hc
    ext <;> simp only; omega
  ends := by
    intro e he
    have := inMesh_bounds he
    obtain ⟨i, j, v⟩ := e
    cases v
    · left
      simp [Side.a, Side.b]
    · right
      simp only [Side.a, Side.b, if_true, Prod.mk.injEq, true_and] at this ⊢
      omega
  z := by
    intro p h1 h2
    simp only [arrGrid, NdArr.flipRows] at h1 h2 ⊢
    congr 1; omega
  x := by
    intro p h1 h2
    obtain ⟨hx, _⟩ := h
    simp only [Prod.mk.injEq] at hx
    simp only [arrGrid, NdArr.flipRows] at h1 h2 ⊢
    congr 1; omega
  y := by
    intro p h1 h2
    obtain ⟨_, hy, _⟩ := h
    simp only [Prod.mk.injEq] at hy
    simp only [arrGrid, NdArr.flipRows] at h1 h2 ⊢
    congr 1; omega
  centre := by
    intro c hc
    rw [isCell_none] at hc
    unfold Grid.CentreAbove
    simp only [arrGrid, NdArr.flipRows]
    have e1 : Z.rows - 1 - (Z.rows - 2 - c.2) = c.2 + 1 := by omega
    have e2 : Z.rows - 1 - (Z.rows - 2 - c.2 + 1) = c.2 := by omega
    rw [e1, e2]
    constructor
    · rintro ⟨p, q, r, s, h1, h2, h3, h4, h5⟩
      exact ⟨r, s, p, q, h3, h4, h1, h2, by rw [show r + s + p + q = p + q + r + s by ring]; exact h5⟩
    · rintro ⟨p, q, r, s, h1, h2, h3, h4, h5⟩
      exact ⟨r, s, p, q, h3, h4, h1, h2, by rw [show r + s + p + q = p + q + r + s by ring]; exact h5⟩

/-- rows and columns exchanged -/
def transposeIso {X Y : NdArr K} {Z : NdArr (Option K)} (lev : K) :
    Iso (arrGrid X Y Z none) (arrGrid X.transpose Y.transpose Z.transpose none) lev where
  σ e := ⟨e.j, e.i, !e.vert⟩
  τ e := ⟨e.j, e.i, !e.vert⟩
  κ c := (c.2, c.1)
  lam c := (c.2, c.1)
  π p := (p.2, p.1)
  cell := by
    intro c hc
    rw [isCell_none] at hc ⊢
    exact ⟨hc.2, hc.1⟩
  cell' := by
    intro c hc
    rw [isCell_none] at hc ⊢
    exact ⟨hc.2, hc.1⟩
  side := by
    intro c e hc he
    rw [sides_mem] at he ⊢
    rcases he with rfl | rfl | rfl | rfl <;> simp
  side' := by
    intro c e hc he
    rw [sides_mem] at he ⊢
    rcases he with rfl | rfl | rfl | rfl <;> simp
  inv := by intro e _; simp
  inv' := by intro e _; simp
  cinv' := by intro c _; rfl
  ends := by
    intro e _
    obtain ⟨i, j, v⟩ := e
    cases v <;> simp [Side.a, Side.b]
  z := by intro p _ _; rfl
  x := by intro p _ _; rfl
  y := by intro p _ _; rfl
  centre := by
    intro c _
    unfold Grid.CentreAbove
    simp only [arrGrid, NdArr.transpose]
    constructor
    · rintro ⟨p, q, r, s, h1, h2, h3, h4, h5⟩
      exact ⟨p, r, q, s, h1, h3, h2, h4, by rw [show p + r + q + s = p + q + r + s by ring]; exact h5⟩
    · rintro ⟨p, q, r, s, h1, h2, h3, h4, h5⟩
      exact ⟨p, r, q, s, h1, h3, h2, h4, by rw [show p + r + q + s = p + q + r + s by ring]; exact h5⟩

/-! ### reversed sign -/

section
variable [IsStrictOrderedRing K] {X Y : NdArr K} {Z : NdArr (Option K)} {lev : K}

theorem neg_above (h : NoTies Z lev) {p : ℕ × ℕ} (h1 : p.1 < Z.cols) (h2 : p.2 < Z.rows) :
    (arrGrid X Y Z.neg none).Above (-lev) p ↔ ¬ (arrGrid X Y Z none).Above lev p := by
  obtain ⟨v, hv, hne⟩ := h.value _ h2 _ h1
  unfold Grid.Above
  simp only [arrGrid, NdArr.neg]
  rw [hv]
  simp only [Option.map_some, Option.some.injEq, exists_eq_left', neg_lt_neg_iff, not_lt]
  exact ⟨le_of_lt, fun hh => lt_of_le_of_ne hh hne⟩

theorem neg_centre (h : NoTies Z lev) {c : ℕ × ℕ} (hc : (arrGrid X Y Z none).IsCell c)
    (hall : ∀ s ∈ sidesOf c, (arrGrid X Y Z none).Crossed lev s) :
    (arrGrid X Y Z.neg none).CentreAbove (-lev) c ↔ ¬ (arrGrid X Y Z none).CentreAbove lev c := by
  rw [isCell_none] at hc
  obtain ⟨p, hp, _⟩ := h.value c.2 (by omega) c.1 (by omega)
  obtain ⟨q, hq, _⟩ := h.value c.2 (by omega) (c.1 + 1) (by omega)
  obtain ⟨r, hr, _⟩ := h.value (c.2 + 1) (by omega) c.1 (by omega)
  obtain ⟨s, hs, _⟩ := h.value (c.2 + 1) (by omega) (c.1 + 1) (by omega)
  have hm : (p + q + r + s) / 4 ≠ lev := by
    simp only [sides_mem, forall_eq_or_imp, forall_eq] at hall
    unfold Grid.Crossed Grid.Above at hall
    simp only [arrGrid, Side.a, Side.b, if_true, if_false, Bool.false_eq_true] at hall
    rw [hp, hq, hr, hs] at hall
    simp only [Option.some.injEq, exists_eq_left'] at hall
    obtain ⟨g1, g2, g3, g4⟩ := hall
    apply h.mean c.2 c.1 hc.2 hc.1 p q r s hp hq hr hs <;>
      by_cases A : lev < p <;> by_cases B : lev < q <;> by_cases D : lev < r <;> by_cases E : lev < s <;> simp [A, B, D, E] at g1 g2 g3 g4 ⊢
  unfold Grid.CentreAbove
  simp only [arrGrid, NdArr.neg]
  rw [hp, hq, hr, hs]
  simp only [Option.map_some, Option.some.injEq]
  have e : (-p + -q + -r + -s) / 4 = -((p + q + r + s) / 4) := by ring
  constructor
  · rintro ⟨_, _, _, _, rfl, rfl, rfl, rfl, h5⟩ ⟨_, _, _, _, rfl, rfl, rfl, rfl, h6⟩
    rw [e, neg_lt_neg_iff] at h5
    exact lt_asymm h5 h6
  · intro hn
    refine ⟨_, _, _, _, rfl, rfl, rfl, rfl, ?_⟩
    rw [e, neg_lt_neg_iff]
    refine lt_of_le_of_ne (not_lt.mp fun hh => hn ⟨p, q, r, s, rfl, rfl, rfl, rfl, hh⟩) hm

theorem neg_crossed (h : NoTies Z lev) {e : Side} (he : (arrGrid X Y Z none).InMesh e) :
    (arrGrid X Y Z.neg none).Crossed (-lev) e ↔ (arrGrid X Y Z none).Crossed lev e := by
  obtain ⟨a1, a2, b1, b2⟩ := inMesh_bounds he
  unfold Grid.Crossed
  rw [neg_above h a1 a2, neg_above h b1 b2]
  exact not_congr not_iff_not

theorem neg_point {e : Side} : (arrGrid X Y Z.neg none).point (-lev) e = (arrGrid X Y Z none).point lev e := by
  unfold Grid.point
  simp only [arrGrid, NdArr.neg]
  cases Z.get e.a.2 e.a.1 <;> cases Z.get e.b.2 e.b.1 <;> simp only [Option.map_some, Option.map_none]
  rename_i u w
  rw [show (-lev - -u) / (-w - -u) = (lev - u) / (w - u) by
    rw [show -lev - -u = -(lev - u) by ring, show -w - -u = -(w - u) by ring, neg_div_neg_eq]]

theorem neg_contours (h : NoTies Z lev) {cs : List (List Side)} (hc : Contours (arrGrid X Y Z none) lev cs) :
    Contours (arrGrid X Y Z.neg none) (-lev) cs := by
  have hcell : ∀ {c}, (arrGrid X Y Z.neg none).IsCell c ↔ (arrGrid X Y Z none).IsCell c := by
    intro c; rw [isCell_none, isCell_none]; rfl
  have hmesh : ∀ {e}, (arrGrid X Y Z.neg none).InMesh e ↔ (arrGrid X Y Z none).InMesh e := by
    intro e; unfold Grid.InMesh; simp only [hcell]
  have hborder : ∀ {e}, (arrGrid X Y Z.neg none).Border e ↔ (arrGrid X Y Z none).Border e := by
    intro e; unfold Grid.Border; simp only [hcell]
  refine ⟨fun es hes => ?_, hc.once, fun e => ?_⟩
  · obtain ⟨h1, h2, h3, h4⟩ := hc.each es hes
    refine ⟨h1, h2.imp fun e f hj => ?_, h3, by simpa only [hborder] using h4⟩
    obtain ⟨c, g1, g2, g3, g4, g5, g6, g7⟩ := hj
    refine ⟨c, hcell.mpr g1, g2, g3, g4, (neg_crossed h ⟨c, g1, g2⟩).mpr g5, (neg_crossed h ⟨c, g1, g3⟩).mpr g6, fun hall => ?_⟩
    have hall' : ∀ s ∈ sidesOf c, (arrGrid X Y Z none).Crossed lev s := fun s hs => (neg_crossed h ⟨c, g1, hs⟩).mp (hall s hs)
    obtain ⟨p, p1, p2, p3⟩ := g7 hall'
    obtain ⟨a1, a2, b1, b2⟩ := inMesh_bounds (⟨c, g1, g2⟩ : (arrGrid X Y Z none).InMesh e)
    refine ⟨p, p1, p2, ?_⟩
    have hp : p.1 < Z.cols ∧ p.2 < Z.rows := by
      rcases p1 with rfl | rfl
      · exact ⟨a1, a2⟩
      · exact ⟨b1, b2⟩
    rw [neg_above h hp.1 hp.2, neg_centre h g1 hall', p3]
  · rw [hc.all e, hmesh]
    exact and_congr_right fun hm => (neg_crossed h hm).symm

end

end Trackeddy.Cntr
