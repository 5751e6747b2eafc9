import Verif.Proofs.Cntr.Symmetry
import Verif.Spec.Crop
import Verif.Spec.Crossing

/-!
Contour lines inside a rectangular part of the grid.
-/
namespace Trackeddy.Cntr
open Trackeddy.Spec

variable {K : Type} [Field K] [LinearOrder K]

theorem joined_symm {G : Grid K} {lev : K} {e f : Side} (h : G.Joined lev e f) : G.Joined lev f e := by
  obtain ⟨c, hc⟩ : ∃ c, JoinedIn G lev c e f := h
  exact ⟨c, hc.symm⟩

theorem adjacent_joined {G : Grid K} {lev : K} {l : List Side} (hl : l.IsChain (G.Joined lev)) {e f : Side} (h : Adjacent l e f) :
    G.Joined lev e f := by
  rw [List.isChain_iff_getElem] at hl
  obtain ⟨k, ⟨h1, h2⟩ | ⟨h1, h2⟩⟩ := h <;> obtain ⟨k1, e1⟩ := List.getElem?_eq_some_iff.mp h1 <;>
    obtain ⟨k2, e2⟩ := List.getElem?_eq_some_iff.mp h2 <;> have := hl k k2 <;> rw [e1, e2] at this
  · exact this
  · exact joined_symm this

/-- a chain with one side on a contour line is on it -/
theorem chain_on {G : Grid K} {lev : K} {es l : List Side} (h : G.IsContour lev es) (hn : (body es).Nodup)
    (hl : l.IsChain (G.Joined lev)) {e : Side} (he : e ∈ l) (he' : e ∈ es) : ∀ f ∈ l, f ∈ es := by
  have hl' := hl
  rw [List.isChain_iff_getElem] at hl'
  have step : ∀ k (hk : k < l.length), l[k] ∈ es ↔ l[0]'(by omega) ∈ es := by
    intro k hk
    induction k with
    | zero => exact Iff.rfl
    | succ k ih =>
      rw [← ih (by omega)]
      exact ⟨fun h1 => (contour_closed h hn h1 (joined_symm (hl' k hk))).mem.2, fun h1 => (contour_closed h hn h1 (hl' k hk)).mem.2⟩
  obtain ⟨m, hm, rfl⟩ := List.getElem_of_mem he
  intro f hf
  obtain ⟨k, hk, rfl⟩ := List.getElem_of_mem hf
  rw [step k hk, ← step m hm]
  exact he'

/-- two contour lines with a common side are the same line -/
theorem contour_same {G : Grid K} {lev : K} {es es' : List Side} (h : G.IsContour lev es) (hn : (body es).Nodup)
    (h' : G.IsContour lev es') (hn' : (body es').Nodup) {e : Side} (he : e ∈ es) (he' : e ∈ es') : SameLine es es' := by
  have sub := chain_on h' hn' h.joined he he'
  have sub' := chain_on h hn h'.joined he' he
  have hcl : es.head? = es.getLast? ↔ es'.head? = es'.getLast? := by
    have hd : ∀ {l : List Side}, 2 ≤ l.length → ∃ x, l.head? = some x ∧ x ∈ l := by
      intro l hl
      exact ⟨l[0], by rw [List.head?_eq_getElem?, List.getElem?_eq_getElem (by omega)], List.getElem_mem _⟩
    constructor
    · intro hcl
      by_contra hop
      obtain ⟨x, hx, hxm⟩ := hd h'.two
      exact closed_not_border h hn hcl (sub' x hxm) (h'.opened hop x (Or.inl hx))
    · intro hcl
      by_contra hop
      obtain ⟨x, hx, hxm⟩ := hd h.two
      exact closed_not_border h' hn' hcl (sub x hxm) (h.opened hop x (Or.inl hx))
  have hperm : (body es).Perm (body es') := by
    rw [List.perm_ext_iff_of_nodup hn hn']
    intro e
    rw [mem_body h.two, mem_body h'.two]
    exact ⟨sub e, sub' e⟩
  refine ⟨?_, fun a b => ⟨fun hab => ?_, fun hab => ?_⟩⟩
  · have hl := hperm.length_eq
    have h2 := h.two
    have h2' := h'.two
    unfold body at hl
    by_cases hc : es.head? = es.getLast?
    · rw [if_pos hc, if_pos (hcl.mp hc)] at hl
      simp only [List.length_tail] at hl
      omega
    · rw [if_neg hc, if_neg (fun hh => hc (hcl.mpr hh))] at hl
      exact hl
  · exact contour_closed h' hn' (sub a hab.mem.1) (adjacent_joined h.joined hab)
  · exact contour_closed h hn (sub' a hab.mem.1) (adjacent_joined h'.joined hab)

/-! ### part of a grid -/

/-- the side of the whole grid -/
def offSide (i0 j0 : ℕ) (e : Side) : Side := ⟨i0 + e.i, j0 + e.j, e.vert⟩
def offPt (i0 j0 : ℕ) (p : ℕ × ℕ) : ℕ × ℕ := (i0 + p.1, j0 + p.2)

theorem offSide_a (i0 j0 : ℕ) (e : Side) : (offSide i0 j0 e).a = offPt i0 j0 e.a := rfl
theorem offSide_b (i0 j0 : ℕ) (e : Side) : (offSide i0 j0 e).b = offPt i0 j0 e.b := by
  unfold offSide Side.b offPt
  cases e.vert <;> simp [Nat.add_assoc]

theorem offSide_inj {i0 j0 : ℕ} {e f : Side} (h : offSide i0 j0 e = offSide i0 j0 f) : e = f := by
  obtain ⟨i, j, v⟩ := e
  obtain ⟨i', j', v'⟩ := f
  simp only [offSide, Side.mk.injEq] at h ⊢
  exact ⟨by omega, by omega, h.2.2⟩

theorem offPt_inj {i0 j0 : ℕ} {p q : ℕ × ℕ} (h : offPt i0 j0 p = offPt i0 j0 q) : p = q := by
  obtain ⟨i, j⟩ := p
  obtain ⟨i', j'⟩ := q
  simp only [offPt, Prod.mk.injEq] at h ⊢
  omega

theorem offSide_sides {i0 j0 : ℕ} {c : ℕ × ℕ} {e : Side} : offSide i0 j0 e ∈ sidesOf (offPt i0 j0 c) ↔ e ∈ sidesOf c := by
  obtain ⟨i, j, v⟩ := e
  obtain ⟨a, b⟩ := c
  simp only [sides_mem, offSide, offPt, Side.mk.injEq]
  cases v <;> simp <;> omega

theorem sides_off {i0 j0 : ℕ} {c : ℕ × ℕ} {e : Side} (h : e ∈ sidesOf (offPt i0 j0 c)) : ∃ f ∈ sidesOf c, e = offSide i0 j0 f := by
  refine ⟨⟨e.i - i0, e.j - j0, e.vert⟩, ?_, ?_⟩
  · rw [sides_mem] at h ⊢
    obtain ⟨i, j, v⟩ := e
    obtain ⟨a, b⟩ := c
    simp only [offPt, Side.mk.injEq] at h ⊢
    cases v <;> simp at h ⊢ <;> omega
  · rw [sides_mem] at h
    obtain ⟨i, j, v⟩ := e
    obtain ⟨a, b⟩ := c
    simp only [offPt, offSide, Side.mk.injEq] at h ⊢
    cases v <;> simp at h ⊢ <;> omega

/-- the ends are in the grid -/
def SideIn (H : Grid K) (e : Side) : Prop := e.b.1 < H.nx ∧ e.b.2 < H.ny

/-- no side at the boundary -/
def SideStrict (H : Grid K) (e : Side) : Prop :=
  SideIn H e ∧ (e.vert = true → 0 < e.i ∧ e.i + 1 < H.nx) ∧ (e.vert = false → 0 < e.j ∧ e.j + 1 < H.ny)

/-- `H` is the part of `G` that begins in column `i0` and row `j0` -/
structure PartOf (H G : Grid K) (i0 j0 : ℕ) : Prop where
  nx : i0 + H.nx ≤ G.nx
  ny : j0 + H.ny ≤ G.ny
  x : ∀ p : ℕ × ℕ, p.1 < H.nx → p.2 < H.ny → H.x p = G.x (offPt i0 j0 p)
  y : ∀ p : ℕ × ℕ, p.1 < H.nx → p.2 < H.ny → H.y p = G.y (offPt i0 j0 p)
  z : ∀ p : ℕ × ℕ, p.1 < H.nx → p.2 < H.ny → H.z p = G.z (offPt i0 j0 p)
  masked : ∀ p, H.masked p = false
  masked' : ∀ p, G.masked p = false

theorem sideIn_a {H : Grid K} {e : Side} (h : SideIn H e) : e.a.1 < H.nx ∧ e.a.2 < H.ny := by
  obtain ⟨i, j, v⟩ := e
  unfold SideIn Side.b at h
  unfold Side.a
  cases v <;> simp at h ⊢ <;> omega

theorem inMesh_sideIn {H : Grid K} {e : Side} (h : H.InMesh e) : SideIn H e := by
  obtain ⟨c, hc, he⟩ := h
  exact (side_inside hc he).2

/-- a side that is not at the boundary is a side of two cells -/
theorem strict_not_border {H : Grid K} (hm : ∀ p, H.masked p = false) {e : Side} (h : SideStrict H e) : ¬ H.Border e := by
  rintro ⟨c, _, hu⟩
  have cell : ∀ d : ℕ × ℕ, d.1 + 1 < H.nx → d.2 + 1 < H.ny → H.IsCell d := fun d h1 h2 => ⟨h1, h2, fun p _ => hm p⟩
  obtain ⟨i, j, v⟩ := e
  obtain ⟨⟨h1, h2⟩, h3, h4⟩ := h
  cases v
  · obtain ⟨h5, h6⟩ := h4 rfl
    simp only [Side.b] at h1 h2 h5 h6
    have e1 := hu (i, j) ⟨cell _ (by simpa using h1) h6, by simp [sides_mem]⟩
    have e2 := hu (i, j - 1) ⟨cell _ (by simpa using h1) (by show j - 1 + 1 < _; omega), by
      simp only [sides_mem, Side.mk.injEq]; right; right; left; exact ⟨trivial, by omega, trivial⟩⟩
    have := congrArg Prod.snd (e1.trans e2.symm)
    simp only at this
    omega
  · obtain ⟨h5, h6⟩ := h3 rfl
    simp only [Side.b] at h1 h2 h5 h6
    have e1 := hu (i, j) ⟨cell _ h6 (by simpa using h2), by simp [sides_mem]⟩
    have e2 := hu (i - 1, j) ⟨cell _ (by show i - 1 + 1 < _; omega) (by simpa using h2), by
      simp only [sides_mem, Side.mk.injEq]; right; left; exact ⟨by omega, trivial, trivial⟩⟩
    have := congrArg Prod.fst (e1.trans e2.symm)
    simp only at this
    omega

theorem strict_closed {H : Grid K} (hm : ∀ p, H.masked p = false) {lev : K} {es : List Side} (h : H.IsContour lev es)
    (hs : ∀ e ∈ es, SideStrict H e) : es.head? = es.getLast? := by
  by_contra hne
  have h2 := h.two
  have h0 : es.head? = some es[0] := by rw [List.head?_eq_getElem?, List.getElem?_eq_getElem (by omega)]
  exact strict_not_border hm (hs _ (List.getElem_mem (n := 0) (by omega))) (h.opened hne _ (Or.inl h0))

theorem body_off {i0 j0 : ℕ} (es : List Side) : body (es.map (offSide i0 j0)) = (body es).map (offSide i0 j0) := by
  have : (es.map (offSide i0 j0)).head? = (es.map (offSide i0 j0)).getLast? ↔ es.head? = es.getLast? := by
    rw [List.head?_map, List.getLast?_map]
    exact ⟨fun h => Option.map_injective (fun _ _ => offSide_inj) h, fun h => by rw [h]⟩
  unfold body
  by_cases hc : es.head? = es.getLast?
  · rw [if_pos (this.2 hc), if_pos hc, List.map_tail]
  · rw [if_neg (fun h => hc (this.1 h)), if_neg hc]

theorem nodup_off {i0 j0 : ℕ} {l : List Side} : (l.map (offSide i0 j0)).Nodup ↔ l.Nodup :=
  List.nodup_map_iff fun _ _ => offSide_inj

namespace PartOf
variable {H G : Grid K} {i0 j0 : ℕ} (P : PartOf H G i0 j0)
include P

theorem above {lev : K} {p : ℕ × ℕ} (h1 : p.1 < H.nx) (h2 : p.2 < H.ny) : H.Above lev p ↔ G.Above lev (offPt i0 j0 p) := by
  unfold Grid.Above
  rw [P.z p h1 h2]

theorem crossed {lev : K} {e : Side} (h : SideIn H e) : H.Crossed lev e ↔ G.Crossed lev (offSide i0 j0 e) := by
  unfold Grid.Crossed
  rw [P.above (sideIn_a h).1 (sideIn_a h).2, P.above h.1 h.2, offSide_a, offSide_b]

theorem centre {lev : K} {c : ℕ × ℕ} (h1 : c.1 + 1 < H.nx) (h2 : c.2 + 1 < H.ny) :
    H.CentreAbove lev c ↔ G.CentreAbove lev (offPt i0 j0 c) := by
  unfold Grid.CentreAbove
  rw [P.z (c.1, c.2) (by show c.1 < _; omega) (by show c.2 < _; omega), P.z (c.1 + 1, c.2) h1 (by show c.2 < _; omega),
    P.z (c.1, c.2 + 1) (by show c.1 < _; omega) h2, P.z (c.1 + 1, c.2 + 1) h1 h2]
  rfl

theorem point {lev : K} {e : Side} (h : SideIn H e) : H.point lev e = G.point lev (offSide i0 j0 e) := by
  obtain ⟨a1, a2⟩ := sideIn_a h
  unfold Grid.point
  rw [offSide_a, offSide_b, P.z _ a1 a2, P.z _ h.1 h.2, P.x _ a1 a2, P.x _ h.1 h.2, P.y _ a1 a2, P.y _ h.1 h.2]

theorem cell {c : ℕ × ℕ} : H.IsCell c ↔ G.IsCell (offPt i0 j0 c) ∧ c.1 + 1 < H.nx ∧ c.2 + 1 < H.ny := by
  have hx := P.nx
  have hy := P.ny
  constructor
  · rintro ⟨h1, h2, h3⟩
    exact ⟨⟨by show i0 + c.1 + 1 < _; omega, by show j0 + c.2 + 1 < _; omega, fun p _ => P.masked' p⟩, h1, h2⟩
  · rintro ⟨_, h1, h2⟩
    exact ⟨h1, h2, fun p _ => P.masked p⟩

theorem joinedIn {lev : K} {c : ℕ × ℕ} {e f : Side} :
    JoinedIn H lev c e f ↔ JoinedIn G lev (offPt i0 j0 c) (offSide i0 j0 e) (offSide i0 j0 f) ∧ c.1 + 1 < H.nx ∧ c.2 + 1 < H.ny := by
  by_cases hr : c.1 + 1 < H.nx ∧ c.2 + 1 < H.ny
  swap
  · exact ⟨fun h => absurd ⟨h.1.1, h.1.2.1⟩ hr, fun h => absurd h.2 hr⟩
  have hcH : H.IsCell c := ⟨hr.1, hr.2, fun p _ => P.masked p⟩
  have hin : ∀ g ∈ sidesOf c, SideIn H g := fun g hg => (side_inside hcH hg).2
  have hall : (∀ s ∈ sidesOf c, H.Crossed lev s) ↔ ∀ s ∈ sidesOf (offPt i0 j0 c), G.Crossed lev s := by
    constructor
    · intro h s hs
      obtain ⟨g, hg, rfl⟩ := sides_off hs
      exact (P.crossed (hin g hg)).1 (h g hg)
    · intro h s hs
      exact (P.crossed (hin s hs)).2 (h _ (offSide_sides.2 hs))
  have hp : e ∈ sidesOf c → f ∈ sidesOf c →
      ((∃ p, (p = e.a ∨ p = e.b) ∧ (p = f.a ∨ p = f.b) ∧ (H.Above lev p ↔ ¬ H.CentreAbove lev c)) ↔
      ∃ p, (p = (offSide i0 j0 e).a ∨ p = (offSide i0 j0 e).b) ∧ (p = (offSide i0 j0 f).a ∨ p = (offSide i0 j0 f).b) ∧
        (G.Above lev p ↔ ¬ G.CentreAbove lev (offPt i0 j0 c))) := by
    intro he hf
    have ab : ∀ p, p = e.a ∨ p = e.b → (H.Above lev p ↔ G.Above lev (offPt i0 j0 p)) := by
      rintro p (rfl | rfl)
      · exact P.above (sideIn_a (hin e he)).1 (sideIn_a (hin e he)).2
      · exact P.above (hin e he).1 (hin e he).2
    simp only [offSide_a, offSide_b]
    rw [P.centre hr.1 hr.2]
    constructor
    · rintro ⟨p, h1, h2, h3⟩
      rw [ab p h1] at h3
      exact ⟨offPt i0 j0 p, h1.imp (congrArg _) (congrArg _), h2.imp (congrArg _) (congrArg _), h3⟩
    · rintro ⟨p, h1, h2, h3⟩
      rcases h1 with rfl | rfl
      · rw [← ab _ (Or.inl rfl)] at h3
        exact ⟨e.a, Or.inl rfl, h2.imp offPt_inj offPt_inj, h3⟩
      · rw [← ab _ (Or.inr rfl)] at h3
        exact ⟨e.b, Or.inr rfl, h2.imp offPt_inj offPt_inj, h3⟩
  constructor
  · rintro ⟨h1, h2, h3, h4, h5, h6, h7⟩
    exact ⟨⟨(P.cell.1 h1).1, offSide_sides.2 h2, offSide_sides.2 h3, fun h => h4 (offSide_inj h), (P.crossed (hin e h2)).1 h5,
      (P.crossed (hin f h3)).1 h6, fun h => (hp h2 h3).1 (h7 (hall.2 h))⟩, hr⟩
  · rintro ⟨⟨h1, h2, h3, h4, h5, h6, h7⟩, _⟩
    rw [offSide_sides] at h2 h3
    exact ⟨hcH, h2, h3, fun h => h4 (by rw [h]), (P.crossed (hin e h2)).2 h5, (P.crossed (hin f h3)).2 h6,
      fun h => (hp h2 h3).2 (h7 (hall.1 h))⟩

theorem joined {lev : K} {e f : Side} (h : H.Joined lev e f) : G.Joined lev (offSide i0 j0 e) (offSide i0 j0 f) := by
  obtain ⟨c, hc⟩ : ∃ c, JoinedIn H lev c e f := h
  exact ⟨_, (P.joinedIn.1 hc).1⟩

theorem joined' {lev : K} {e f : Side} (h : G.Joined lev (offSide i0 j0 e) (offSide i0 j0 f)) (he : SideIn H e) (hf : SideIn H f) :
    H.Joined lev e f := by
  obtain ⟨c, hc⟩ : ∃ c, JoinedIn G lev c (offSide i0 j0 e) (offSide i0 j0 f) := h
  have h1 := hc.2.1
  have h2 := hc.2.2.1
  have h3 := hc.2.2.2.1
  obtain ⟨c', rfl, k1, k2⟩ : ∃ c', c = offPt i0 j0 c' ∧ c'.1 + 1 < H.nx ∧ c'.2 + 1 < H.ny := by
    obtain ⟨a, b⟩ := c
    obtain ⟨i, j, v⟩ := e
    obtain ⟨i', j', v'⟩ := f
    unfold SideIn at he hf
    simp only [sides_mem, offSide, Side.mk.injEq, ne_eq, Side.b] at h1 h2 h3 he hf
    refine ⟨(a - i0, b - j0), ?_, ?_, ?_⟩
    · simp only [offPt, Prod.mk.injEq]
      cases v <;> cases v' <;> simp at h1 h2 h3 <;> omega
    · cases v <;> cases v' <;> simp at h1 h2 h3 he hf ⊢ <;> omega
    · cases v <;> cases v' <;> simp at h1 h2 h3 he hf ⊢ <;> omega
  exact ⟨c', P.joinedIn.2 ⟨hc, k1, k2⟩⟩

/-- a closed line of the part is a line of the whole -/
theorem contour {lev : K} {es : List Side} (h : H.IsContour lev es) (hc : es.head? = es.getLast?) :
    G.IsContour lev (es.map (offSide i0 j0)) where
  two := by simpa using h.two
  joined := by
    rw [List.isChain_map]
    exact h.joined.imp fun _ _ hab => P.joined hab
  closed _ := by simpa using h.closed hc
  opened hne := absurd (by rw [List.head?_map, List.getLast?_map, hc]) hne

/-- a closed line of the whole whose sides are in the part is a line of the part -/
theorem contour' {lev : K} {es : List Side} (h : G.IsContour lev (es.map (offSide i0 j0))) (hin : ∀ e ∈ es, SideIn H e)
    (hc : es.head? = es.getLast?) : H.IsContour lev es where
  two := by simpa using h.two
  joined := by
    have := h.joined
    rw [List.isChain_map] at this
    rw [List.isChain_iff_getElem] at this ⊢
    intro k hk
    exact P.joined' (this k hk) (hin _ (List.getElem_mem _)) (hin _ (List.getElem_mem _))
  closed _ := by
    have := h.closed (by rw [List.head?_map, List.getLast?_map, hc])
    simpa using this
  opened hne := absurd hc hne

theorem strict_off {e : Side} (h : SideStrict H e) : SideStrict G (offSide i0 j0 e) := by
  have hx := P.nx
  have hy := P.ny
  obtain ⟨i, j, v⟩ := e
  obtain ⟨⟨h1, h2⟩, h3, h4⟩ := h
  refine ⟨⟨?_, ?_⟩, fun hv => ?_, fun hv => ?_⟩
  · rw [offSide_b]; show i0 + _ < _; omega
  · rw [offSide_b]; show j0 + _ < _; omega
  · have := h3 hv; simp only [offSide] at this ⊢; omega
  · have := h4 hv; simp only [offSide] at this ⊢; omega

/-- the strictly inner lines of the part are lines of the whole -/
theorem lines_up {lev : K} {cs cs' : List (List Side)} (hG : Contours G lev cs) (hH : Contours H lev cs') {es : List Side}
    (hes : es ∈ cs') (hs : ∀ e ∈ es, SideStrict H e) : ∃ es' ∈ cs, SameLine es' (es.map (offSide i0 j0)) := by
  have h1 := P.contour (hH.each es hes) (strict_closed P.masked (hH.each es hes) hs)
  have hn : (body (es.map (offSide i0 j0))).Nodup := by
    rw [body_off, nodup_off]; exact contours_nodup hH hes
  have h2 := h1.two
  obtain ⟨es', hes', hm⟩ := (contours_cover hG).mpr (contour_sides h1 (List.getElem_mem (n := 0) (by omega)))
  exact ⟨es', hes', contour_same (hG.each es' hes') (contours_nodup hG hes') h1 hn hm (List.getElem_mem _)⟩

/-- the strictly inner lines of the whole are lines of the part -/
theorem lines_down {lev : K} {cs cs' : List (List Side)} (hG : Contours G lev cs) (hH : Contours H lev cs') {es : List Side}
    (hes : es ∈ cs) (hs : ∀ e ∈ es, ∃ f, e = offSide i0 j0 f ∧ SideStrict H f) :
    ∃ es' ∈ cs', SameLine es (es'.map (offSide i0 j0)) := by
  obtain ⟨fs, rfl, hfs⟩ : ∃ fs : List Side, es = fs.map (offSide i0 j0) ∧ ∀ f ∈ fs, SideStrict H f := by
    clear hes
    induction es with
    | nil => exact ⟨[], rfl, by simp⟩
    | cons e l ih =>
      obtain ⟨f, rfl, hf⟩ := hs e (by simp)
      obtain ⟨fs, rfl, hfs⟩ := ih fun g hg => hs g (by simp [hg])
      exact ⟨f :: fs, rfl, fun g hg => by rcases List.mem_cons.1 hg with rfl | hg; exacts [hf, hfs g hg]⟩
  have hc : fs.head? = fs.getLast? := by
    have := strict_closed P.masked' (hG.each _ hes) fun e he => by
      obtain ⟨f, hf, rfl⟩ := List.mem_map.1 he
      exact P.strict_off (hfs f hf)
    rw [List.head?_map, List.getLast?_map] at this
    exact Option.map_injective (fun _ _ => offSide_inj) this
  have h1 := P.contour' (hG.each _ hes) (fun e he => (hfs e he).1) hc
  have hn : (body fs).Nodup := by
    rw [← nodup_off (i0 := i0) (j0 := j0), ← body_off]; exact contours_nodup hG hes
  have h2 := h1.two
  obtain ⟨es', hes', hm⟩ := (contours_cover hH).mpr (contour_sides h1 (List.getElem_mem (n := 0) (by omega)))
  exact ⟨es', hes', sameLine_map _ (contour_same h1 hn (hH.each es' hes') (contours_nodup hH hes') (List.getElem_mem _) hm)⟩

/-- the strictly inner lines, as families -/
theorem families {lev : K} {cs cs' : List (List Side)} (hG : Contours G lev cs) (hH : Contours H lev cs')
    {p q : List Side → Bool} (hp : ∀ es ∈ cs, p es = true → ∀ e ∈ es, ∃ f, e = offSide i0 j0 f ∧ SideStrict H f)
    (hq : ∀ es ∈ cs', q es = true → ∀ e ∈ es, SideStrict H e)
    (hpq : ∀ es ∈ cs, ∀ es' ∈ cs', (∀ e, e ∈ es ↔ e ∈ es'.map (offSide i0 j0)) → p es = q es') :
    SameLines ((cs.filter p).map (List.map (G.point lev))) ((cs'.filter q).map (List.map (H.point lev))) := by
  have smem : ∀ {l l' : List Side}, 2 ≤ l.length → SameLine l l' → ∀ e ∈ l, e ∈ l' := by
    intro es es2 h2 hs e he
    obtain ⟨k, hk, rfl⟩ := List.getElem_of_mem he
    by_cases hlt : k + 1 < es.length
    · exact ((hs.2 es[k] es[k + 1]).mp ⟨k, Or.inl ⟨List.getElem?_eq_getElem _, List.getElem?_eq_getElem _⟩⟩).mem.1
    · obtain ⟨j, rfl⟩ : ∃ j, k = j + 1 := ⟨k - 1, by omega⟩
      exact ((hs.2 es[j] es[j + 1]).mp ⟨j, Or.inl ⟨List.getElem?_eq_getElem _, List.getElem?_eq_getElem _⟩⟩).mem.2
  have two : ∀ {l l' : List Side}, 2 ≤ l.length → SameLine l l' → ∀ e, e ∈ l ↔ e ∈ l' := fun h2 hs e =>
    ⟨smem h2 hs e, smem (hs.1 ▸ h2) (sameLine_symm hs) e⟩
  obtain ⟨M, hM, hF⟩ := match_perm (R := fun es es' => es ∈ cs ∧ es' ∈ cs' ∧ SameLine es (es'.map (offSide i0 j0)))
    (cs := cs.filter p) (cs' := cs'.filter q)
    (fun es hes => by
      obtain ⟨h1, h2⟩ := List.mem_filter.1 hes
      obtain ⟨es', h3, h4⟩ := P.lines_down hG hH h1 (hp es h1 h2)
      exact ⟨es', List.mem_filter.2 ⟨h3, hpq es h1 es' h3 (two (hG.each es h1).two h4) ▸ h2⟩, h1, h3, h4⟩)
    (fun es' hes' => by
      obtain ⟨h1, h2⟩ := List.mem_filter.1 hes'
      obtain ⟨es, h3, h4⟩ := P.lines_up hG hH h1 (hq es' h1 h2)
      exact ⟨es, List.mem_filter.2 ⟨h3, (hpq es h3 es' h1 (two (hG.each es h3).two h4)).symm ▸ h2⟩, h3, h1, h4⟩)
    (by
      refine ((List.nodup_flatMap.mp hG.once).2.filter p).imp ?_
      rintro a a' hd b ⟨⟨h1, _, h2⟩, h3, _, h4⟩
      have l2 := (hG.each a h1).two
      have hm := List.getElem_mem (l := a) (n := 0) (by omega)
      exact hd ((mem_body l2).mpr hm) ((mem_body (hG.each a' h3).two).mpr
        ((two (hG.each a' h3).two h4 _).2 ((two l2 h2 _).1 hm))))
    (by
      refine ((List.nodup_flatMap.mp hH.once).2.filter q).imp ?_
      rintro b b' hd a ⟨⟨h1, h2, h3⟩, _, h5, h6⟩
      have l2 := (hH.each b h2).two
      have hm := List.getElem_mem (l := b) (n := 0) (by omega)
      have := (two (hG.each a h1).two h6 _).1 ((two (hG.each a h1).two h3 _).2 (List.mem_map_of_mem (f := offSide i0 j0) hm))
      obtain ⟨g, hg, hge⟩ := List.mem_map.1 this
      rw [offSide_inj hge] at hg
      exact hd ((mem_body l2).mpr hm) ((mem_body (hH.each b' h5).two).mpr hg))
  refine ⟨M.map (List.map (H.point lev)), hM.map _, ?_⟩
  rw [List.forall₂_map_left_iff, List.forall₂_map_right_iff]
  refine hF.imp fun es es' hh => ?_
  have := sameLine_map (G.point lev) hh.2.2
  rw [List.map_map] at this
  have e : es'.map (H.point lev) = es'.map (G.point lev ∘ offSide i0 j0) :=
    List.map_congr_left fun e he => P.point (inMesh_sideIn (contour_sides (hH.each es' hh.2.1) he).1)
  rw [e]
  exact this

end PartOf

theorem sameLines_symm {α : Type} {L L' : List (List α)} (h : SameLines L L') : SameLines L' L := by
  obtain ⟨M, hM, hF⟩ := h
  obtain ⟨N, h1, h2⟩ := List.perm_comp_forall₂ hM.symm (List.Forall₂.flip (hF.imp fun _ _ hh => hh))
  exact ⟨N, h2, h1.imp fun _ _ hh => sameLine_symm hh⟩

end Trackeddy.Cntr
