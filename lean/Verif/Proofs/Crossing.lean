import Verif.Proofs.Saddle
import Verif.Proofs.Cntr.Unique
import Verif.Spec.Crossing
import Mathlib.Tactic.LinearCombination

/-!
Pieces of contour lines of a rectilinear grid: those of different levels have no point in common, those of one level only
common vertices.
-/
namespace Trackeddy.Crossing
open Trackeddy.Spec Trackeddy.UnitCell Trackeddy.Cntr

set_option linter.unusedSectionVars false

variable {K : Type} [Field K] [LinearOrder K] [IsStrictOrderedRing K]

def bn (s : Bool) : ℕ := if s then 1 else 0

/-- corner and side of a cell -/
def cornerAt (c : ℕ × ℕ) (k : Bool × Bool) : ℕ × ℕ := (c.1 + bn k.1, c.2 + bn k.2)
def sideAt (c : ℕ × ℕ) (s : Bool × Bool) : Side := if s.1 then ⟨c.1 + bn s.2, c.2, true⟩ else ⟨c.1, c.2 + bn s.2, false⟩

theorem sideAt_ends (c : ℕ × ℕ) (s : Bool × Bool) :
    (sideAt c s).a = cornerAt c (fstEnd s) ∧ (sideAt c s).b = cornerAt c (sndEnd s) := by
  obtain ⟨v, p⟩ := s
  cases v <;> cases p <;> simp [sideAt, cornerAt, fstEnd, sndEnd, bn, Side.a, Side.b]

theorem mem_sideAt {c : ℕ × ℕ} {e : Side} : e ∈ sidesOf c ↔ ∃ s, e = sideAt c s := by
  rw [sides_mem]
  constructor
  · rintro (rfl | rfl | rfl | rfl)
    · exact ⟨(false, false), rfl⟩
    · exact ⟨(true, true), rfl⟩
    · exact ⟨(false, true), rfl⟩
    · exact ⟨(true, false), rfl⟩
  · rintro ⟨⟨v, p⟩, rfl⟩
    cases v <;> cases p <;> simp [sideAt, bn]

theorem sideAt_inj {c : ℕ × ℕ} {s s' : Bool × Bool} (h : sideAt c s = sideAt c s') : s = s' := by
  obtain ⟨v, p⟩ := s
  obtain ⟨v', p'⟩ := s'
  cases v <;> cases p <;> cases v' <;> cases p' <;> simp [sideAt, bn] at h ⊢

theorem cornerAt_inj {c : ℕ × ℕ} {s s' : Bool × Bool} (h : cornerAt c s = cornerAt c s') : s = s' := by
  obtain ⟨v, p⟩ := s
  obtain ⟨v', p'⟩ := s'
  obtain ⟨i, j⟩ := c
  cases v <;> cases p <;> cases v' <;> cases p' <;> simp [cornerAt, bn] at h ⊢

/-- values at the corners of a cell -/
def cellVals (G : Grid K) (c : ℕ × ℕ) : Vals K := fun k => G.z (cornerAt c k)

/-- the values have a partner in the unit cell -/
theorem jn_of_joined {G : Grid K} {lev : K} {c : ℕ × ℕ} {e e' : Side} (h : JoinedIn G lev c e e') :
    ∃ s s', e = sideAt c s ∧ e' = sideAt c s' ∧ Jn (cellVals G c) lev (G.CentreAbove lev c) s s' := by
  obtain ⟨hc, he, he', hne, h1, h2, h3⟩ := h
  obtain ⟨s, rfl⟩ := mem_sideAt.1 he
  obtain ⟨s', rfl⟩ := mem_sideAt.1 he'
  have cr : ∀ s, Cr (cellVals G c) lev s ↔ G.Crossed lev (sideAt c s) := by
    intro s
    unfold Cr Grid.Crossed
    rw [(sideAt_ends c s).1, (sideAt_ends c s).2]
    rfl
  refine ⟨s, s', rfl, rfl, fun h => hne (by rw [h]), (cr s).2 h1, (cr s').2 h2, fun hall => ?_⟩
  obtain ⟨p, p1, p2, p3⟩ := h3 fun g hg => by
    obtain ⟨r, rfl⟩ := mem_sideAt.1 hg
    exact (cr r).1 (hall r)
  rw [(sideAt_ends c s).1, (sideAt_ends c s).2] at p1
  rw [(sideAt_ends c s').1, (sideAt_ends c s').2] at p2
  rcases p1 with rfl | rfl
  · exact ⟨fstEnd s, Or.inl rfl, p2.imp cornerAt_inj cornerAt_inj, p3⟩
  · exact ⟨sndEnd s, Or.inr rfl, p2.imp cornerAt_inj cornerAt_inj, p3⟩

/-- from the unit cell to the cell between two columns and two rows -/
def place (xs ys : ℕ → K) (c : ℕ × ℕ) (p : K × K) : K × K :=
  (xs c.1 + p.1 * (xs (c.1 + 1) - xs c.1), ys c.2 + p.2 * (ys (c.2 + 1) - ys c.2))

variable {G : Grid K} {xs ys : ℕ → K}

theorem point_vtx (hg : ∀ i j, i < G.nx → j < G.ny → G.x (i, j) = xs i ∧ G.y (i, j) = ys j) {c : ℕ × ℕ} (hc : G.IsCell c) (lev : K)
    (s : Bool × Bool) : G.point lev (sideAt c s) = (vtx (cellVals G c) lev s).map (place xs ys c) := by
  have hx : ∀ k : Bool × Bool, G.x (cornerAt c k) = xs c.1 + (cpt k : K × K).1 * (xs (c.1 + 1) - xs c.1) ∧
      G.y (cornerAt c k) = ys c.2 + (cpt k : K × K).2 * (ys (c.2 + 1) - ys c.2) := by
    obtain ⟨h1, h2, _⟩ := hc
    rintro ⟨a, b⟩
    have := hg (c.1 + bn a) (c.2 + bn b) (by cases a <;> simp [bn] <;> omega) (by cases b <;> simp [bn] <;> omega)
    refine ⟨this.1.trans ?_, this.2.trans ?_⟩
    · cases a <;> simp [bn, cpt, bk]
    · cases b <;> simp [bn, cpt, bk]
  unfold Grid.point UnitCell.vtx cellVals
  rw [(sideAt_ends c s).1, (sideAt_ends c s).2]
  cases G.z (cornerAt c (fstEnd s)) with
  | none => rfl
  | some u =>
    cases G.z (cornerAt c (sndEnd s)) with
    | none => rfl
    | some v =>
      simp only [Option.map_some, Option.some.injEq, place, (hx _).1, (hx _).2, Prod.mk.injEq]
      constructor <;> ring

/-- a piece in a cell -/
structure CellPiece (G : Grid K) (xs ys : ℕ → K) (lev : K) (c : ℕ × ℕ) (e e' : Side) (p q : K × K) : Prop where
  ex : ∃ s s', e = sideAt c s ∧ e' = sideAt c s' ∧ Jn (cellVals G c) lev (G.CentreAbove lev c) s s' ∧
    ∃ u v, vtx (cellVals G c) lev s = some u ∧ vtx (cellVals G c) lev s' = some v ∧ p = place xs ys c u ∧ q = place xs ys c v

theorem cellPiece_of (hg : ∀ i j, i < G.nx → j < G.ny → G.x (i, j) = xs i ∧ G.y (i, j) = ys j) {lev : K} {c : ℕ × ℕ} {e e' : Side}
    (h : JoinedIn G lev c e e') {p q : K × K} (hp : G.point lev e = some p) (hq : G.point lev e' = some q) :
    CellPiece G xs ys lev c e e' p q := by
  obtain ⟨s, s', rfl, rfl, J⟩ := jn_of_joined h
  rw [point_vtx hg h.1, Option.map_eq_some_iff] at hp hq
  obtain ⟨u, hu, rfl⟩ := hp
  obtain ⟨v, hv, rfl⟩ := hq
  exact ⟨s, s', rfl, rfl, J, u, v, hu, hv, rfl, rfl⟩

/-- point between two vertices -/
def mix (p q : K × K) (τ : K) : K × K := (p.1 + τ * (q.1 - p.1), p.2 + τ * (q.2 - p.2))

theorem place_mix (c : ℕ × ℕ) (u v : K × K) (τ : K) : mix (place xs ys c u) (place xs ys c v) τ = place xs ys c (mix u v τ) := by
  unfold mix place
  exact Prod.ext (by simp only; ring) (by simp only; ring)

theorem axis_ne {n : ℕ} {f : ℕ → K} (h : StrictAxis n f) {i : ℕ} (hi : i + 1 < n) : f (i + 1) - f i ≠ 0 := by
  rcases h with h | h
  · have := h i (i + 1) (by omega) hi; intro h0; linarith
  · have := h i (i + 1) (by omega) hi; intro h0; linarith

/-- a coordinate in two intervals of an axis is at their common end -/
theorem axis_overlap {n : ℕ} {f : ℕ → K} (h : StrictAxis n f) {i i' : ℕ} (hi : i + 1 < n) (hi' : i' + 1 < n) {u u' : K}
    (hu : 0 ≤ u ∧ u ≤ 1) (hu' : 0 ≤ u' ∧ u' ≤ 1) (he : f i + u * (f (i + 1) - f i) = f i' + u' * (f (i' + 1) - f i')) (hlt : i < i') :
    i' = i + 1 ∧ u = 1 ∧ u' = 0 := by
  have key : ∀ g : ℕ → K, (∀ i j, i < j → j < n → g i < g j) → g i + u * (g (i + 1) - g i) = g i' + u' * (g (i' + 1) - g i') →
      i' = i + 1 ∧ u = 1 ∧ u' = 0 := by
    intro g hm he
    have h1 := hm i (i + 1) (by omega) hi
    have h2 := hm i' (i' + 1) (by omega) hi'
    have a1 := mul_nonneg (sub_nonneg.mpr hu.2) (sub_nonneg.mpr h1.le)
    have a2 := mul_nonneg hu'.1 (sub_nonneg.mpr h2.le)
    have h3 : g (i + 1) ≤ g i' := by
      rcases Nat.lt_or_ge (i + 1) i' with h | h
      · exact (hm _ _ h (by omega)).le
      · have : i' = i + 1 := by omega
        rw [this]
    have b : g (i + 1) = g i' := by linarith
    have b1 : i' = i + 1 := by
      by_contra hne
      have := hm (i + 1) i' (by omega) (by omega)
      linarith
    refine ⟨b1, ?_, ?_⟩
    · have : (1 - u) * (g (i + 1) - g i) = 0 := by linarith
      rcases mul_eq_zero.mp this with h | h <;> linarith
    · have : u' * (g (i' + 1) - g i') = 0 := by linarith
      rcases mul_eq_zero.mp this with h | h
      · exact h
      · linarith
  rcases h with h | h
  · exact key f h he
  · refine key (fun i => - f i) (fun i j h1 h2 => neg_lt_neg (h i j h1 h2)) ?_
    linear_combination (-1 : K) * he

theorem place_inj (hx : StrictAxis G.nx xs) (hy : StrictAxis G.ny ys) {c : ℕ × ℕ} (hc : G.IsCell c) {u v : K × K}
    (h : place xs ys c u = place xs ys c v) : u = v := by
  unfold place at h
  rw [Prod.mk.injEq] at h
  refine Prod.ext ?_ ?_
  · exact mul_right_cancel₀ (axis_ne hx hc.1) (by linear_combination h.1)
  · exact mul_right_cancel₀ (axis_ne hy hc.2.1) (by linear_combination h.2)

theorem mix_range {Z : Vals K} {l : K} {ctr : Prop} {e e' : Bool × Bool} (J : Jn Z l ctr e e') {p q : K × K} (hp : vtx Z l e = some p)
    (hq : vtx Z l e' = some q) {τ : K} (ht : 0 ≤ τ ∧ τ ≤ 1) :
    (0 ≤ (mix p q τ).1 ∧ (mix p q τ).1 ≤ 1) ∧ (0 ≤ (mix p q τ).2 ∧ (mix p q τ).2 ≤ 1) := by
  obtain ⟨a1, a2, a3, a4, _⟩ := vtx_range (false, false) J.cr hp
  obtain ⟨b1, b2, b3, b4, _⟩ := vtx_range (false, false) J.cr' hq
  simp only [du, dv, Bool.false_eq_true, if_false] at *
  have key : ∀ x y : K, 0 ≤ x → x ≤ 1 → 0 ≤ y → y ≤ 1 → 0 ≤ x + τ * (y - x) ∧ x + τ * (y - x) ≤ 1 := by
    intro x y h1 h2 h3 h4
    have e1 := mul_nonneg (sub_nonneg.mpr ht.2) h1
    have e2 := mul_nonneg ht.1 h3
    have e3 := mul_nonneg (sub_nonneg.mpr ht.2) (sub_nonneg.mpr h2)
    have e4 := mul_nonneg ht.1 (sub_nonneg.mpr h4)
    constructor <;> linarith
  exact ⟨key _ _ a1 a2 b1 b2, key _ _ a3 a4 b3 b4⟩

/-- what a common point of pieces in different cells says: both have their level there, on a side of both cells -/
theorem two_pieces {xs ys : ℕ → K} (hx : StrictAxis G.nx xs) (hy : StrictAxis G.ny ys) {l l' : K} {c c' : ℕ × ℕ} (hc : G.IsCell c)
    (hc' : G.IsCell c') (hlt : c.1 < c'.1 ∨ c.1 = c'.1 ∧ c.2 < c'.2) {ctr ctr' : Prop} {s s' r r' : Bool × Bool}
    (J : Jn (cellVals G c) l ctr s s') (J' : Jn (cellVals G c') l' ctr' r r') {p q p' q' : K × K}
    (hp : vtx (cellVals G c) l s = some p) (hq : vtx (cellVals G c) l s' = some q) (hp' : vtx (cellVals G c') l' r = some p')
    (hq' : vtx (cellVals G c') l' r' = some q') {τ σ : K} (ht : 0 ≤ τ ∧ τ ≤ 1) (hs : 0 ≤ σ ∧ σ ≤ 1)
    (he : place xs ys c (mix p q τ) = place xs ys c' (mix p' q' σ)) :
    l = l' ∧ ((∀ k, cellVals G c k ≠ some l) → (∀ k, cellVals G c' k ≠ some l') → ∃ e, 
      (e = sideAt c s ∧ τ = 0 ∨ e = sideAt c s' ∧ τ = 1) ∧ (e = sideAt c' r ∧ σ = 0 ∨ e = sideAt c' r' ∧ σ = 1)) := by
  have h01 : (0 : K) ≠ 1 := zero_ne_one
  obtain ⟨ra1, ra2⟩ := mix_range J hp hq ht
  obtain ⟨rb1, rb2⟩ := mix_range J' hp' hq' hs
  unfold place at he
  rw [Prod.mk.injEq] at he
  obtain ⟨he1, he2⟩ := he
  obtain ⟨i, j⟩ := c
  obtain ⟨i', j'⟩ := c'
  simp only at *
  rcases hlt with hlt | ⟨rfl, hlt⟩
  · obtain ⟨rfl, u1, u0⟩ := axis_overlap hx hc.1 hc'.1 ra1 rb1 he1 hlt
    obtain ⟨A1, A2⟩ := piece_on_v (s := true) J hp hq ht u1
    obtain ⟨B1, B2⟩ := piece_on_v (s := false) J' hp' hq' hs u0
    change EdgeVal _ _ (mix p q τ).2 l at A1
    change EdgeVal _ _ (mix p' q' σ).2 l' at B1
    rcases lt_trichotomy j j' with hj | rfl | hj
    · obtain ⟨rfl, v1, v0⟩ := axis_overlap hy hc.2.1 hc'.2.1 ra2 rb2 he2 hj
      rw [v1] at A1
      rw [v0] at B1
      have a := A1.at_one h01
      have b := B1.at_zero h01
      have : cellVals G (i, j) (true, true) = cellVals G (i + 1, j + 1) (false, false) := rfl
      rw [this, b] at a
      refine ⟨(Option.some.inj a).symm, fun _ h => absurd b (h _)⟩
    · have hv : (mix p q τ).2 = (mix p' q' σ).2 := mul_right_cancel₀ (axis_ne hy hc.2.1) (by linear_combination he2)
      rw [hv] at A1
      refine ⟨EdgeVal.unique A1 B1 h01, fun t1 t2 => ⟨⟨i + 1, j, true⟩, ?_, ?_⟩⟩
      · rcases A2 t1 with ⟨rfl, h⟩ | ⟨rfl, h⟩
        · exact Or.inl ⟨rfl, h⟩
        · exact Or.inr ⟨rfl, h⟩
      · rcases B2 t2 with ⟨rfl, h⟩ | ⟨rfl, h⟩
        · exact Or.inl ⟨rfl, h⟩
        · exact Or.inr ⟨rfl, h⟩
    · obtain ⟨hjj, v1, v0⟩ := axis_overlap hy hc'.2.1 hc.2.1 rb2 ra2 he2.symm hj
      change j = j' + 1 at hjj
      subst hjj
      rw [v0] at A1
      rw [v1] at B1
      have a := A1.at_zero h01
      have b := B1.at_one h01
      have : cellVals G (i, j' + 1) (true, false) = cellVals G (i + 1, j') (false, true) := rfl
      rw [this, b] at a
      refine ⟨(Option.some.inj a).symm, fun _ h => absurd b (h _)⟩
  · obtain ⟨rfl, v1, v0⟩ := axis_overlap hy hc.2.1 hc'.2.1 ra2 rb2 he2 hlt
    obtain ⟨A1, A2⟩ := piece_on_h (t := true) J hp hq ht v1
    obtain ⟨B1, B2⟩ := piece_on_h (t := false) J' hp' hq' hs v0
    change EdgeVal _ _ (mix p q τ).1 l at A1
    change EdgeVal _ _ (mix p' q' σ).1 l' at B1
    have hv : (mix p q τ).1 = (mix p' q' σ).1 := mul_right_cancel₀ (axis_ne hx hc.1) (by linear_combination he1)
    rw [hv] at A1
    refine ⟨EdgeVal.unique A1 B1 h01, fun t1 t2 => ⟨⟨i, j + 1, false⟩, ?_, ?_⟩⟩
    · rcases A2 t1 with ⟨rfl, h⟩ | ⟨rfl, h⟩
      · exact Or.inl ⟨rfl, h⟩
      · exact Or.inr ⟨rfl, h⟩
    · rcases B2 t2 with ⟨rfl, h⟩ | ⟨rfl, h⟩
      · exact Or.inl ⟨rfl, h⟩
      · exact Or.inr ⟨rfl, h⟩

theorem cells_order {c c' : ℕ × ℕ} (h : c ≠ c') : (c.1 < c'.1 ∨ c.1 = c'.1 ∧ c.2 < c'.2) ∨ (c'.1 < c.1 ∨ c'.1 = c.1 ∧ c'.2 < c.2) := by
  by_contra hn
  push Not at hn
  exact h (Prod.ext (by omega) (by omega))

theorem centre_mono {G : Grid K} {l l' : K} (h : l < l') {c : ℕ × ℕ} (hc : G.CentreAbove l' c) : G.CentreAbove l c := by
  obtain ⟨p, q, r, s, h1, h2, h3, h4, h5⟩ := hc
  exact ⟨p, q, r, s, h1, h2, h3, h4, h.trans h5⟩

/-- pieces of different levels have no point in common -/
theorem pieces_levels (hG : G.Rect) {l l' : K} (hne : l ≠ l') {e e' f f' : Side} (h : G.Joined l e e') (h' : G.Joined l' f f')
    {p q p' q' : K × K} (hp : G.point l e = some p) (hq : G.point l e' = some q) (hp' : G.point l' f = some p')
    (hq' : G.point l' f' = some q') {τ σ : K} (ht : 0 ≤ τ ∧ τ ≤ 1) (hs : 0 ≤ σ ∧ σ ≤ 1) : mix p q τ ≠ mix p' q' σ := by
  obtain ⟨xs, ys, hg, hx, hy⟩ := hG
  obtain ⟨c, hj⟩ : ∃ c, JoinedIn G l c e e' := h
  obtain ⟨c', hj'⟩ : ∃ c, JoinedIn G l' c f f' := h'
  obtain ⟨s, s', rfl, rfl, J, u, v, hu, hv, rfl, rfl⟩ := (cellPiece_of hg hj hp hq).ex
  obtain ⟨r, r', rfl, rfl, J', u', v', hu', hv', rfl, rfl⟩ := (cellPiece_of hg hj' hp' hq').ex
  rw [place_mix, place_mix]
  intro he
  by_cases hc : c = c'
  · subst hc
    have he := place_inj hx hy hj.1 he
    rcases lt_or_gt_of_ne hne with hl | hl
    · exact pieces_apart hl (centre_mono hl) J J' hu hv hu' hv' ht hs he
    · exact pieces_apart hl (centre_mono hl) J' J hu' hv' hu hv hs ht he.symm
  · rcases cells_order hc with hlt | hlt
    · exact hne (two_pieces hx hy hj.1 hj'.1 hlt J J' hu hv hu' hv' ht hs he).1
    · exact hne (two_pieces hx hy hj'.1 hj.1 hlt J' J hu' hv' hu hv hs ht he.symm).1.symm

theorem cell_misses {l : K} (hm : G.Misses l) {c : ℕ × ℕ} (hc : G.IsCell c) (k : Bool × Bool) : cellVals G c k ≠ some l := by
  obtain ⟨h1, h2, _⟩ := hc
  obtain ⟨a, b⟩ := k
  exact hm _ _ (by cases a <;> simp [bn] <;> omega) (by cases b <;> simp [bn] <;> omega)

/-- pieces of one level: they are the same or have only a vertex in common -/
theorem pieces_same (hG : G.Rect) {l : K} (hm : G.Misses l) {e e' f f' : Side} (h : G.Joined l e e') (h' : G.Joined l f f')
    {p q p' q' : K × K} (hp : G.point l e = some p) (hq : G.point l e' = some q) (hp' : G.point l f = some p')
    (hq' : G.point l f' = some q') {τ σ : K} (ht : 0 ≤ τ ∧ τ ≤ 1) (hs : 0 ≤ σ ∧ σ ≤ 1) (he : mix p q τ = mix p' q' σ) :
    (e = f ∧ e' = f' ∨ e = f' ∧ e' = f) ∨
      ∃ g, (g = e ∧ τ = 0 ∨ g = e' ∧ τ = 1) ∧ (g = f ∧ σ = 0 ∨ g = f' ∧ σ = 1) := by
  obtain ⟨xs, ys, hg, hx, hy⟩ := hG
  obtain ⟨c, hj⟩ : ∃ c, JoinedIn G l c e e' := h
  obtain ⟨c', hj'⟩ : ∃ c, JoinedIn G l c f f' := h'
  by_cases hc : c = c'
  · subst hc
    left
    by_cases n1 : f = e
    · subst n1; exact Or.inl ⟨rfl, hj.unique hj'⟩
    by_cases n2 : f = e'
    · subst n2; exact Or.inr ⟨hj.symm.unique hj', rfl⟩
    by_cases n3 : f' = e
    · subst n3; exact absurd (hj.unique hj'.symm).symm n2
    by_cases n4 : f' = e'
    · subst n4; exact absurd (hj.symm.unique hj'.symm).symm n1
    exfalso
    obtain ⟨s, s', rfl, rfl, J, u, v, hu, hv, rfl, rfl⟩ := (cellPiece_of hg hj hp hq).ex
    obtain ⟨r, r', rfl, rfl, J', u', v', hu', hv', rfl, rfl⟩ := (cellPiece_of hg hj' hp' hq').ex
    rw [place_mix, place_mix] at he
    exact saddle_apart (cell_misses hm hj.1) J J' (fun h => n1 (by rw [h])) (fun h => n2 (by rw [h])) (fun h => n3 (by rw [h]))
      (fun h => n4 (by rw [h])) hu hv hu' hv' hs (place_inj hx hy hj.1 he)
  · right
    obtain ⟨s, s', rfl, rfl, J, u, v, hu, hv, rfl, rfl⟩ := (cellPiece_of hg hj hp hq).ex
    obtain ⟨r, r', rfl, rfl, J', u', v', hu', hv', rfl, rfl⟩ := (cellPiece_of hg hj' hp' hq').ex
    rw [place_mix, place_mix] at he
    rcases cells_order hc with hlt | hlt
    · exact (two_pieces hx hy hj.1 hj'.1 hlt J J' hu hv hu' hv' ht hs he).2 (cell_misses hm hj.1) (cell_misses hm hj'.1)
    · obtain ⟨g, h1, h2⟩ := (two_pieces hx hy hj'.1 hj.1 hlt J' J hu' hv' hu hv hs ht he.symm).2 (cell_misses hm hj'.1) (cell_misses hm hj.1)
      exact ⟨g, h2, h1⟩

/-- the ends of a piece differ -/
theorem piece_proper (hG : G.Rect) {l : K} (hm : G.Misses l) {e e' : Side} (h : G.Joined l e e') {p q : K × K}
    (hp : G.point l e = some p) (hq : G.point l e' = some q) : p ≠ q := by
  obtain ⟨xs, ys, hg, hx, hy⟩ := hG
  obtain ⟨c, hj⟩ : ∃ c, JoinedIn G l c e e' := h
  obtain ⟨⟨a, b⟩, s', rfl, rfl, J, u, v, hu, hv, rfl, rfl⟩ := (cellPiece_of hg hj hp hq).ex
  intro he
  have he := place_inj hx hy hj.1 he
  subst he
  have hne := J.ne
  have hh := J.flip
  cases a
  · have h1 : (u.2, u.1).1 = (bk b : K) := by
      obtain ⟨x, y, -, -, rfl⟩ := vtx_some hu
      simp [fstEnd, sndEnd, cpt]
    rcases vtx_on_v hh.cr' (vtx_flip hv) h1 with ⟨h2, -⟩ | ⟨t, -, -, h4⟩
    · apply hne
      have a1 := congrArg Prod.fst h2
      have a2 := congrArg Prod.snd h2
      simp only [flipS] at a1 a2
      exact Prod.ext (by simpa using a1.symm) a2.symm
    · exact cell_misses hm hj.1 _ h4
  · have h1 : u.1 = (bk b : K) := by
      obtain ⟨x, y, -, -, rfl⟩ := vtx_some hu
      simp [fstEnd, sndEnd, cpt]
    rcases vtx_on_v J.cr' hv h1 with ⟨h2, -⟩ | ⟨t, -, -, h4⟩
    · exact hne h2.symm
    · exact cell_misses hm hj.1 _ h4

/-! ### lines -/

theorem onPiece_sides {G : Grid K} {l : K} {es : List Side} (h : G.IsContour l es) {k : ℕ} {P : K × K}
    (hP : OnPiece (es.map (G.point l)) k P) : ∃ e e' p q τ, es[k]? = some e ∧ es[k + 1]? = some e' ∧ G.Joined l e e' ∧
      G.point l e = some p ∧ G.point l e' = some q ∧ (0 ≤ τ ∧ τ ≤ 1) ∧ P = mix p q τ := by
  obtain ⟨p, q, τ, h1, h2, h3, h4, h5⟩ := hP
  rw [List.getElem?_map, Option.map_eq_some_iff] at h1 h2
  obtain ⟨e, he, hp⟩ := h1
  obtain ⟨e', he', hq⟩ := h2
  refine ⟨e, e', p, q, τ, he, he', ?_, hp, hq, ⟨h3, h4⟩, h5⟩
  have hch := h.joined
  rw [List.isChain_iff_getElem] at hch
  obtain ⟨a1, rfl⟩ := List.getElem?_eq_some_iff.1 he
  obtain ⟨a2, rfl⟩ := List.getElem?_eq_some_iff.1 he'
  exact hch k a2

theorem lines_levels (hG : G.Rect) {l l' : K} (hne : l ≠ l') {es es' : List Side} (h : G.IsContour l es) (h' : G.IsContour l' es') :
    ¬ Meet (es.map (G.point l)) (es'.map (G.point l')) := by
  rintro ⟨P, k, k', hP, hP'⟩
  obtain ⟨e, e', p, q, τ, -, -, J, hp, hq, ht, rfl⟩ := onPiece_sides h hP
  obtain ⟨f, f', p', q', σ, -, -, J', hp', hq', hs, he⟩ := onPiece_sides h' hP'
  exact pieces_levels hG hne J J' hp hq hp' hq' ht hs he

theorem mem_body_of {es : List Side} (h : 2 ≤ es.length) {k : ℕ} {e : Side} (he : es[k]? = some e) : e ∈ body es := by
  have hm := List.mem_of_getElem? he
  unfold body
  split
  · rename_i hc
    cases es with
    | nil => simp at hm
    | cons a t =>
      rcases List.mem_cons.1 hm with rfl | hm
      · cases t with
        | nil => simp at h
        | cons b t =>
          simp only [List.head?_cons, List.getLast?_cons_cons] at hc
          exact List.mem_of_getLast? hc.symm
      · exact hm
  · exact hm

theorem lines_apart (hG : G.Rect) {l : K} (hm : G.Misses l) {cs : List (List Side)} (hcs : Contours G l cs) {m m' : ℕ} (hmm : m ≠ m')
    {es es' : List Side} (h : cs[m]? = some es) (h' : cs[m']? = some es') :
    ¬ Meet (es.map (G.point l)) (es'.map (G.point l)) := by
  have c1 := hcs.each es (List.mem_of_getElem? h)
  have c2 := hcs.each es' (List.mem_of_getElem? h')
  have hdis : ∀ g, g ∈ body es → g ∈ body es' → False := by
    have hn := hcs.once
    rw [List.nodup_flatMap] at hn
    have hn := hn.2
    rw [List.pairwise_iff_getElem] at hn
    obtain ⟨a1, rfl⟩ := List.getElem?_eq_some_iff.1 h
    obtain ⟨a2, rfl⟩ := List.getElem?_eq_some_iff.1 h'
    intro g g1 g2
    rcases Nat.lt_or_gt_of_ne hmm with hlt | hlt
    · exact hn m m' a1 a2 hlt g1 g2
    · exact hn m' m a2 a1 hlt g2 g1
  rintro ⟨P, k, k', hP, hP'⟩
  obtain ⟨e, e', p, q, τ, i1, i2, J, hp, hq, ht, rfl⟩ := onPiece_sides c1 hP
  obtain ⟨f, f', p', q', σ, i3, i4, J', hp', hq', hs, he⟩ := onPiece_sides c2 hP'
  have me := mem_body_of c1.two i1
  have me' := mem_body_of c1.two i2
  have mf := mem_body_of c2.two i3
  have mf' := mem_body_of c2.two i4
  rcases pieces_same hG hm J J' hp hq hp' hq' ht hs he with (⟨rfl, _⟩ | ⟨rfl, _⟩) | ⟨g, (⟨rfl, _⟩ | ⟨rfl, _⟩), (⟨rfl, _⟩ | ⟨rfl, _⟩)⟩
  · exact hdis _ me mf
  · exact hdis _ me mf'
  · exact hdis _ me mf
  · exact hdis _ me mf'
  · exact hdis _ me' mf
  · exact hdis _ me' mf'

/-- a side occurs once in a contour, or at both ends of a closed one -/
theorem index_once {es : List Side} (hb : (body es).Nodup) {a b : ℕ} (hab : a < b) {e : Side} (ha : es[a]? = some e)
    (hbb : es[b]? = some e) : a = 0 ∧ b + 1 = es.length := by
  unfold body at hb
  split at hb
  · rename_i hc
    cases es with
    | nil => simp at ha
    | cons x t =>
      obtain ⟨b, rfl⟩ : ∃ b', b = b' + 1 := ⟨b - 1, by omega⟩
      rw [List.getElem?_cons_succ] at hbb
      obtain ⟨l1, hbb⟩ := List.getElem?_eq_some_iff.1 hbb
      rw [List.tail_cons, List.nodup_iff_injective_get] at hb
      cases a with
      | zero =>
        refine ⟨rfl, ?_⟩
        simp only [List.getElem?_cons_zero, Option.some.injEq] at ha
        subst ha
        have hl : 0 < t.length := by omega
        have hlast : t[t.length - 1]'(by omega) = x := by
          cases t with
          | nil => simp at hl
          | cons y t =>
            simp only [List.head?_cons, List.getLast?_cons_cons] at hc
            rw [List.getLast?_eq_getElem?] at hc
            have := (List.getElem?_eq_some_iff.1 hc.symm).2
            exact this
        have := @hb ⟨b, l1⟩ ⟨t.length - 1, by omega⟩ (by simp only [List.get_eq_getElem]; rw [hbb, hlast])
        simp only [Fin.mk.injEq] at this
        simp only [List.length_cons]
        omega
      | succ a =>
        rw [List.getElem?_cons_succ] at ha
        obtain ⟨l2, ha⟩ := List.getElem?_eq_some_iff.1 ha
        have := @hb ⟨a, l2⟩ ⟨b, l1⟩ (by simp only [List.get_eq_getElem]; rw [ha, hbb])
        simp only [Fin.mk.injEq] at this
        omega
  · exfalso
    obtain ⟨l2, ha⟩ := List.getElem?_eq_some_iff.1 ha
    obtain ⟨l1, hbb⟩ := List.getElem?_eq_some_iff.1 hbb
    rw [List.nodup_iff_injective_get] at hb
    have := @hb ⟨a, l2⟩ ⟨b, l1⟩ (by simp only [List.get_eq_getElem]; rw [ha, hbb])
    simp only [Fin.mk.injEq] at this
    omega

theorem line_simple (hG : G.Rect) {l : K} (hm : G.Misses l) {cs : List (List Side)} (hcs : Contours G l cs) {es : List Side}
    (h : es ∈ cs) : Simple (es.map (G.point l)) := by
  have hc := hcs.each es h
  have hb : (body es).Nodup := by
    have hn := hcs.once
    rw [List.nodup_flatMap] at hn
    exact hn.1 es h
  constructor
  · intro k k' P hlt hP hP'
    obtain ⟨e, e', p, q, τ, i1, i2, J, hp, hq, ht, rfl⟩ := onPiece_sides hc hP
    obtain ⟨f, f', p', q', σ, i3, i4, J', hp', hq', hs, he⟩ := onPiece_sides hc hP'
    have hlen : k' + 1 < es.length := (List.getElem?_eq_some_iff.1 i4).1
    have m0 : mix p q 0 = p := by simp [mix]
    have m1 : mix p q 1 = q := by simp [mix]
    simp only [List.getElem?_map, List.length_map]
    rcases pieces_same hG hm J J' hp hq hp' hq' ht hs he with (⟨rfl, rfl⟩ | ⟨rfl, rfl⟩) | ⟨g, (⟨rfl, rfl⟩ | ⟨rfl, rfl⟩), (⟨rfl, rfl⟩ | ⟨rfl, rfl⟩)⟩
    · have := index_once hb hlt i1 i3
      omega
    · by_cases h1 : k' = k + 1
      · have := index_once hb (by omega) i1 i4
        have h5 := hc.closed (by
          rw [List.head?_eq_getElem?, List.getLast?_eq_getElem?]
          rw [show es.length - 1 = k' + 1 by omega, i4, ← this.1, i1])
        omega
      · have := index_once hb (by omega) i2 i3
        omega
    · have := index_once hb hlt i1 i3
      omega
    · have := index_once hb (by omega) i1 i4
      obtain ⟨rfl, h2⟩ := this
      exact Or.inr ⟨rfl, h2, by rw [i1, m0, ← hp]; rfl, by rw [i4, m0, ← hp]; rfl⟩
    · rcases Nat.lt_or_ge (k + 1) k' with h1 | h1
      · have := index_once hb h1 i2 i3
        omega
      · have : k' = k + 1 := by omega
        subst this
        exact Or.inl ⟨rfl, by rw [i2, m1, ← hq]; rfl⟩
    · have := index_once hb (by omega) i2 i4
      omega
  · intro k p h1 h2
    obtain ⟨e, e', p', q', τ, i1, i2, J, hp, hq, -, -⟩ := onPiece_sides (P := mix p p 0) hc ⟨p, p, 0, h1, h2, le_rfl, zero_le_one, rfl⟩
    rw [List.getElem?_map, i1, Option.map_some, hp, Option.some.injEq, Option.some.injEq] at h1
    rw [List.getElem?_map, i2, Option.map_some, hq, Option.some.injEq, Option.some.injEq] at h2
    exact piece_proper hG hm J hp hq (h1.trans h2.symm)

end Trackeddy.Crossing
