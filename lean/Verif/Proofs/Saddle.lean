import Mathlib.Algebra.Order.Field.Basic
import Mathlib.Tactic.Linarith
import Mathlib.Tactic.Ring
import Mathlib.Tactic.FieldSimp
import Mathlib.Tactic.Positivity
import Mathlib.Data.Fintype.Prod

/-!
The pieces of contour lines in one cell of the grid, in coordinates in which the cell is the unit square: for each piece there is an
affine function that vanishes on it and is positive on the pieces of higher levels, or negative on those of lower levels.
-/
namespace Trackeddy.UnitCell

variable {K : Type} [Field K] [LinearOrder K] [IsStrictOrderedRing K]

/-- coordinate of a corner -/
def bk (s : Bool) : K := if s then 1 else 0
def cpt (k : Bool × Bool) : K × K := (bk k.1, bk k.2)

/-- a side is vertical or not, and has a position -/
def fstEnd (e : Bool × Bool) : Bool × Bool := if e.1 then (e.2, false) else (false, e.2)
def sndEnd (e : Bool × Bool) : Bool × Bool := if e.1 then (e.2, true) else (true, e.2)

/-- values at the corners -/
abbrev Vals (K : Type) := Bool × Bool → Option K

def Hi (Z : Vals K) (l : K) (k : Bool × Bool) : Prop := ∃ x, Z k = some x ∧ l < x
def Cr (Z : Vals K) (l : K) (e : Bool × Bool) : Prop := ¬ (Hi Z l (fstEnd e) ↔ Hi Z l (sndEnd e))

/-- the vertex on a side -/
def vtx (Z : Vals K) (l : K) (e : Bool × Bool) : Option (K × K) :=
  match Z (fstEnd e), Z (sndEnd e) with
  | some u, some v =>
    let w := (l - u) / (v - u)
    some ((cpt (fstEnd e)).1 + w * ((cpt (sndEnd e)).1 - (cpt (fstEnd e)).1),
      (cpt (fstEnd e)).2 + w * ((cpt (sndEnd e)).2 - (cpt (fstEnd e)).2))
  | _, _ => none

/-- the sides `e` and `e'` are joined; `ctr` says that the mean is above the level -/
structure Jn (Z : Vals K) (l : K) (ctr : Prop) (e e' : Bool × Bool) : Prop where
  ne : e ≠ e'
  cr : Cr Z l e
  cr' : Cr Z l e'
  saddle : (∀ s, Cr Z l s) → ∃ p, (p = fstEnd e ∨ p = sndEnd e) ∧ (p = fstEnd e' ∨ p = sndEnd e') ∧ (Hi Z l p ↔ ¬ ctr)

def aff (α β γ : K) (p : K × K) : K := α + β * p.1 + γ * p.2

structure SepHi (Z : Vals K) (l : K) (p q : K × K) (α β γ : K) : Prop where
  left : aff α β γ p = 0
  right : aff α β γ q = 0
  vert : ∀ e r, Cr Z l e → vtx Z l e = some r → 0 ≤ aff α β γ r
  hi : ∀ k, Hi Z l k → 0 < aff α β γ (cpt k)

structure SepLo (Z : Vals K) (l : K) (p q : K × K) (α β γ : K) : Prop where
  left : aff α β γ p = 0
  right : aff α β γ q = 0
  vert : ∀ e r, Cr Z l e → vtx Z l e = some r → aff α β γ r ≤ 0
  lo : ∀ k x, Z k = some x → x < l → aff α β γ (cpt k) < 0
  eq : ∀ k, Z k = some l → aff α β γ (cpt k) ≤ 0

omit [LinearOrder K] [IsStrictOrderedRing K] in
theorem vtx_some {Z : Vals K} {l : K} {e : Bool × Bool} {r : K × K} (h : vtx Z l e = some r) :
    ∃ u v, Z (fstEnd e) = some u ∧ Z (sndEnd e) = some v ∧
      r = ((cpt (fstEnd e)).1 + (l - u) / (v - u) * ((cpt (sndEnd e)).1 - (cpt (fstEnd e)).1),
        (cpt (fstEnd e)).2 + (l - u) / (v - u) * ((cpt (sndEnd e)).2 - (cpt (fstEnd e)).2)) := by
  unfold vtx at h
  cases hu : Z (fstEnd e) with
  | none => rw [hu] at h; simp at h
  | some u =>
    cases hv : Z (sndEnd e) with
    | none => rw [hu, hv] at h; simp at h
    | some v =>
      rw [hu, hv] at h
      simp only [Option.some.injEq] at h
      exact ⟨u, v, rfl, rfl, h.symm⟩

omit [Field K] [IsStrictOrderedRing K] in
theorem hi_iff {Z : Vals K} {l : K} {k : Bool × Bool} {x : K} (h : Z k = some x) : Hi Z l k ↔ l < x := by
  unfold Hi
  rw [h]
  simp

/-- position of the vertex of a side, measured from the low end -/
theorem vtx_low {Z : Vals K} {l : K} {e : Bool × Bool} {r : K × K} (hc : Cr Z l e) (h : vtx Z l e = some r) :
    ∃ k k' x x', (k = fstEnd e ∧ k' = sndEnd e ∨ k = sndEnd e ∧ k' = fstEnd e) ∧ Z k = some x ∧ Z k' = some x' ∧ x ≤ l ∧ l < x' ∧
      ∀ α β γ : K, aff α β γ r = aff α β γ (cpt k) + (l - x) / (x' - x) * (aff α β γ (cpt k') - aff α β γ (cpt k)) := by
  obtain ⟨u, v, hu, hv, rfl⟩ := vtx_some h
  unfold Cr at hc
  rw [hi_iff hu, hi_iff hv] at hc
  rcases le_or_gt u l with h1 | h1 <;> rcases le_or_gt v l with h2 | h2
  · exact absurd ⟨fun h => absurd h (not_lt.mpr h1), fun h => absurd h (not_lt.mpr h2)⟩ hc
  · refine ⟨_, _, u, v, Or.inl ⟨rfl, rfl⟩, hu, hv, h1, h2, fun α β γ => ?_⟩
    unfold aff
    ring
  · refine ⟨_, _, v, u, Or.inr ⟨rfl, rfl⟩, hv, hu, h2, h1, fun α β γ => ?_⟩
    unfold aff
    have e1 : v - u ≠ 0 := by intro h; linarith
    have e2 : u - v ≠ 0 := by intro h; linarith
    field_simp
    ring
  · exact absurd ⟨fun _ => h2, fun _ => h1⟩ hc

theorem mid_pos {A B x x' l l' : K} (h1 : x ≤ l) (h2 : l < l') (h3 : l' < x') (hB : 0 < B)
    (h : 0 ≤ A + (l - x) / (x' - x) * (B - A)) : 0 < A + (l' - x) / (x' - x) * (B - A) := by
  have hd : 0 < x' - x := by linarith
  have hw : (l - x) / (x' - x) < (l' - x) / (x' - x) := by
    rw [div_lt_div_iff_of_pos_right hd]; linarith
  have hw1 : (l' - x) / (x' - x) < 1 := by rw [div_lt_one hd]; linarith
  generalize (l - x) / (x' - x) = w at *
  generalize (l' - x) / (x' - x) = w' at *
  have e : (1 - w) * (A + w' * (B - A)) = (1 - w') * (A + w * (B - A)) + (w' - w) * B := by ring
  have e1 : 0 < (1 - w') * (A + w * (B - A)) + (w' - w) * B :=
    add_pos_of_nonneg_of_pos (mul_nonneg (by linarith) h) (mul_pos (by linarith) hB)
  rw [← e] at e1
  exact pos_of_mul_pos_right e1 (by linarith)

theorem mid_neg {A B x x' l l' : K} (h1 : x ≤ l) (h2 : l < l') (h3 : l' < x') (hA : A < 0)
    (h : A + (l' - x) / (x' - x) * (B - A) ≤ 0) : A + (l - x) / (x' - x) * (B - A) < 0 := by
  have hd : 0 < x' - x := by linarith
  have hw : (l - x) / (x' - x) < (l' - x) / (x' - x) := by
    rw [div_lt_div_iff_of_pos_right hd]; linarith
  have hw0 : 0 ≤ (l - x) / (x' - x) := div_nonneg (by linarith) hd.le
  generalize (l - x) / (x' - x) = w at *
  generalize (l' - x) / (x' - x) = w' at *
  have e : w' * (A + w * (B - A)) = w * (A + w' * (B - A)) + (w' - w) * A := by ring
  have e1 : w * (A + w' * (B - A)) + (w' - w) * A < 0 :=
    add_neg_of_nonpos_of_neg (mul_nonpos_of_nonneg_of_nonpos hw0 h) (mul_neg_of_pos_of_neg (by linarith) hA)
  rw [← e] at e1
  by_contra hcon
  exact absurd (mul_nonneg (by linarith : 0 ≤ w') (not_lt.mp hcon)) (not_le.mpr e1)

/-- the ends of a side that is crossed -/
theorem vtx_ends {Z : Vals K} {l : K} {e k k' : Bool × Bool} {x x' : K} (hk : k = fstEnd e ∧ k' = sndEnd e ∨ k = sndEnd e ∧ k' = fstEnd e)
    (hx : Z k = some x) (hx' : Z k' = some x') (h1 : x ≤ l) (h2 : l < x') :
    Cr Z l e ∧ ∃ m, vtx Z l e = some m ∧
      ∀ α β γ : K, aff α β γ m = aff α β γ (cpt k) + (l - x) / (x' - x) * (aff α β γ (cpt k') - aff α β γ (cpt k)) := by
  have hcl : Cr Z l e := by
    unfold Cr
    rcases hk with ⟨rfl, rfl⟩ | ⟨rfl, rfl⟩ <;> rw [hi_iff hx, hi_iff hx'] <;> intro hiff
    · exact absurd (hiff.2 h2) (not_lt.mpr h1)
    · exact absurd (hiff.1 h2) (not_lt.mpr h1)
  obtain ⟨m, hm⟩ : ∃ m, vtx Z l e = some m := by
    unfold vtx
    rcases hk with ⟨rfl, rfl⟩ | ⟨rfl, rfl⟩ <;> rw [hx, hx'] <;> exact ⟨_, rfl⟩
  refine ⟨hcl, m, hm, ?_⟩
  obtain ⟨j, j', y, y', hj, hy, hy', g1, g2, g3⟩ := vtx_low hcl hm
  have hjk : j = k ∧ j' = k' := by
    rcases hk with ⟨rfl, rfl⟩ | ⟨rfl, rfl⟩ <;> rcases hj with ⟨rfl, rfl⟩ | ⟨rfl, rfl⟩
    · exact ⟨rfl, rfl⟩
    · rw [hx'] at hy; cases hy; exact absurd h2 (not_lt.mpr g1)
    · rw [hx'] at hy; cases hy; exact absurd h2 (not_lt.mpr g1)
    · exact ⟨rfl, rfl⟩
  obtain ⟨rfl, rfl⟩ := hjk
  rw [hx] at hy; cases hy
  rw [hx'] at hy'; cases hy'
  exact g3

/-- a function that separates a piece of the level `l` from all that is higher is positive at the vertices of higher levels -/
theorem SepHi.pos {Z : Vals K} {l l' : K} (hl : l < l') {p q : K × K} {α β γ : K} (h : SepHi Z l p q α β γ) {e : Bool × Bool}
    {r : K × K} (hc : Cr Z l' e) (hr : vtx Z l' e = some r) : 0 < aff α β γ r := by
  obtain ⟨k, k', x, x', hk, hx, hx', h1, h2, h3⟩ := vtx_low hc hr
  have hB : 0 < aff α β γ (cpt k') := h.hi k' ⟨x', hx', hl.trans h2⟩
  rw [h3]
  rcases lt_or_ge l x with hx1 | hx1
  · have hA : 0 < aff α β γ (cpt k) := h.hi k ⟨x, hx, hx1⟩
    have hd : 0 < x' - x := by linarith
    have hw0 : 0 ≤ (l' - x) / (x' - x) := div_nonneg (by linarith) hd.le
    have hw1 : (l' - x) / (x' - x) < 1 := by rw [div_lt_one hd]; linarith
    generalize aff α β γ (cpt k') = B at *
    generalize aff α β γ (cpt k) = A at *
    generalize (l' - x) / (x' - x) = w at *
    have : A + w * (B - A) = (1 - w) * A + w * B := by ring
    rw [this]
    have := mul_pos (sub_pos.mpr hw1) hA
    have := mul_nonneg hw0 hB.le
    linarith
  · obtain ⟨hcl, m, hm, g3⟩ := vtx_ends hk hx hx' hx1 (hl.trans h2)
    have hm0 := h.vert e m hcl hm
    rw [g3] at hm0
    exact mid_pos hx1 hl h2 hB hm0

/-- a function that separates a piece of the level `l'` from all that is lower is negative at the vertices of lower levels -/
theorem SepLo.neg {Z : Vals K} {l l' : K} (hl : l < l') {p q : K × K} {α β γ : K} (h : SepLo Z l' p q α β γ) {e : Bool × Bool}
    {r : K × K} (hc : Cr Z l e) (hr : vtx Z l e = some r) : aff α β γ r < 0 := by
  obtain ⟨k, k', x, x', hk, hx, hx', h1, h2, h3⟩ := vtx_low hc hr
  have hA : aff α β γ (cpt k) < 0 := h.lo k x hx (by linarith)
  rw [h3]
  rcases le_or_gt x' l' with hx1 | hx1
  · have hB : aff α β γ (cpt k') ≤ 0 := by
      rcases hx1.lt_or_eq with hx2 | hx2
      · exact (h.lo k' x' hx' hx2).le
      · exact h.eq k' (hx2 ▸ hx')
    have hd : 0 < x' - x := by linarith
    have hw0 : 0 ≤ (l - x) / (x' - x) := div_nonneg (by linarith) hd.le
    have hw1 : (l - x) / (x' - x) < 1 := by rw [div_lt_one hd]; linarith
    generalize aff α β γ (cpt k') = B at *
    generalize aff α β γ (cpt k) = A at *
    generalize (l - x) / (x' - x) = w at *
    have : A + w * (B - A) = (1 - w) * A + w * B := by ring
    rw [this]
    have := mul_neg_of_pos_of_neg (sub_pos.mpr hw1) hA
    have := mul_nonpos_of_nonneg_of_nonpos hw0 hB
    linarith
  · obtain ⟨hcl, m, hm, g3⟩ := vtx_ends hk hx hx' (by linarith : x ≤ l') hx1
    have hm0 := h.vert e m hcl hm
    rw [g3] at hm0
    exact mid_neg h1 hl hx1 hA hm0

/-- coordinates measured from the corner `k` -/
def du (k : Bool × Bool) (p : K × K) : K := if k.1 then 1 - p.1 else p.1
def dv (k : Bool × Bool) (p : K × K) : K := if k.2 then 1 - p.2 else p.2

/-- functions in the coordinates of a corner -/
theorem aff_corner (k : Bool × Bool) (a b c : K) : ∃ α β γ : K, ∀ p, aff α β γ p = a + b * du k p + c * dv k p := by
  obtain ⟨s, t⟩ := k
  refine ⟨a + (if s then b else 0) + (if t then c else 0), if s then -b else b, if t then -c else c, fun p => ?_⟩
  cases s <;> cases t <;> simp [aff, du, dv] <;> ring

omit [LinearOrder K] [IsStrictOrderedRing K] in
theorem coord_fst (p : K × K) : aff 0 1 0 p = p.1 := by simp [aff]
omit [LinearOrder K] [IsStrictOrderedRing K] in
theorem coord_snd (p : K × K) : aff 0 0 1 p = p.2 := by simp [aff]

/-- where the vertex of a side is, in the coordinates of a corner -/
theorem vtx_range (k : Bool × Bool) {Z : Vals K} {l : K} {e : Bool × Bool} {r : K × K} (hc : Cr Z l e) (h : vtx Z l e = some r) :
    0 ≤ du k r ∧ du k r ≤ 1 ∧ 0 ≤ dv k r ∧ dv k r ≤ 1 ∧
      (e = (false, k.2) ∨ e = (true, k.1) ∨ e = (false, !k.2) ∧ dv k r = 1 ∨ e = (true, !k.1) ∧ du k r = 1) := by
  obtain ⟨j, j', x, x', hk, hx, hx', h1, h2, h3⟩ := vtx_low hc h
  have hd : 0 < x' - x := by linarith
  have hw0 : 0 ≤ (l - x) / (x' - x) := div_nonneg (by linarith) hd.le
  have hw1 : (l - x) / (x' - x) ≤ 1 := by rw [div_le_one hd]; linarith
  have e1 := h3 0 1 0
  have e2 := h3 0 0 1
  simp only [coord_fst, coord_snd] at e1 e2
  generalize (l - x) / (x' - x) = w at *
  obtain ⟨v, pos⟩ := e
  obtain ⟨s, t⟩ := k
  unfold du dv
  rw [e1, e2]
  rcases hk with ⟨rfl, rfl⟩ | ⟨rfl, rfl⟩ <;> cases v <;> cases pos <;> cases s <;> cases t <;>
    simp [fstEnd, sndEnd, cpt, bk] <;> (try constructor) <;> linarith

/-- the vertex on the horizontal side at a corner -/
theorem corner_h (k : Bool × Bool) {Z : Vals K} {l z zh : K} (hz : Z k = some z) (hh : Z (!k.1, k.2) = some zh)
    (hc : z ≤ l ∧ l < zh ∨ zh ≤ l ∧ l < z) {r : K × K} (hr : vtx Z l (false, k.2) = some r) :
    du k r = (l - z) / (zh - z) ∧ dv k r = 0 := by
  have hk : k = fstEnd (false, k.2) ∧ (!k.1, k.2) = sndEnd (false, k.2) ∨ k = sndEnd (false, k.2) ∧ (!k.1, k.2) = fstEnd (false, k.2) := by
    obtain ⟨s, t⟩ := k
    cases s <;> simp [fstEnd, sndEnd]
  rcases hc with ⟨h1, h2⟩ | ⟨h1, h2⟩
  · obtain ⟨_, m, hm, h3⟩ := vtx_ends hk hz hh h1 h2
    rw [hr] at hm; cases hm
    have e1 := h3 0 1 0
    have e2 := h3 0 0 1
    simp only [coord_fst, coord_snd] at e1 e2
    unfold du dv
    rw [e1, e2]
    obtain ⟨s, t⟩ := k
    cases s <;> cases t <;> simp [cpt, bk]
  · obtain ⟨_, m, hm, h3⟩ := vtx_ends (k := (!k.1, k.2)) (k' := k) (by tauto) hh hz h1 h2
    rw [hr] at hm; cases hm
    have e1 := h3 0 1 0
    have e2 := h3 0 0 1
    simp only [coord_fst, coord_snd] at e1 e2
    have e3 : (l - z) / (zh - z) = 1 - (l - zh) / (z - zh) := by
      have n1 : zh - z ≠ 0 := by intro h; linarith
      have n2 : z - zh ≠ 0 := by intro h; linarith
      field_simp
      ring
    rw [e3]
    unfold du dv
    rw [e1, e2]
    obtain ⟨s, t⟩ := k
    cases s <;> cases t <;> simp [cpt, bk, sub_eq_add_neg]

/-- the vertex on the vertical side at a corner -/
theorem corner_v (k : Bool × Bool) {Z : Vals K} {l z zv : K} (hz : Z k = some z) (hv : Z (k.1, !k.2) = some zv)
    (hc : z ≤ l ∧ l < zv ∨ zv ≤ l ∧ l < z) {r : K × K} (hr : vtx Z l (true, k.1) = some r) :
    dv k r = (l - z) / (zv - z) ∧ du k r = 0 := by
  have hk : k = fstEnd (true, k.1) ∧ (k.1, !k.2) = sndEnd (true, k.1) ∨ k = sndEnd (true, k.1) ∧ (k.1, !k.2) = fstEnd (true, k.1) := by
    obtain ⟨s, t⟩ := k
    cases t <;> simp [fstEnd, sndEnd]
  rcases hc with ⟨h1, h2⟩ | ⟨h1, h2⟩
  · obtain ⟨_, m, hm, h3⟩ := vtx_ends hk hz hv h1 h2
    rw [hr] at hm; cases hm
    have e1 := h3 0 1 0
    have e2 := h3 0 0 1
    simp only [coord_fst, coord_snd] at e1 e2
    unfold du dv
    rw [e1, e2]
    obtain ⟨s, t⟩ := k
    cases s <;> cases t <;> simp [cpt, bk]
  · obtain ⟨_, m, hm, h3⟩ := vtx_ends (k := (k.1, !k.2)) (k' := k) (by tauto) hv hz h1 h2
    rw [hr] at hm; cases hm
    have e1 := h3 0 1 0
    have e2 := h3 0 0 1
    simp only [coord_fst, coord_snd] at e1 e2
    have e3 : (l - z) / (zv - z) = 1 - (l - zv) / (z - zv) := by
      have n1 : zv - z ≠ 0 := by intro h; linarith
      have n2 : z - zv ≠ 0 := by intro h; linarith
      field_simp
      ring
    rw [e3]
    unfold du dv
    rw [e1, e2]
    obtain ⟨s, t⟩ := k
    cases s <;> cases t <;> simp [cpt, bk, sub_eq_add_neg]

/-- the coordinates of the corners -/
theorem corner_cases (k j : Bool × Bool) : (j = k ∧ du k (cpt j : K × K) = 0 ∧ dv k (cpt j : K × K) = 0) ∨
    (j = (!k.1, k.2) ∧ du k (cpt j : K × K) = 1 ∧ dv k (cpt j : K × K) = 0) ∨
    (j = (k.1, !k.2) ∧ du k (cpt j : K × K) = 0 ∧ dv k (cpt j : K × K) = 1) ∨
    (j = (!k.1, !k.2) ∧ du k (cpt j : K × K) = 1 ∧ dv k (cpt j : K × K) = 1) := by
  obtain ⟨s, t⟩ := k
  obtain ⟨s', t'⟩ := j
  cases s <;> cases t <;> cases s' <;> cases t' <;> simp [du, dv, cpt, bk]

/-- the piece that cuts off a low corner: all other corners and all other vertices are on the other side of it -/
theorem cut_low (k : Bool × Bool) {Z : Vals K} {l z zh zv : K} (hz : Z k = some z) (hh : Z (!k.1, k.2) = some zh)
    (hv : Z (k.1, !k.2) = some zv) (h0 : z ≤ l) (h1 : l < zh) (h2 : l < zv) {p q : K × K} (hp : vtx Z l (false, k.2) = some p)
    (hq : vtx Z l (true, k.1) = some q) :
    ∃ α β γ : K, aff α β γ p = 0 ∧ aff α β γ q = 0 ∧
      (∀ e r, Cr Z l e → vtx Z l e = some r → e ≠ (false, k.2) → e ≠ (true, k.1) →
        0 ≤ aff α β γ r ∧ (z < l → 0 < aff α β γ r)) ∧
      (∀ j, j ≠ k → 0 < aff α β γ (cpt j)) ∧ aff α β γ (cpt k) ≤ 0 ∧ (z < l → aff α β γ (cpt k) < 0) := by
  obtain ⟨p1, p2⟩ := corner_h k hz hh (Or.inl ⟨h0, h1⟩) hp
  obtain ⟨q1, q2⟩ := corner_v k hz hv (Or.inl ⟨h0, h2⟩) hq
  have hkk : du k (cpt k : K × K) = 0 ∧ dv k (cpt k : K × K) = 0 := by
    obtain ⟨s, t⟩ := k
    cases s <;> cases t <;> simp [du, dv, cpt, bk]
  rcases h0.lt_or_eq with h0 | rfl
  · have a0 : 0 < (l - z) / (zh - z) := div_pos (by linarith) (by linarith)
    have a1 : (l - z) / (zh - z) < 1 := by rw [div_lt_one (by linarith)]; linarith
    have b0 : 0 < (l - z) / (zv - z) := div_pos (by linarith) (by linarith)
    have b1 : (l - z) / (zv - z) < 1 := by rw [div_lt_one (by linarith)]; linarith
    generalize (l - z) / (zh - z) = a at *
    generalize (l - z) / (zv - z) = b at *
    obtain ⟨α, β, γ, hf⟩ := aff_corner (K := K) k (-(a * b)) b a
    have hab := mul_pos a0 b0
    have h3 := mul_pos a0 (sub_pos.mpr b1)
    have h4 := mul_pos b0 (sub_pos.mpr a1)
    refine ⟨α, β, γ, by rw [hf, p1, p2]; ring, by rw [hf, q1, q2]; ring, ?_, ?_, ?_, ?_⟩
    · intro e r hc hr n1 n2
      obtain ⟨r1, r2, r3, r4, r5⟩ := vtx_range k hc hr
      have : 0 < aff α β γ r := by
        rw [hf]
        rcases r5 with r5 | r5 | ⟨_, r5⟩ | ⟨_, r5⟩
        · exact absurd r5 n1
        · exact absurd r5 n2
        · rw [r5]; have := mul_nonneg b0.le r1; nlinarith
        · rw [r5]; have := mul_nonneg a0.le r3; nlinarith
      exact ⟨this.le, fun _ => this⟩
    · intro j hj
      rw [hf]
      rcases corner_cases (K := K) k j with ⟨c, _⟩ | ⟨_, c1, c2⟩ | ⟨_, c1, c2⟩ | ⟨_, c1, c2⟩
      · exact absurd c hj
      all_goals rw [c1, c2]; nlinarith
    · rw [hf, hkk.1, hkk.2]; linarith
    · intro _; rw [hf, hkk.1, hkk.2]; linarith
  · obtain ⟨α, β, γ, hf⟩ := aff_corner (K := K) k 0 1 1
    refine ⟨α, β, γ, by rw [hf, p1, p2]; simp, by rw [hf, q1, q2]; simp, ?_, ?_, ?_, ?_⟩
    · intro e r hc hr n1 n2
      obtain ⟨r1, r2, r3, r4, r5⟩ := vtx_range k hc hr
      exact ⟨by rw [hf]; linarith, fun h => absurd h (lt_irrefl _)⟩
    · intro j hj
      rw [hf]
      rcases corner_cases (K := K) k j with ⟨c, _⟩ | ⟨_, c1, c2⟩ | ⟨_, c1, c2⟩ | ⟨_, c1, c2⟩
      · exact absurd c hj
      all_goals rw [c1, c2]; norm_num
    · rw [hf, hkk.1, hkk.2]; linarith
    · intro h; exact absurd h (lt_irrefl _)

/-- the piece that cuts off a high corner -/
theorem cut_high (k : Bool × Bool) {Z : Vals K} {l z zh zv : K} (hz : Z k = some z) (hh : Z (!k.1, k.2) = some zh)
    (hv : Z (k.1, !k.2) = some zv) (h0 : l < z) (h1 : zh ≤ l) (h2 : zv ≤ l) {p q : K × K} (hp : vtx Z l (false, k.2) = some p)
    (hq : vtx Z l (true, k.1) = some q) :
    ∃ α β γ : K, aff α β γ p = 0 ∧ aff α β γ q = 0 ∧
      (∀ e r, Cr Z l e → vtx Z l e = some r → e ≠ (false, k.2) → e ≠ (true, k.1) →
        aff α β γ r ≤ 0 ∧ (zh < l → zv < l → aff α β γ r < 0)) ∧
      (∀ j x, j ≠ k → Z j = some x → aff α β γ (cpt j) ≤ 0 ∧ (x < l → aff α β γ (cpt j) < 0)) ∧ 0 < aff α β γ (cpt k) := by
  obtain ⟨p1, p2⟩ := corner_h k hz hh (Or.inr ⟨h1, h0⟩) hp
  obtain ⟨q1, q2⟩ := corner_v k hz hv (Or.inr ⟨h2, h0⟩) hq
  have hkk : du k (cpt k : K × K) = 0 ∧ dv k (cpt k : K × K) = 0 := by
    obtain ⟨s, t⟩ := k
    cases s <;> cases t <;> simp [du, dv, cpt, bk]
  have a0 : 0 < (l - z) / (zh - z) := div_pos_of_neg_of_neg (by linarith) (by linarith)
  have a1 : (l - z) / (zh - z) ≤ 1 := by rw [div_le_one_of_neg (by linarith)]; linarith
  have a2 : zh < l → (l - z) / (zh - z) < 1 := by intro h; rw [div_lt_one_of_neg (by linarith)]; linarith
  have b0 : 0 < (l - z) / (zv - z) := div_pos_of_neg_of_neg (by linarith) (by linarith)
  have b1 : (l - z) / (zv - z) ≤ 1 := by rw [div_le_one_of_neg (by linarith)]; linarith
  have b2 : zv < l → (l - z) / (zv - z) < 1 := by intro h; rw [div_lt_one_of_neg (by linarith)]; linarith
  generalize (l - z) / (zh - z) = a at *
  generalize (l - z) / (zv - z) = b at *
  obtain ⟨α, β, γ, hf⟩ := aff_corner (K := K) k (a * b) (-b) (-a)
  have hab := mul_pos a0 b0
  have h3 := mul_nonneg a0.le (sub_nonneg.mpr b1)
  have h4 := mul_nonneg b0.le (sub_nonneg.mpr a1)
  refine ⟨α, β, γ, by rw [hf, p1, p2]; ring, by rw [hf, q1, q2]; ring, ?_, ?_, ?_⟩
  · intro e r hc hr n1 n2
    obtain ⟨r1, r2, r3, r4, r5⟩ := vtx_range k hc hr
    rw [hf]
    rcases r5 with r5 | r5 | ⟨_, r5⟩ | ⟨_, r5⟩
    · exact absurd r5 n1
    · exact absurd r5 n2
    · rw [r5]; have := mul_nonneg b0.le r1
      refine ⟨by nlinarith, fun _ hv => ?_⟩
      have := mul_pos a0 (sub_pos.mpr (b2 hv))
      nlinarith
    · rw [r5]; have := mul_nonneg a0.le r3
      refine ⟨by nlinarith, fun hh _ => ?_⟩
      have := mul_pos b0 (sub_pos.mpr (a2 hh))
      nlinarith
  · intro j x hj hx
    rw [hf]
    rcases corner_cases (K := K) k j with ⟨c, _⟩ | ⟨c, c1, c2⟩ | ⟨c, c1, c2⟩ | ⟨_, c1, c2⟩
    · exact absurd c hj
    · subst c; rw [hh] at hx; cases hx
      rw [c1, c2]
      refine ⟨by nlinarith, fun h => ?_⟩
      have := mul_pos b0 (sub_pos.mpr (a2 h))
      nlinarith
    · subst c; rw [hv] at hx; cases hx
      rw [c1, c2]
      refine ⟨by nlinarith, fun h => ?_⟩
      have := mul_pos a0 (sub_pos.mpr (b2 h))
      nlinarith
    · rw [c1, c2]
      exact ⟨by nlinarith, fun h => by nlinarith⟩
  · rw [hf, hkk.1, hkk.2]; linarith

/-- the piece that joins two vertical sides -/
theorem across_v (t : Bool) {Z : Vals K} {l z z' y y' : K} (hz : Z (false, t) = some z) (hz' : Z (true, t) = some z')
    (hy : Z (false, !t) = some y) (hy' : Z (true, !t) = some y') (h0 : z ≤ l) (h1 : z' ≤ l) (h2 : l < y) (h3 : l < y') {p q : K × K}
    (hp : vtx Z l (true, false) = some p) (hq : vtx Z l (true, true) = some q) :
    ∃ α β γ : K, aff α β γ p = 0 ∧ aff α β γ q = 0 ∧ (∀ s, 0 < aff α β γ (cpt (s, !t))) ∧
      ∀ s x, Z (s, t) = some x → aff α β γ (cpt (s, t)) ≤ 0 ∧ (x < l → aff α β γ (cpt (s, t)) < 0) := by
  obtain ⟨p1, p2⟩ := corner_v (false, t) hz hy (Or.inl ⟨h0, h2⟩) hp
  obtain ⟨q1, q2⟩ := corner_v (true, t) hz' hy' (Or.inl ⟨h1, h3⟩) hq
  have a0 : 0 ≤ (l - z) / (y - z) := div_nonneg (by linarith) (by linarith)
  have a1 : (l - z) / (y - z) < 1 := by rw [div_lt_one (by linarith)]; linarith
  have a2 : z < l → 0 < (l - z) / (y - z) := fun h => div_pos (by linarith) (by linarith)
  have b0 : 0 ≤ (l - z') / (y' - z') := div_nonneg (by linarith) (by linarith)
  have b1 : (l - z') / (y' - z') < 1 := by rw [div_lt_one (by linarith)]; linarith
  have b2 : z' < l → 0 < (l - z') / (y' - z') := fun h => div_pos (by linarith) (by linarith)
  generalize (l - z) / (y - z) = a at *
  generalize (l - z') / (y' - z') = b at *
  obtain ⟨α, β, γ, hf⟩ := aff_corner (K := K) (false, t) (-a) (-(b - a)) 1
  have q3 : du (false, t) q = 1 := by simp [du] at q2 ⊢; linarith
  have q4 : dv (false, t) q = b := by rw [← q1]; rfl
  refine ⟨α, β, γ, by rw [hf, p1, p2]; ring, by rw [hf, q3, q4]; ring, ?_, ?_⟩
  · intro s
    rw [hf]
    cases s <;> cases t <;> simp [du, dv, cpt, bk] <;> linarith
  · intro s x hx
    rw [hf]
    cases s
    · rw [hz] at hx; cases hx
      refine ⟨?_, fun h => ?_⟩
      · cases t <;> simp [du, dv, cpt, bk] <;> linarith
      · have := a2 h; cases t <;> simp [du, dv, cpt, bk] <;> linarith
    · rw [hz'] at hx; cases hx
      refine ⟨?_, fun h => ?_⟩
      · cases t <;> simp [du, dv, cpt, bk] <;> linarith
      · have := b2 h; cases t <;> simp [du, dv, cpt, bk] <;> linarith

/-- the piece that joins two horizontal sides -/
theorem across_h (s : Bool) {Z : Vals K} {l z z' y y' : K} (hz : Z (s, false) = some z) (hz' : Z (s, true) = some z')
    (hy : Z (!s, false) = some y) (hy' : Z (!s, true) = some y') (h0 : z ≤ l) (h1 : z' ≤ l) (h2 : l < y) (h3 : l < y') {p q : K × K}
    (hp : vtx Z l (false, false) = some p) (hq : vtx Z l (false, true) = some q) :
    ∃ α β γ : K, aff α β γ p = 0 ∧ aff α β γ q = 0 ∧ (∀ t, 0 < aff α β γ (cpt (!s, t))) ∧
      ∀ t x, Z (s, t) = some x → aff α β γ (cpt (s, t)) ≤ 0 ∧ (x < l → aff α β γ (cpt (s, t)) < 0) := by
  obtain ⟨p1, p2⟩ := corner_h (s, false) hz hy (Or.inl ⟨h0, h2⟩) hp
  obtain ⟨q1, q2⟩ := corner_h (s, true) hz' hy' (Or.inl ⟨h1, h3⟩) hq
  have a0 : 0 ≤ (l - z) / (y - z) := div_nonneg (by linarith) (by linarith)
  have a1 : (l - z) / (y - z) < 1 := by rw [div_lt_one (by linarith)]; linarith
  have a2 : z < l → 0 < (l - z) / (y - z) := fun h => div_pos (by linarith) (by linarith)
  have b0 : 0 ≤ (l - z') / (y' - z') := div_nonneg (by linarith) (by linarith)
  have b1 : (l - z') / (y' - z') < 1 := by rw [div_lt_one (by linarith)]; linarith
  have b2 : z' < l → 0 < (l - z') / (y' - z') := fun h => div_pos (by linarith) (by linarith)
  generalize (l - z) / (y - z) = a at *
  generalize (l - z') / (y' - z') = b at *
  obtain ⟨α, β, γ, hf⟩ := aff_corner (K := K) (s, false) (-a) 1 (-(b - a))
  have q3 : dv (s, false) q = 1 := by simp [dv] at q2 ⊢; linarith
  have q4 : du (s, false) q = b := by rw [← q1]; rfl
  refine ⟨α, β, γ, by rw [hf, p1, p2]; ring, by rw [hf, q3, q4]; ring, ?_, ?_⟩
  · intro t
    rw [hf]
    cases s <;> cases t <;> simp [du, dv, cpt, bk] <;> linarith
  · intro t x hx
    rw [hf]
    cases t
    · rw [hz] at hx; cases hx
      refine ⟨?_, fun h => ?_⟩
      · cases s <;> simp [du, dv, cpt, bk] <;> linarith
      · have := a2 h; cases s <;> simp [du, dv, cpt, bk] <;> linarith
    · rw [hz'] at hx; cases hx
      refine ⟨?_, fun h => ?_⟩
      · cases s <;> simp [du, dv, cpt, bk] <;> linarith
      · have := b2 h; cases s <;> simp [du, dv, cpt, bk] <;> linarith

omit [Field K] [IsStrictOrderedRing K] in
theorem Jn.symm {Z : Vals K} {l : K} {ctr : Prop} {e e' : Bool × Bool} (h : Jn Z l ctr e e') : Jn Z l ctr e' e :=
  ⟨h.ne.symm, h.cr', h.cr, fun hs => by obtain ⟨p, h1, h2, h3⟩ := h.saddle hs; exact ⟨p, h2, h1, h3⟩⟩

omit [IsStrictOrderedRing K] in
theorem SepHi.swap {Z : Vals K} {l : K} {p q : K × K} {α β γ : K} (h : SepHi Z l p q α β γ) : SepHi Z l q p α β γ :=
  ⟨h.right, h.left, h.vert, h.hi⟩
omit [IsStrictOrderedRing K] in
theorem SepLo.swap {Z : Vals K} {l : K} {p q : K × K} {α β γ : K} (h : SepLo Z l p q α β γ) : SepLo Z l q p α β γ :=
  ⟨h.right, h.left, h.vert, h.lo, h.eq⟩

omit [IsStrictOrderedRing K] in
/-- parallel sides that are joined: the other sides are not crossed -/
theorem parallel_v {Z : Vals K} {l : K} {ctr : Prop} (J : Jn Z l ctr (true, false) (true, true)) {p q : K × K}
    (hp : vtx Z l (true, false) = some p) (hq : vtx Z l (true, true) = some q) :
    ∃ (t : Bool) (z z' y y' : K), Z (false, t) = some z ∧ Z (true, t) = some z' ∧ Z (false, !t) = some y ∧ Z (true, !t) = some y' ∧
      z ≤ l ∧ z' ≤ l ∧ l < y ∧ l < y' := by
  obtain ⟨u, v, hu, hv, -⟩ := vtx_some hp
  obtain ⟨u', v', hu', hv', -⟩ := vtx_some hq
  have c1 := J.cr
  have c2 := J.cr'
  have c3 := J.saddle
  simp only [Cr, Prod.forall, Bool.forall_bool, fstEnd, sndEnd, if_true, if_false, Bool.false_eq_true] at c1 c2 c3 hu hv hu' hv'
  rw [hi_iff hu, hi_iff hv] at c1
  rw [hi_iff hu', hi_iff hv'] at c2
  rw [hi_iff hu, hi_iff hv, hi_iff hu', hi_iff hv'] at c3
  by_cases h1 : l < u <;> by_cases h2 : l < v <;> by_cases h3 : l < u' <;> by_cases h4 : l < v' <;>
    simp only [h1, h2, h3, h4, iff_self, not_true_eq_false, iff_false, not_false_eq_true, iff_true,
      and_self, forall_const] at c1 c2 c3
  · exact ⟨true, v, v', u, u', hv, hv', hu, hu', not_lt.mp h2, not_lt.mp h4, h1, h3⟩
  · obtain ⟨⟨a, b⟩, d1, d2, -⟩ := c3
    simp only [Prod.mk.injEq] at d1 d2
    rcases d1 with ⟨rfl, _⟩ | ⟨rfl, _⟩ <;> simp at d2
  · obtain ⟨⟨a, b⟩, d1, d2, -⟩ := c3
    simp only [Prod.mk.injEq] at d1 d2
    rcases d1 with ⟨rfl, _⟩ | ⟨rfl, _⟩ <;> simp at d2
  · exact ⟨false, u, u', v, v', hu, hu', hv, hv', not_lt.mp h1, not_lt.mp h3, h2, h4⟩

omit [IsStrictOrderedRing K] in
theorem parallel_h {Z : Vals K} {l : K} {ctr : Prop} (J : Jn Z l ctr (false, false) (false, true)) {p q : K × K}
    (hp : vtx Z l (false, false) = some p) (hq : vtx Z l (false, true) = some q) :
    ∃ (s : Bool) (z z' y y' : K), Z (s, false) = some z ∧ Z (s, true) = some z' ∧ Z (!s, false) = some y ∧ Z (!s, true) = some y' ∧
      z ≤ l ∧ z' ≤ l ∧ l < y ∧ l < y' := by
  obtain ⟨u, v, hu, hv, -⟩ := vtx_some hp
  obtain ⟨u', v', hu', hv', -⟩ := vtx_some hq
  have c1 := J.cr
  have c2 := J.cr'
  have c3 := J.saddle
  simp only [Cr, Prod.forall, Bool.forall_bool, fstEnd, sndEnd, if_true, if_false, Bool.false_eq_true] at c1 c2 c3 hu hv hu' hv'
  rw [hi_iff hu, hi_iff hv] at c1
  rw [hi_iff hu', hi_iff hv'] at c2
  rw [hi_iff hu, hi_iff hv, hi_iff hu', hi_iff hv'] at c3
  by_cases h1 : l < u <;> by_cases h2 : l < v <;> by_cases h3 : l < u' <;> by_cases h4 : l < v' <;>
    simp only [h1, h2, h3, h4, iff_self, not_true_eq_false, iff_false, not_false_eq_true, iff_true,
      and_self, forall_const] at c1 c2 c3
  · exact ⟨true, v, v', u, u', hv, hv', hu, hu', not_lt.mp h2, not_lt.mp h4, h1, h3⟩
  · obtain ⟨⟨a, b⟩, d1, d2, -⟩ := c3
    simp only [Prod.mk.injEq] at d1 d2
    rcases d1 with ⟨_, rfl⟩ | ⟨_, rfl⟩ <;> simp at d2
  · obtain ⟨⟨a, b⟩, d1, d2, -⟩ := c3
    simp only [Prod.mk.injEq] at d1 d2
    rcases d1 with ⟨_, rfl⟩ | ⟨_, rfl⟩ <;> simp at d2
  · exact ⟨false, u, u', v, v', hu, hu', hv, hv', not_lt.mp h1, not_lt.mp h3, h2, h4⟩

omit [Field K] [IsStrictOrderedRing K] in
/-- a saddle: opposite corners alike, neighbouring corners not -/
theorem saddle_sides {Z : Vals K} {l : K} {s t : Bool} (h1 : ¬ (Hi Z l (s, t) ↔ Hi Z l (!s, t)))
    (h2 : ¬ (Hi Z l (s, t) ↔ Hi Z l (s, !t))) (h3 : Hi Z l (!s, !t) ↔ Hi Z l (s, t)) (e : Bool × Bool) : Cr Z l e := by
  obtain ⟨a, b⟩ := e
  unfold Cr
  cases a <;> cases b <;> cases s <;> cases t <;> simp only [fstEnd, sndEnd, if_true, if_false, Bool.false_eq_true,
    Bool.not_false, Bool.not_true] at * <;> tauto

omit [IsStrictOrderedRing K] in
/-- sides at a corner that are joined -/
theorem adjacent_vals {Z : Vals K} {l : K} {ctr : Prop} {s t : Bool} (J : Jn Z l ctr (false, t) (true, s)) {p q : K × K}
    (hp : vtx Z l (false, t) = some p) (hq : vtx Z l (true, s) = some q) :
    ∃ z zh zv : K, Z (s, t) = some z ∧ Z (!s, t) = some zh ∧ Z (s, !t) = some zv ∧
      (z ≤ l ∧ l < zh ∧ l < zv ∨ l < z ∧ zh ≤ l ∧ zv ≤ l) ∧ ((Hi Z l (!s, !t) ↔ l < z) → (l < z ↔ ¬ ctr)) := by
  obtain ⟨u, v, hu, hv, -⟩ := vtx_some hp
  obtain ⟨u', v', hu', hv', -⟩ := vtx_some hq
  have c1 := J.cr
  have c2 := J.cr'
  have c3 := J.saddle
  obtain ⟨z, hz⟩ : ∃ z, Z (s, t) = some z := by cases s <;> [exact ⟨u, hu⟩; exact ⟨v, hv⟩]
  obtain ⟨zh, hzh⟩ : ∃ z, Z (!s, t) = some z := by cases s <;> [exact ⟨v, hv⟩; exact ⟨u, hu⟩]
  obtain ⟨zv, hzv⟩ : ∃ z, Z (s, !t) = some z := by cases t <;> [exact ⟨v', hv'⟩; exact ⟨u', hu'⟩]
  have d1 : ¬ (l < z ↔ l < zh) := by
    rw [← hi_iff hz, ← hi_iff hzh]
    cases s
    · exact c1
    · exact fun h => c1 h.symm
  have d2 : ¬ (l < z ↔ l < zv) := by
    rw [← hi_iff hz, ← hi_iff hzv]
    cases t
    · exact c2
    · exact fun h => c2 h.symm
  refine ⟨z, zh, zv, hz, hzh, hzv, ?_, ?_⟩
  · rcases le_or_gt z l with h | h
    · refine Or.inl ⟨h, ?_, ?_⟩
      · by_contra h'; exact d1 ⟨fun h2 => absurd h2 (not_lt.mpr h), fun h2 => absurd h2 h'⟩
      · by_contra h'; exact d2 ⟨fun h2 => absurd h2 (not_lt.mpr h), fun h2 => absurd h2 h'⟩
    · refine Or.inr ⟨h, ?_, ?_⟩
      · by_contra h'; exact d1 ⟨fun _ => not_le.mp h', fun _ => h⟩
      · by_contra h'; exact d2 ⟨fun _ => not_le.mp h', fun _ => h⟩
  · intro ho
    have hall : ∀ e, Cr Z l e := by
      refine saddle_sides (s := s) (t := t) ?_ ?_ ?_
      · rw [hi_iff hz, hi_iff hzh]; exact d1
      · rw [hi_iff hz, hi_iff hzv]; exact d2
      · rw [hi_iff hz]; exact ho
    obtain ⟨c, h1, h2, h3⟩ := c3 hall
    have : c = (s, t) := by
      simp only [fstEnd, sndEnd, if_true, if_false, Bool.false_eq_true] at h1 h2
      rcases h1 with rfl | rfl <;> rcases h2 with h2 | h2 <;> simp only [Prod.mk.injEq] at h2 ⊢ <;> tauto
    rw [this, hi_iff hz] at h3
    exact h3

omit [IsStrictOrderedRing K] in
/-- a vertex on one of two given sides, or on another one -/
theorem vert_split {Z : Vals K} {l : K} {p q : K × K} {e0 e1 : Bool × Bool} (hp : vtx Z l e0 = some p) (hq : vtx Z l e1 = some q)
    {P : K × K → Prop} (h0 : P p) (h1 : P q) (h : ∀ e r, Cr Z l e → vtx Z l e = some r → e ≠ e0 → e ≠ e1 → P r) :
    ∀ e r, Cr Z l e → vtx Z l e = some r → P r := by
  intro e r hc hr
  by_cases n0 : e = e0
  · subst n0; rw [hp] at hr; cases hr; exact h0
  by_cases n1 : e = e1
  · subst n1; rw [hq] at hr; cases hr; exact h1
  exact h e r hc hr n0 n1

omit [Field K] [IsStrictOrderedRing K] in
/-- sides away from a corner whose ends are alike are not crossed -/
theorem far_sides {Z : Vals K} {l : K} {s t : Bool} {P : Prop} (h1 : Hi Z l (!s, t) ↔ P) (h2 : Hi Z l (s, !t) ↔ P)
    (h3 : Hi Z l (!s, !t) ↔ P) {e : Bool × Bool} (hc : Cr Z l e) : e = (false, t) ∨ e = (true, s) := by
  obtain ⟨a, b⟩ := e
  unfold Cr at hc
  cases a <;> cases b <;> cases s <;> cases t <;> simp only [fstEnd, sndEnd, if_true, if_false, Bool.false_eq_true,
        Bool.not_false, Bool.not_true] at * <;> tauto

theorem sepHi_adjacent {Z : Vals K} {l : K} {ctr : Prop} {s t : Bool} (J : Jn Z l ctr (false, t) (true, s))
    (hc : (∀ e, Cr Z l e) → ctr) {p q : K × K} (hp : vtx Z l (false, t) = some p) (hq : vtx Z l (true, s) = some q) :
    ∃ α β γ, SepHi Z l p q α β γ := by
  obtain ⟨z, zh, zv, hz, hh, hv, h | h, ho⟩ := adjacent_vals J hp hq
  · obtain ⟨α, β, γ, f1, f2, f3, f4, f5, f6⟩ := cut_low (s, t) hz hh hv h.1 h.2.1 h.2.2 hp hq
    refine ⟨α, β, γ, f1, f2, vert_split hp hq f1.ge f2.ge fun e r h1 h2 h3 h4 => (f3 e r h1 h2 h3 h4).1, ?_⟩
    intro k hk
    refine f4 k ?_
    rintro rfl
    exact absurd ((hi_iff hz).1 hk) (not_lt.mpr h.1)
  · obtain ⟨α, β, γ, f1, f2, f3, f4, f5⟩ := cut_high (s, t) hz hh hv h.1 h.2.1 h.2.2 hp hq
    have e2 : ¬ Hi Z l (!s, t) := by rw [hi_iff hh]; exact not_lt.mpr h.2.1
    have e3 : ¬ Hi Z l (s, !t) := by rw [hi_iff hv]; exact not_lt.mpr h.2.2
    have e4 : ¬ Hi Z l (!s, !t) := by
      intro h4
      have := (ho ⟨fun _ => h.1, fun _ => h4⟩).1 h.1
      refine this (hc ?_)
      have e1 : Hi Z l (s, t) := (hi_iff hz).2 h.1
      exact saddle_sides (s := s) (t := t) (fun h5 => e2 (h5.1 e1)) (fun h5 => e3 (h5.1 e1)) ⟨fun _ => e1, fun _ => h4⟩
    refine ⟨α, β, γ, f1, f2, vert_split hp hq f1.ge f2.ge fun e r h1 h2 h3 h4 => ?_, ?_⟩
    · rcases far_sides (P := False) (iff_false_intro e2) (iff_false_intro e3) (iff_false_intro e4) h1 with h5 | h5
      · exact absurd h5 h3
      · exact absurd h5 h4
    · intro k hk
      rcases corner_cases (K := K) (s, t) k with ⟨rfl, _⟩ | ⟨rfl, _⟩ | ⟨rfl, _⟩ | ⟨rfl, _⟩
      · exact f5
      · exact absurd hk e2
      · exact absurd hk e3
      · exact absurd hk e4

theorem sepLo_adjacent {Z : Vals K} {l : K} {ctr : Prop} {s t : Bool} (J : Jn Z l ctr (false, t) (true, s))
    (hc : (∀ e, Cr Z l e) → ¬ ctr) {p q : K × K} (hp : vtx Z l (false, t) = some p) (hq : vtx Z l (true, s) = some q) :
    ∃ α β γ, SepLo Z l p q α β γ := by
  obtain ⟨z, zh, zv, hz, hh, hv, h | h, ho⟩ := adjacent_vals J hp hq
  · obtain ⟨α, β, γ, f1, f2, f3, f4, f5, f6⟩ := cut_low (s, t) hz hh hv h.1 h.2.1 h.2.2 hp hq
    have e1 : ¬ Hi Z l (s, t) := by rw [hi_iff hz]; exact not_lt.mpr h.1
    have e2 : Hi Z l (!s, t) := by rw [hi_iff hh]; exact h.2.1
    have e3 : Hi Z l (s, !t) := by rw [hi_iff hv]; exact h.2.2
    have e4 : Hi Z l (!s, !t) := by
      by_contra h4
      have := ho ⟨fun h5 => absurd h5 h4, fun h5 => absurd h5 (not_lt.mpr h.1)⟩
      refine absurd (this.2 (hc ?_)) (not_lt.mpr h.1)
      exact saddle_sides (s := s) (t := t) (fun h5 => e1 (h5.2 e2)) (fun h5 => e1 (h5.2 e3))
        ⟨fun h5 => absurd h5 h4, fun h5 => absurd h5 e1⟩
    have hk : ∀ k x, Z k = some x → x ≤ l → k = (s, t) ∧ x = z := by
      intro k x hx hl
      rcases corner_cases (K := K) (s, t) k with ⟨rfl, _⟩ | ⟨rfl, _⟩ | ⟨rfl, _⟩ | ⟨rfl, _⟩
      · rw [hz] at hx; cases hx; exact ⟨rfl, rfl⟩
      · exact absurd ((hi_iff hx).1 e2) (not_lt.mpr hl)
      · exact absurd ((hi_iff hx).1 e3) (not_lt.mpr hl)
      · exact absurd ((hi_iff hx).1 e4) (not_lt.mpr hl)
    refine ⟨α, β, γ, f1, f2, vert_split hp hq f1.le f2.le fun e r h1 h2 h3 h4 => ?_, ?_, ?_⟩
    · rcases far_sides (P := True) (iff_true_intro e2) (iff_true_intro e3) (iff_true_intro e4) h1 with h5 | h5
      · exact absurd h5 h3
      · exact absurd h5 h4
    · intro k x hx hl
      obtain ⟨rfl, rfl⟩ := hk k x hx hl.le
      exact f6 hl
    · intro k hx
      obtain ⟨rfl, _⟩ := hk k l hx le_rfl
      exact f5
  · obtain ⟨α, β, γ, f1, f2, f3, f4, f5⟩ := cut_high (s, t) hz hh hv h.1 h.2.1 h.2.2 hp hq
    have hk : ∀ k x, Z k = some x → x ≤ l → k ≠ (s, t) := by
      rintro k x hx hl rfl
      rw [hz] at hx; cases hx
      exact absurd h.1 (not_lt.mpr hl)
    exact ⟨α, β, γ, f1, f2, vert_split hp hq f1.le f2.le fun e r h1 h2 h3 h4 => (f3 e r h1 h2 h3 h4).1,
      fun k x hx hl => (f4 k x (hk k x hx hl.le) hx).2 hl, fun k hx => (f4 k l (hk k l hx le_rfl) hx).1⟩

omit [Field K] [IsStrictOrderedRing K] in
theorem only_v {Z : Vals K} {l : K} {t : Bool} (h1 : ¬ Hi Z l (false, t)) (h2 : ¬ Hi Z l (true, t)) (h3 : Hi Z l (false, !t))
    (h4 : Hi Z l (true, !t)) {e : Bool × Bool} (hc : Cr Z l e) : e = (true, false) ∨ e = (true, true) := by
  obtain ⟨a, b⟩ := e
  unfold Cr at hc
  cases a <;> cases b <;> cases t <;> simp only [fstEnd, sndEnd, if_true, if_false, Bool.false_eq_true,
        Bool.not_false, Bool.not_true] at * <;> tauto

omit [Field K] [IsStrictOrderedRing K] in
theorem only_h {Z : Vals K} {l : K} {s : Bool} (h1 : ¬ Hi Z l (s, false)) (h2 : ¬ Hi Z l (s, true)) (h3 : Hi Z l (!s, false))
    (h4 : Hi Z l (!s, true)) {e : Bool × Bool} (hc : Cr Z l e) : e = (false, false) ∨ e = (false, true) := by
  obtain ⟨a, b⟩ := e
  unfold Cr at hc
  cases a <;> cases b <;> cases s <;> simp only [fstEnd, sndEnd, if_true, if_false, Bool.false_eq_true,
        Bool.not_false, Bool.not_true] at * <;> tauto

theorem sep_parallel_v {Z : Vals K} {l : K} {ctr : Prop} (J : Jn Z l ctr (true, false) (true, true)) {p q : K × K}
    (hp : vtx Z l (true, false) = some p) (hq : vtx Z l (true, true) = some q) :
    ∃ α β γ, SepHi Z l p q α β γ ∧ SepLo Z l p q α β γ := by
  obtain ⟨t, z, z', y, y', hz, hz', hy, hy', h0, h1, h2, h3⟩ := parallel_v J hp hq
  obtain ⟨α, β, γ, f1, f2, f3, f4⟩ := across_v t hz hz' hy hy' h0 h1 h2 h3 hp hq
  have e1 : ¬ Hi Z l (false, t) := by rw [hi_iff hz]; exact not_lt.mpr h0
  have e2 : ¬ Hi Z l (true, t) := by rw [hi_iff hz']; exact not_lt.mpr h1
  have e3 : Hi Z l (false, !t) := by rw [hi_iff hy]; exact h2
  have e4 : Hi Z l (true, !t) := by rw [hi_iff hy']; exact h3
  have hlow : ∀ k x, Z k = some x → x ≤ l → ∃ s, k = (s, t) := by
    rintro ⟨a, b⟩ x hx hl
    rcases Bool.eq_or_eq_not b t with rfl | rfl
    · exact ⟨a, rfl⟩
    · cases a
      · exact absurd ((hi_iff hx).1 e3) (not_lt.mpr hl)
      · exact absurd ((hi_iff hx).1 e4) (not_lt.mpr hl)
  have hoth : ∀ (P : K × K → Prop) e r, Cr Z l e → vtx Z l e = some r → e ≠ (true, false) → e ≠ (true, true) → P r := by
    intro P e r hc _ n1 n2
    rcases only_v e1 e2 e3 e4 hc with h | h
    · exact absurd h n1
    · exact absurd h n2
  refine ⟨α, β, γ, ⟨f1, f2, vert_split hp hq f1.ge f2.ge (hoth _), ?_⟩, ⟨f1, f2, vert_split hp hq f1.le f2.le (hoth _), ?_, ?_⟩⟩
  · rintro ⟨a, b⟩ hk
    rcases Bool.eq_or_eq_not b t with rfl | rfl
    · cases a
      · exact absurd hk e1
      · exact absurd hk e2
    · exact f3 a
  · intro k x hx hl
    obtain ⟨s, rfl⟩ := hlow k x hx hl.le
    exact (f4 s x hx).2 hl
  · intro k hx
    obtain ⟨s, rfl⟩ := hlow k l hx le_rfl
    exact (f4 s l hx).1

theorem sep_parallel_h {Z : Vals K} {l : K} {ctr : Prop} (J : Jn Z l ctr (false, false) (false, true)) {p q : K × K}
    (hp : vtx Z l (false, false) = some p) (hq : vtx Z l (false, true) = some q) :
    ∃ α β γ, SepHi Z l p q α β γ ∧ SepLo Z l p q α β γ := by
  obtain ⟨s, z, z', y, y', hz, hz', hy, hy', h0, h1, h2, h3⟩ := parallel_h J hp hq
  obtain ⟨α, β, γ, f1, f2, f3, f4⟩ := across_h s hz hz' hy hy' h0 h1 h2 h3 hp hq
  have e1 : ¬ Hi Z l (s, false) := by rw [hi_iff hz]; exact not_lt.mpr h0
  have e2 : ¬ Hi Z l (s, true) := by rw [hi_iff hz']; exact not_lt.mpr h1
  have e3 : Hi Z l (!s, false) := by rw [hi_iff hy]; exact h2
  have e4 : Hi Z l (!s, true) := by rw [hi_iff hy']; exact h3
  have hlow : ∀ k x, Z k = some x → x ≤ l → ∃ t, k = (s, t) := by
    rintro ⟨a, b⟩ x hx hl
    rcases Bool.eq_or_eq_not a s with rfl | rfl
    · exact ⟨b, rfl⟩
    · cases b
      · exact absurd ((hi_iff hx).1 e3) (not_lt.mpr hl)
      · exact absurd ((hi_iff hx).1 e4) (not_lt.mpr hl)
  have hoth : ∀ (P : K × K → Prop) e r, Cr Z l e → vtx Z l e = some r → e ≠ (false, false) → e ≠ (false, true) → P r := by
    intro P e r hc _ n1 n2
    rcases only_h e1 e2 e3 e4 hc with h | h
    · exact absurd h n1
    · exact absurd h n2
  refine ⟨α, β, γ, ⟨f1, f2, vert_split hp hq f1.ge f2.ge (hoth _), ?_⟩, ⟨f1, f2, vert_split hp hq f1.le f2.le (hoth _), ?_, ?_⟩⟩
  · rintro ⟨a, b⟩ hk
    rcases Bool.eq_or_eq_not a s with rfl | rfl
    · cases b
      · exact absurd hk e1
      · exact absurd hk e2
    · exact f3 b
  · intro k x hx hl
    obtain ⟨t, rfl⟩ := hlow k x hx hl.le
    exact (f4 t x hx).2 hl
  · intro k hx
    obtain ⟨t, rfl⟩ := hlow k l hx le_rfl
    exact (f4 t l hx).1

/-- a piece is separated from what is higher, if the mean of a saddle is above the level -/
theorem sepHi_exists {Z : Vals K} {l : K} {ctr : Prop} {e e' : Bool × Bool} (J : Jn Z l ctr e e') (hc : (∀ e, Cr Z l e) → ctr)
    {p q : K × K} (hp : vtx Z l e = some p) (hq : vtx Z l e' = some q) : ∃ α β γ, SepHi Z l p q α β γ := by
  obtain ⟨v, a⟩ := e
  obtain ⟨v', a'⟩ := e'
  cases v <;> cases v'
  · have := J.ne
    cases a <;> cases a' <;> simp at this
    · obtain ⟨α, β, γ, h, -⟩ := sep_parallel_h J hp hq; exact ⟨α, β, γ, h⟩
    · obtain ⟨α, β, γ, h, -⟩ := sep_parallel_h J.symm hq hp; exact ⟨α, β, γ, h.swap⟩
  · exact sepHi_adjacent J hc hp hq
  · obtain ⟨α, β, γ, h⟩ := sepHi_adjacent J.symm hc hq hp; exact ⟨α, β, γ, h.swap⟩
  · have := J.ne
    cases a <;> cases a' <;> simp at this
    · obtain ⟨α, β, γ, h, -⟩ := sep_parallel_v J hp hq; exact ⟨α, β, γ, h⟩
    · obtain ⟨α, β, γ, h, -⟩ := sep_parallel_v J.symm hq hp; exact ⟨α, β, γ, h.swap⟩

/-- a piece is separated from what is lower, if the mean of a saddle is not above the level -/
theorem sepLo_exists {Z : Vals K} {l : K} {ctr : Prop} {e e' : Bool × Bool} (J : Jn Z l ctr e e') (hc : (∀ e, Cr Z l e) → ¬ ctr)
    {p q : K × K} (hp : vtx Z l e = some p) (hq : vtx Z l e' = some q) : ∃ α β γ, SepLo Z l p q α β γ := by
  obtain ⟨v, a⟩ := e
  obtain ⟨v', a'⟩ := e'
  cases v <;> cases v'
  · have := J.ne
    cases a <;> cases a' <;> simp at this
    · obtain ⟨α, β, γ, -, h⟩ := sep_parallel_h J hp hq; exact ⟨α, β, γ, h⟩
    · obtain ⟨α, β, γ, -, h⟩ := sep_parallel_h J.symm hq hp; exact ⟨α, β, γ, h.swap⟩
  · exact sepLo_adjacent J hc hp hq
  · obtain ⟨α, β, γ, h⟩ := sepLo_adjacent J.symm hc hq hp; exact ⟨α, β, γ, h.swap⟩
  · have := J.ne
    cases a <;> cases a' <;> simp at this
    · obtain ⟨α, β, γ, -, h⟩ := sep_parallel_v J hp hq; exact ⟨α, β, γ, h⟩
    · obtain ⟨α, β, γ, -, h⟩ := sep_parallel_v J.symm hq hp; exact ⟨α, β, γ, h.swap⟩

/-- pieces of different levels in a cell have no point in common -/
theorem pieces_apart {Z : Vals K} {l l' : K} (hl : l < l') {ctr ctr' : Prop} (hctr : ctr' → ctr) {e e' f f' : Bool × Bool}
    (J : Jn Z l ctr e e') (J' : Jn Z l' ctr' f f') {p q p' q' : K × K} (hp : vtx Z l e = some p) (hq : vtx Z l e' = some q)
    (hp' : vtx Z l' f = some p') (hq' : vtx Z l' f' = some q') {τ σ : K} (ht : 0 ≤ τ ∧ τ ≤ 1) (hs : 0 ≤ σ ∧ σ ≤ 1) :
    (p.1 + τ * (q.1 - p.1), p.2 + τ * (q.2 - p.2)) ≠ (p'.1 + σ * (q'.1 - p'.1), p'.2 + σ * (q'.2 - p'.2)) := by
  have lin : ∀ (α β γ : K) (p q : K × K) (τ : K), aff α β γ (p.1 + τ * (q.1 - p.1), p.2 + τ * (q.2 - p.2)) =
      (1 - τ) * aff α β γ p + τ * aff α β γ q := by
    intros; unfold aff; ring
  intro heq
  by_cases hc : (∀ e, Cr Z l e) → ctr
  · obtain ⟨α, β, γ, h⟩ := sepHi_exists J hc hp hq
    have h1 := h.pos hl J'.cr hp'
    have h2 := h.pos hl J'.cr' hq'
    have h3 := congrArg (aff α β γ) heq
    rw [lin, lin, h.left, h.right] at h3
    generalize aff α β γ p' = A at *
    generalize aff α β γ q' = B at *
    have h4 := mul_nonneg (sub_nonneg.mpr hs.2) h1.le
    have h5 := mul_nonneg hs.1 h2.le
    rcases hs.1.lt_or_eq with h6 | h6
    · have := mul_pos h6 h2; nlinarith
    · rw [← h6] at h3; nlinarith
  · push Not at hc
    obtain ⟨α, β, γ, h⟩ := sepLo_exists J' (fun _ h => hc.2 (hctr h)) hp' hq'
    have h1 := h.neg hl J.cr hp
    have h2 := h.neg hl J.cr' hq
    have h3 := congrArg (aff α β γ) heq
    rw [lin, lin, h.left, h.right] at h3
    generalize aff α β γ p = A at *
    generalize aff α β γ q = B at *
    have h4 := mul_nonneg (sub_nonneg.mpr ht.2) (neg_nonneg.mpr h1.le)
    have h5 := mul_nonneg ht.1 (neg_nonneg.mpr h2.le)
    rcases ht.1.lt_or_eq with h6 | h6
    · have := mul_pos h6 (neg_pos.mpr h2); nlinarith
    · rw [← h6] at h3; nlinarith

/-- the two pieces of a saddle -/
theorem saddle_sep {Z : Vals K} {l : K} {ctr : Prop} (hties : ∀ k, Z k ≠ some l) {s t : Bool} (J : Jn Z l ctr (false, t) (true, s))
    {p q : K × K} (hp : vtx Z l (false, t) = some p) (hq : vtx Z l (true, s) = some q) :
    ∃ α β γ, aff α β γ p = 0 ∧ aff α β γ q = 0 ∧
      ∀ e r, Cr Z l e → vtx Z l e = some r → e ≠ (false, t) → e ≠ (true, s) → 0 < aff α β γ r := by
  obtain ⟨z, zh, zv, hz, hh, hv, h | h, ho⟩ := adjacent_vals J hp hq
  · obtain ⟨α, β, γ, f1, f2, f3, f4, f5, f6⟩ := cut_low (s, t) hz hh hv h.1 h.2.1 h.2.2 hp hq
    exact ⟨α, β, γ, f1, f2, fun e r h1 h2 h3 h4 => (f3 e r h1 h2 h3 h4).2 (lt_of_le_of_ne h.1 fun h5 => hties _ (h5 ▸ hz))⟩
  · obtain ⟨α, β, γ, f1, f2, f3, f4, f5⟩ := cut_high (s, t) hz hh hv h.1 h.2.1 h.2.2 hp hq
    have hneg : ∀ r, aff (-α) (-β) (-γ) r = - aff α β γ r := by intro r; unfold aff; ring
    refine ⟨-α, -β, -γ, by rw [hneg, f1, neg_zero], by rw [hneg, f2, neg_zero], fun e r h1 h2 h3 h4 => ?_⟩
    rw [hneg]
    exact neg_pos.mpr ((f3 e r h1 h2 h3 h4).2 (lt_of_le_of_ne h.2.1 fun h5 => hties _ (h5 ▸ hh))
      (lt_of_le_of_ne h.2.2 fun h5 => hties _ (h5 ▸ hv)))

theorem four_sides : ∀ s e e' f f' : Bool × Bool, e ≠ e' → f ≠ f' → f ≠ e → f ≠ e' → f' ≠ e → f' ≠ e' →
    s = e ∨ s = e' ∨ s = f ∨ s = f' := by
  intro s e e' f f' h1 h2 h3 h4 h5 h6
  by_contra hs
  push Not at hs
  have h := Finset.card_le_univ ({s, e, e', f, f'} : Finset (Bool × Bool))
  rw [Finset.card_insert_of_notMem, Finset.card_insert_of_notMem, Finset.card_insert_of_notMem, Finset.card_insert_of_notMem] at h
  · simp at h
  · simpa using h2
  · simp only [Finset.mem_insert, Finset.mem_singleton, not_or]; exact ⟨h4.symm, h6.symm⟩
  · simp only [Finset.mem_insert, Finset.mem_singleton, not_or]; exact ⟨h1, h3.symm, h5.symm⟩
  · simp only [Finset.mem_insert, Finset.mem_singleton, not_or]; exact hs

/-- the two pieces of a saddle have no point in common -/
theorem saddle_apart {Z : Vals K} {l : K} {ctr : Prop} (hties : ∀ k, Z k ≠ some l) {e e' f f' : Bool × Bool}
    (J : Jn Z l ctr e e') (J' : Jn Z l ctr f f') (n1 : f ≠ e) (n2 : f ≠ e') (n3 : f' ≠ e) (n4 : f' ≠ e')
    {p q p' q' : K × K} (hp : vtx Z l e = some p) (hq : vtx Z l e' = some q)
    (hp' : vtx Z l f = some p') (hq' : vtx Z l f' = some q') {τ σ : K} (hs : 0 ≤ σ ∧ σ ≤ 1) :
    (p.1 + τ * (q.1 - p.1), p.2 + τ * (q.2 - p.2)) ≠ (p'.1 + σ * (q'.1 - p'.1), p'.2 + σ * (q'.2 - p'.2)) := by
  have hall : ∀ s, Cr Z l s := by
    intro s
    have : s = e ∨ s = e' ∨ s = f ∨ s = f' := by
      exact four_sides s e e' f f' J.ne J'.ne n1 n2 n3 n4
    rcases this with rfl | rfl | rfl | rfl
    exacts [J.cr, J.cr', J'.cr, J'.cr']
  have key : ∃ α β γ, aff α β γ p = 0 ∧ aff α β γ q = 0 ∧ ∀ g r, Cr Z l g → vtx Z l g = some r → g ≠ e → g ≠ e' → 0 < aff α β γ r := by
    obtain ⟨v, a⟩ := e
    obtain ⟨v', a'⟩ := e'
    obtain ⟨c, c1, c2, -⟩ := J.saddle hall
    have hne := J.ne
    cases v <;> cases v'
    · simp only [fstEnd, sndEnd, Bool.false_eq_true, if_false] at c1 c2
      refine absurd ?_ hne
      rcases c1 with rfl | rfl <;> simpa using c2
    · exact saddle_sep hties J hp hq
    · obtain ⟨α, β, γ, h1, h2, h3⟩ := saddle_sep hties J.symm hq hp
      exact ⟨α, β, γ, h2, h1, fun g r c1 c2 c3 c4 => h3 g r c1 c2 c4 c3⟩
    · simp only [fstEnd, sndEnd, if_true] at c1 c2
      refine absurd ?_ hne
      rcases c1 with rfl | rfl <;> simpa using c2
  obtain ⟨α, β, γ, h1, h2, h3⟩ := key
  have lin : ∀ (α β γ : K) (p q : K × K) (τ : K), aff α β γ (p.1 + τ * (q.1 - p.1), p.2 + τ * (q.2 - p.2)) =
      (1 - τ) * aff α β γ p + τ * aff α β γ q := by
    intros; unfold aff; ring
  intro heq
  have h4 := congrArg (aff α β γ) heq
  rw [lin, lin, h1, h2] at h4
  have h5 := h3 f p' J'.cr hp' n1 n2
  have h6 := h3 f' q' J'.cr' hq' n3 n4
  generalize aff α β γ p' = A at *
  generalize aff α β γ q' = B at *
  have h7 := mul_nonneg (sub_nonneg.mpr hs.2) h5.le
  rcases hs.1.lt_or_eq with h8 | h8
  · have := mul_pos h8 h6; nlinarith
  · rw [← h8] at h4; nlinarith

/-! ### points on the boundary of a cell -/

/-- on an edge with values `a` and `b` at its ends, the level `l` is taken at the position `v` -/
def EdgeVal (a b : Option K) (v l : K) : Prop :=
  (∃ x y, a = some x ∧ b = some y ∧ x + v * (y - x) = l) ∨ v = 0 ∧ a = some l ∨ v = 1 ∧ b = some l

omit [LinearOrder K] [IsStrictOrderedRing K] in
theorem EdgeVal.unique {a b : Option K} {v l l' : K} (h : EdgeVal a b v l) (h' : EdgeVal a b v l') (h01 : (0 : K) ≠ 1) : l = l' := by
  rcases h with ⟨x, y, rfl, rfl, h⟩ | ⟨rfl, rfl⟩ | ⟨rfl, rfl⟩ <;> rcases h' with ⟨x', y', e1, e2, h'⟩ | ⟨h', h''⟩ | ⟨h', h''⟩
  · cases e1; cases e2; rw [← h, ← h']
  · cases h''; rw [h'] at h; rw [← h]; ring
  · cases h''; rw [h'] at h; rw [← h]; ring
  · cases e1; rw [← h']; ring
  · cases h''; rfl
  · exact absurd h' h01
  · cases e2; rw [← h']; ring
  · exact absurd h'.symm h01
  · cases h''; rfl

omit [LinearOrder K] [IsStrictOrderedRing K] in
theorem EdgeVal.at_zero {a b : Option K} {l : K} (h : EdgeVal a b 0 l) (h01 : (0 : K) ≠ 1) : a = some l := by
  rcases h with ⟨x, y, rfl, rfl, h⟩ | ⟨_, rfl⟩ | ⟨h, rfl⟩
  · rw [← h]; simp
  · rfl
  · exact absurd h h01

omit [LinearOrder K] [IsStrictOrderedRing K] in
theorem EdgeVal.at_one {a b : Option K} {l : K} (h : EdgeVal a b 1 l) (h01 : (0 : K) ≠ 1) : b = some l := by
  rcases h with ⟨x, y, rfl, rfl, h⟩ | ⟨h, rfl⟩ | ⟨_, rfl⟩
  · rw [← h]; simp
  · exact absurd h.symm h01
  · rfl

/-- a vertex on the line of a vertical side: it is on this side, or at an end of it where the value is the level -/
theorem vtx_on_v {Z : Vals K} {l : K} {s : Bool} {e : Bool × Bool} {r : K × K} (hc : Cr Z l e) (h : vtx Z l e = some r)
    (hr : r.1 = bk s) : (e = (true, s) ∧ ∃ x y, Z (s, false) = some x ∧ Z (s, true) = some y ∧ x ≠ y ∧ x + r.2 * (y - x) = l) ∨
      ∃ t, e = (false, t) ∧ r.2 = bk t ∧ Z (s, t) = some l := by
  obtain ⟨u, v, hu, hv, hre⟩ := vtx_some h
  have hc' := hc
  unfold Cr at hc'
  rw [hi_iff hu, hi_iff hv] at hc'
  have hd : v - u ≠ 0 := by
    intro h0
    have : v = u := by linarith
    rw [this] at hc'
    exact hc' Iff.rfl
  obtain ⟨a, b⟩ := e
  cases a
  · right
    refine ⟨b, rfl, ?_, ?_⟩
    · rw [hre]; simp [fstEnd, sndEnd, cpt]
    · rw [hre] at hr
      simp only [fstEnd, sndEnd, Bool.false_eq_true, if_false, cpt] at hr hu hv
      cases s
      · simp only [bk, Bool.false_eq_true, if_false, if_true, sub_zero, mul_one, zero_add, div_eq_zero_iff] at hr
        rcases hr with hr | hr
        · rw [hu]; congr 1; linarith
        · exact absurd hr hd
      · simp only [bk, Bool.false_eq_true, if_false, if_true, sub_zero, mul_one, zero_add] at hr
        rw [div_eq_iff hd] at hr
        rw [hv]; congr 1; linarith
  · left
    have hb : b = s := by
      rw [hre] at hr
      simp only [fstEnd, sndEnd, if_true, cpt, sub_self, mul_zero, add_zero] at hr
      cases b <;> cases s <;> simp [bk] at hr ⊢
    subst hb
    refine ⟨rfl, u, v, hu, hv, fun h0 => hd (by rw [h0, sub_self]), ?_⟩
    rw [hre]
    simp only [fstEnd, sndEnd, if_true, cpt, bk, Bool.false_eq_true, if_false, sub_zero, mul_one, zero_add]
    rw [div_mul_cancel₀ _ hd]
    ring

/-- a point of a piece on a vertical side of the cell -/
theorem piece_on_v {Z : Vals K} {l : K} {ctr : Prop} {s : Bool} {e e' : Bool × Bool} (J : Jn Z l ctr e e') {p q : K × K}
    (hp : vtx Z l e = some p) (hq : vtx Z l e' = some q) {τ : K} (ht : 0 ≤ τ ∧ τ ≤ 1) (h : p.1 + τ * (q.1 - p.1) = bk s) :
    EdgeVal (Z (s, false)) (Z (s, true)) (p.2 + τ * (q.2 - p.2)) l ∧
      ((∀ k, Z k ≠ some l) → e = (true, s) ∧ τ = 0 ∨ e' = (true, s) ∧ τ = 1) := by
  have one : ∀ {g : Bool × Bool} {r : K × K}, Cr Z l g → vtx Z l g = some r → r.1 = bk s → EdgeVal (Z (s, false)) (Z (s, true)) r.2 l ∧
      ((∀ k, Z k ≠ some l) → g = (true, s)) := by
    intro g r hc hr h1
    rcases vtx_on_v hc hr h1 with ⟨h2, x, y, hx, hy, _, h3⟩ | ⟨t, h2, h3, h4⟩
    · exact ⟨Or.inl ⟨x, y, hx, hy, h3⟩, fun _ => h2⟩
    · refine ⟨?_, fun h5 => absurd h4 (h5 _)⟩
      cases t
      · exact Or.inr (Or.inl ⟨h3, h4⟩)
      · exact Or.inr (Or.inr ⟨h3, h4⟩)
  have hp0 : 0 ≤ du (s, true) p ∧ 0 ≤ du (s, true) q := ⟨(vtx_range (s, true) J.cr hp).1, (vtx_range (s, true) J.cr' hq).1⟩
  have hmix : (1 - τ) * du (s, true) p + τ * du (s, true) q = 0 := by
    cases s <;> simp only [du, bk, Bool.false_eq_true, if_false, if_true] at h ⊢ <;> linarith
  rcases ht.1.lt_or_eq with h0 | h0
  · rcases ht.2.lt_or_eq with h1 | h1
    · have a1 := mul_nonneg (sub_nonneg.mpr h1.le) hp0.1
      have a2 := mul_nonneg h0.le hp0.2
      have b1 : (1 - τ) * du (s, true) p = 0 := by linarith
      have b2 : τ * du (s, true) q = 0 := by linarith
      have c1 : du (s, true) p = 0 := by
        rcases mul_eq_zero.mp b1 with h | h
        · linarith
        · exact h
      have c2 : du (s, true) q = 0 := by
        rcases mul_eq_zero.mp b2 with h | h
        · linarith
        · exact h
      have d1 : p.1 = bk s := by
        cases s <;> simp only [du, bk, Bool.false_eq_true, if_false, if_true] at c1 ⊢ <;> linarith
      have d2 : q.1 = bk s := by
        cases s <;> simp only [du, bk, Bool.false_eq_true, if_false, if_true] at c2 ⊢ <;> linarith
      rcases vtx_on_v J.cr hp d1 with ⟨g1, x, y, hx, hy, hne, g2⟩ | ⟨t, g1, g2, g3⟩ <;>
        rcases vtx_on_v J.cr' hq d2 with ⟨g1', x', y', hx', hy', _, g2'⟩ | ⟨t', g1', g2', g3'⟩
      · exact absurd (g1.trans g1'.symm) J.ne
      · have : p.2 = q.2 := by
          rw [g2']
          cases t'
          · rw [hx] at g3'; cases g3'
            have : p.2 * (y - l) = 0 := by linarith
            rcases mul_eq_zero.mp this with h | h
            · exact h
            · exact absurd (by linarith) hne
          · rw [hy] at g3'; cases g3'
            have : (1 - p.2) * (l - x) = 0 := by linarith
            rcases mul_eq_zero.mp this with h | h
            · show _ = (1 : K); linarith
            · exact absurd (by linarith) hne
        rw [← this, sub_self, mul_zero, add_zero]
        exact ⟨Or.inl ⟨x, y, hx, hy, g2⟩, fun h5 => absurd g3' (h5 _)⟩
      · have : q.2 = p.2 := by
          rw [g2]
          cases t
          · rw [hx'] at g3; cases g3
            have : q.2 * (y' - l) = 0 := by linarith
            rcases mul_eq_zero.mp this with h | h
            · exact h
            · exact absurd (by linarith) ‹l ≠ y'›
          · rw [hy'] at g3; cases g3
            have : (1 - q.2) * (l - x') = 0 := by linarith
            rcases mul_eq_zero.mp this with h | h
            · show _ = (1 : K); linarith
            · exact absurd (by linarith) ‹x' ≠ l›
        rw [this, sub_self, mul_zero, add_zero, ← this]
        exact ⟨Or.inl ⟨x', y', hx', hy', g2'⟩, fun h5 => absurd g3 (h5 _)⟩
      · have hne : t ≠ t' := fun h => J.ne (by rw [g1, g1', h])
        have hb : Z (s, false) = some l ∧ Z (s, true) = some l := by
          cases t <;> cases t' <;> simp at hne
          · exact ⟨g3, g3'⟩
          · exact ⟨g3', g3⟩
        exact ⟨Or.inl ⟨l, l, hb.1, hb.2, by ring⟩, fun h5 => absurd g3 (h5 _)⟩
    · subst h1
      have d2 : q.1 = bk s := by rw [← h]; ring
      have e1 : p.2 + 1 * (q.2 - p.2) = q.2 := by ring
      rw [e1]
      exact ⟨(one J.cr' hq d2).1, fun h5 => Or.inr ⟨(one J.cr' hq d2).2 h5, rfl⟩⟩
  · subst h0
    have d1 : p.1 = bk s := by rw [← h]; ring
    have e1 : p.2 + 0 * (q.2 - p.2) = p.2 := by ring
    rw [e1]
    exact ⟨(one J.cr hp d1).1, fun h5 => Or.inl ⟨(one J.cr hp d1).2 h5, rfl⟩⟩

/-! ### exchange of the axes -/

def flipV (Z : Vals K) : Vals K := fun k => Z (k.2, k.1)
def flipS (e : Bool × Bool) : Bool × Bool := (!e.1, e.2)

theorem flip_ends (e : Bool × Bool) : fstEnd (flipS e) = ((fstEnd e).2, (fstEnd e).1) ∧ sndEnd (flipS e) = ((sndEnd e).2, (sndEnd e).1) := by
  revert e; decide

omit [Field K] [IsStrictOrderedRing K] in
theorem hi_flip (Z : Vals K) (l : K) (k : Bool × Bool) : Hi (flipV Z) l (k.2, k.1) ↔ Hi Z l k := Iff.rfl

omit [Field K] [IsStrictOrderedRing K] in
theorem cr_flip (Z : Vals K) (l : K) (e : Bool × Bool) : Cr (flipV Z) l (flipS e) ↔ Cr Z l e := by
  unfold Cr
  rw [(flip_ends e).1, (flip_ends e).2, hi_flip, hi_flip]

omit [LinearOrder K] [IsStrictOrderedRing K] in
theorem vtx_flip {Z : Vals K} {l : K} {e : Bool × Bool} {p : K × K} (h : vtx Z l e = some p) :
    vtx (flipV Z) l (flipS e) = some (p.2, p.1) := by
  obtain ⟨u, v, hu, hv, rfl⟩ := vtx_some h
  have e1 : flipV Z (fstEnd (flipS e)) = some u := by rw [(flip_ends e).1]; exact hu
  have e2 : flipV Z (sndEnd (flipS e)) = some v := by rw [(flip_ends e).2]; exact hv
  unfold vtx
  rw [e1, e2, (flip_ends e).1, (flip_ends e).2]
  rfl

omit [Field K] [IsStrictOrderedRing K] in
theorem Jn.flip {Z : Vals K} {l : K} {ctr : Prop} {e e' : Bool × Bool} (J : Jn Z l ctr e e') :
    Jn (flipV Z) l ctr (flipS e) (flipS e') where
  ne h := J.ne (by
    have h1 := congrArg Prod.fst h
    have h2 := congrArg Prod.snd h
    simp only [flipS, Bool.not_inj_iff] at h1 h2
    exact Prod.ext h1 h2)
  cr := (cr_flip Z l e).2 J.cr
  cr' := (cr_flip Z l e').2 J.cr'
  saddle hall := by
    obtain ⟨c, h1, h2, h3⟩ := J.saddle fun s => (cr_flip Z l s).1 (hall _)
    refine ⟨(c.2, c.1), ?_, ?_, h3⟩
    · rw [(flip_ends e).1, (flip_ends e).2]
      rcases h1 with rfl | rfl
      · exact Or.inl rfl
      · exact Or.inr rfl
    · rw [(flip_ends e').1, (flip_ends e').2]
      rcases h2 with rfl | rfl
      · exact Or.inl rfl
      · exact Or.inr rfl

/-- a point of a piece on a horizontal side of the cell -/
theorem piece_on_h {Z : Vals K} {l : K} {ctr : Prop} {t : Bool} {e e' : Bool × Bool} (J : Jn Z l ctr e e') {p q : K × K}
    (hp : vtx Z l e = some p) (hq : vtx Z l e' = some q) {τ : K} (ht : 0 ≤ τ ∧ τ ≤ 1) (h : p.2 + τ * (q.2 - p.2) = bk t) :
    EdgeVal (Z (false, t)) (Z (true, t)) (p.1 + τ * (q.1 - p.1)) l ∧
      ((∀ k, Z k ≠ some l) → e = (false, t) ∧ τ = 0 ∨ e' = (false, t) ∧ τ = 1) := by
  obtain ⟨h1, h2⟩ := piece_on_v (s := t) J.flip (vtx_flip hp) (vtx_flip hq) ht h
  refine ⟨h1, fun h5 => ?_⟩
  have inj : ∀ g, flipS g = (true, t) → g = (false, t) := by
    intro g hg
    have h1 := congrArg Prod.fst hg
    have h2 := congrArg Prod.snd hg
    simp only [flipS] at h1 h2
    exact Prod.ext (by simpa using h1) h2
  rcases h2 fun k => h5 _ with ⟨h3, h4⟩ | ⟨h3, h4⟩
  · exact Or.inl ⟨inj _ h3, h4⟩
  · exact Or.inr ⟨inj _ h3, h4⟩

end Trackeddy.UnitCell
