import Verif.Proofs.Cntr.Unique
import Mathlib.Algebra.Order.Field.Rat
import Mathlib.Algebra.Order.Ring.Rat
import Mathlib.Tactic.FieldSimp
import Mathlib.Tactic.Linarith

/-!
C59-C61, C72-C81: contour extraction (trackeddy/geometry.py:9-42, trackeddy/src/cntr.c).
-/
namespace Trackeddy.Cntr
open Trackeddy.Spec

variable {K : Type} [Field K] [LinearOrder K]

/-! ### examples -/

/-- coordinates 0..3 times 0..2 -/
def exX : NdArr ℚ := ⟨3, 4, fun _ i => i⟩
def exY : NdArr ℚ := ⟨3, 4, fun j _ => j⟩

/-- one high value inside, one at the right border -/
def exZ : NdArr (Option ℚ) := ⟨3, 4, fun j i => some (if i = 1 ∧ j = 1 then 1 else if i = 3 ∧ j = 1 then 2 else 0)⟩

/-- with a missing value above the inner high -/
def exNaN : NdArr (Option ℚ) := ⟨3, 4, fun j i => if i = 1 ∧ j = 2 then none else exZ.get j i⟩

/-- the point on the right border is masked -/
def exMask : NdArr Bool := ⟨3, 4, fun j i => decide (i = 3 ∧ j = 1)⟩

def exMem : Memory := ⟨⟨fun _ => default⟩, ⟨fun _ => none⟩, fun _ => true⟩

theorem exShape : SameShape exX exY exZ none := ⟨rfl, rfl, by simp⟩
theorem exShapeNaN : SameShape exX exY exNaN none := ⟨rfl, rfl, by simp⟩
theorem exShapeMask : SameShape exX exY exZ (some exMask) := ⟨rfl, rfl, by simp [exMask, exZ]⟩

/-- a closed contour and one from border to border -/
example : extractContours exX exY exZ (1/2) (bound exZ) exMem = .ok
    ([.points [some (1, 1/2), some (3/2, 1), some (1, 3/2), some (1/2, 1), some (1, 1/2)],
      .points [some (3, 1/4), some (9/4, 1), some (3, 7/4)]],
     [.codes [1, 2, 2, 2, 2], .codes [1, 2, 2]]) := by decide +kernel

/-- no value is missing -/
def Full (Z : NdArr (Option K)) : Prop := ∀ j < Z.rows, ∀ i < Z.cols, ∃ v, Z.get j i = some v

theorem exFull : Full exZ := fun _ _ _ _ => ⟨_, rfl⟩

/-! ### C59 -/

/-- the vertex lies between two neighbouring grid points, one with a value above the level and one without, where the
linear interpolation of the values is the level -/
def AtLevel (X Y : NdArr K) (Z : NdArr (Option K)) (lev : K) (v : Vertex K) : Prop :=
  ∃ (e : Side) (u w τ : K), (arrGrid X Y Z none).InMesh e ∧
    Z.get e.a.2 e.a.1 = some u ∧ Z.get e.b.2 e.b.1 = some w ∧ (u ≤ lev ∧ lev < w ∨ w ≤ lev ∧ lev < u) ∧
    0 ≤ τ ∧ τ ≤ 1 ∧ u + τ * (w - u) = lev ∧
    v = some (X.get e.a.2 e.a.1 + τ * (X.get e.b.2 e.b.1 - X.get e.a.2 e.a.1),
      Y.get e.a.2 e.a.1 + τ * (Y.get e.b.2 e.b.1 - Y.get e.a.2 e.a.1))

theorem weight_range [IsStrictOrderedRing K] {u w lev : K} (h : u ≤ lev ∧ lev < w ∨ w ≤ lev ∧ lev < u) :
    0 ≤ (lev - u) / (w - u) ∧ (lev - u) / (w - u) ≤ 1 ∧ u + (lev - u) / (w - u) * (w - u) = lev := by
  have hne : w - u ≠ 0 := by
    rcases h with ⟨h1, h2⟩ | ⟨h1, h2⟩
    · exact (sub_pos.mpr (lt_of_le_of_lt h1 h2)).ne'
    · exact (sub_neg.mpr (lt_of_le_of_lt h1 h2)).ne
  refine ⟨?_, ?_, by field_simp; ring⟩
  · rcases h with ⟨h1, h2⟩ | ⟨h1, h2⟩
    · exact div_nonneg (by linarith) (by linarith)
    · exact div_nonneg_of_nonpos (by linarith) (by linarith)
  · rcases h with ⟨h1, h2⟩ | ⟨h1, h2⟩
    · rw [div_le_one (by linarith)]; linarith
    · rw [div_le_one_of_neg (by linarith)]; linarith

theorem crossed_values {X Y : NdArr K} {Z : NdArr (Option K)} {lev : K} {e : Side}
    (hm : (arrGrid X Y Z none).InMesh e) (hc : (arrGrid X Y Z none).Crossed lev e) {u w : K}
    (hu : Z.get e.a.2 e.a.1 = some u) (hw : Z.get e.b.2 e.b.1 = some w) : u ≤ lev ∧ lev < w ∨ w ≤ lev ∧ lev < u := by
  unfold Grid.Crossed Grid.Above at hc
  simp only [arrGrid] at hc
  rw [hu, hw] at hc
  simp only [Option.some.injEq, exists_eq_left'] at hc
  rcases le_or_gt u lev with h1 | h1 <;> rcases le_or_gt w lev with h2 | h2
  · exact absurd ⟨fun h => absurd h (not_lt.mpr h1), fun h => absurd h (not_lt.mpr h2)⟩ hc
  · exact Or.inl ⟨h1, h2⟩
  · exact Or.inr ⟨h2, h1⟩
  · exact absurd ⟨fun _ => h2, fun _ => h1⟩ hc

theorem atLevel_point [IsStrictOrderedRing K] {X Y : NdArr K} {Z : NdArr (Option K)} (hz : Full Z) {lev : K} {e : Side}
    (hm : (arrGrid X Y Z none).InMesh e) (hc : (arrGrid X Y Z none).Crossed lev e) :
    AtLevel X Y Z lev ((arrGrid X Y Z none).point lev e) := by
  obtain ⟨c, hc1, hc2⟩ := hm
  obtain ⟨⟨a1, a2⟩, ⟨b1, b2⟩⟩ := side_inside hc1 hc2
  obtain ⟨u, hu⟩ := hz _ a2 _ a1
  obtain ⟨w, hw⟩ := hz _ b2 _ b1
  have hr := crossed_values ⟨c, hc1, hc2⟩ hc hu hw
  obtain ⟨t0, t1, t2⟩ := weight_range hr
  refine ⟨e, u, w, _, ⟨c, hc1, hc2⟩, hu, hw, hr, t0, t1, t2, ?_⟩
  unfold Grid.point
  simp only [arrGrid]
  rw [hu, hw]

/-- **C59** every vertex of every contour lies on a side of a grid cell at the level. -/
theorem C59_vertices_at_level [DecidableEq K] [IsStrictOrderedRing K] {X Y : NdArr K} {Z : NdArr (Option K)}
    (h : SameShape X Y Z none) (hz : Full Z) (lev : K) {fuel : ℕ} (mem : Memory) (hf : bound Z ≤ fuel) :
    ∃ segs codes, extractContours X Y Z lev fuel mem = .ok (segs, codes) ∧
      ∀ s ∈ segs, ∃ vs, s = .points vs ∧ ∀ v ∈ vs, AtLevel X Y Z lev v := by
  obtain ⟨cs, hcs, hres⟩ := extract_result h lev
  refine ⟨_, _, hres fuel mem hf, fun s hs => ?_⟩
  unfold pointArrays at hs
  obtain ⟨es, hes, rfl⟩ := List.mem_map.mp hs
  refine ⟨_, rfl, fun v hv => ?_⟩
  obtain ⟨e, he, rfl⟩ := List.mem_map.mp hv
  obtain ⟨hm, hc⟩ := contour_sides (hcs.each es hes) he
  exact atLevel_point hz hm hc

example : ∃ segs codes, extractContours exX exY exZ (1/2) (bound exZ) exMem = .ok (segs, codes) ∧
    ∀ s ∈ segs, ∃ vs, s = .points vs ∧ ∀ v ∈ vs, AtLevel exX exY exZ (1/2) v :=
  C59_vertices_at_level exShape exFull _ _ le_rfl

/-! ### C60 -/

/-- the vertices are the points on two different sides of one cell -/
def InOneCell (G : Grid K) (lev : K) (v v' : Vertex K) : Prop :=
  ∃ (c : ℕ × ℕ) (e e' : Side), G.IsCell c ∧ e ∈ sidesOf c ∧ e' ∈ sidesOf c ∧ e ≠ e' ∧
    G.Crossed lev e ∧ G.Crossed lev e' ∧ v = G.point lev e ∧ v' = G.point lev e'

/-- **C60** consecutive vertices lie on different sides of one grid cell, with or without missing values. -/
theorem C60_consecutive_in_one_cell [DecidableEq K] {X Y : NdArr K} {Z : NdArr (Option K)}
    (h : SameShape X Y Z none) (lev : K) {fuel : ℕ} (mem : Memory) (hf : bound Z ≤ fuel) :
    ∃ segs codes, extractContours X Y Z lev fuel mem = .ok (segs, codes) ∧
      ∀ s ∈ segs, ∃ vs, s = .points vs ∧ vs.IsChain (InOneCell (arrGrid X Y Z none) lev) := by
  obtain ⟨cs, hcs, hres⟩ := extract_result h lev
  refine ⟨_, _, hres fuel mem hf, fun s hs => ?_⟩
  unfold pointArrays at hs
  obtain ⟨es, hes, rfl⟩ := List.mem_map.mp hs
  refine ⟨_, rfl, ?_⟩
  rw [List.isChain_map]
  refine (hcs.each es hes).joined.imp fun e e' hj => ?_
  obtain ⟨c, h1, h2, h3, h4, h5, h6, _⟩ := hj
  exact ⟨c, e, e', h1, h2, h3, h4, h5, h6, rfl, rfl⟩

/-- **C60** if the level passes through all four sides of a cell, the two lines in it do not separate the two corners that
lie on the same side of the level as the cell mean. -/
theorem C60_saddles [DecidableEq K] {X Y : NdArr K} {Z : NdArr (Option K)}
    (h : SameShape X Y Z none) (lev : K) {fuel : ℕ} (mem : Memory) (hf : bound Z ≤ fuel) :
    ∃ cs : List (List Side), extractContours X Y Z lev fuel mem =
        .ok (pointArrays (arrGrid X Y Z none) lev cs, codeArrays cs) ∧
      ∀ es ∈ cs, ∀ e e', [e, e'] <:+: es → ∃ c, (arrGrid X Y Z none).IsCell c ∧ e ∈ sidesOf c ∧ e' ∈ sidesOf c ∧
        ((∀ s ∈ sidesOf c, (arrGrid X Y Z none).Crossed lev s) →
          ∃ p, (p = e.a ∨ p = e.b) ∧ (p = e'.a ∨ p = e'.b) ∧
            ((arrGrid X Y Z none).Above lev p ↔ ¬ (arrGrid X Y Z none).CentreAbove lev c)) := by
  obtain ⟨cs, hcs, hres⟩ := extract_result h lev
  refine ⟨cs, hres fuel mem hf, fun es hes e e' hin => ?_⟩
  have := (hcs.each es hes).joined.infix hin
  simp only [List.isChain_cons_cons, List.isChain_singleton, and_true] at this
  obtain ⟨c, h1, h2, h3, _, _, _, h7⟩ := this
  exact ⟨c, h1, h2, h3, h7⟩

/-- two high and two low corners with the mean above the level: the lines cut off the low corners -/
example : extractContours (⟨2, 2, fun _ i => i⟩ : NdArr ℚ) ⟨2, 2, fun j _ => j⟩
    ⟨2, 2, fun j i => some (if i = j then 4 else 0)⟩ 1 18 exMem = .ok
    ([.points [some (3/4, 0), some (1, 1/4)], .points [some (0, 3/4), some (1/4, 1)]], [.codes [1, 2], .codes [1, 2]]) := by
  decide +kernel

/-! ### C61 -/

/-- **C61** with a mask, exactly the cells without masked corner are contoured: the contours consist of the sides of such
cells that are crossed by the level, each once. -/
theorem C61_masked [DecidableEq K] {X Y : NdArr K} {Z : NdArr (Option K)} {M : NdArr Bool}
    (h : SameShape X Y Z (some M)) (lev : K) {fuel : ℕ} (mem : Memory) (hf : bound Z ≤ fuel) :
    ∃ cs : List (List Side), cntrTrace X Y Z (some M) lev fuel mem =
        .ok (pointArrays (arrGrid X Y Z (some M)) lev cs ++ codeArrays cs) ∧
      (cs.flatMap body).Nodup ∧
      ∀ e, (∃ es ∈ cs, e ∈ es) ↔ (arrGrid X Y Z (some M)).Crossed lev e ∧
        ∃ i j, i + 1 < Z.cols ∧ j + 1 < Z.rows ∧ M.get j i = false ∧ M.get j (i + 1) = false ∧ M.get (j + 1) i = false ∧
          M.get (j + 1) (i + 1) = false ∧ e ∈ sidesOf (i, j) := by
  obtain ⟨cs, hcs, hres⟩ := cntr_result h lev
  refine ⟨cs, hres fuel mem hf, hcs.once, fun e => ?_⟩
  rw [contours_cover hcs, and_comm]
  refine and_congr_right fun _ => ?_
  unfold Grid.InMesh Grid.IsCell
  simp only [arrGrid, cornersOf, List.mem_cons, List.not_mem_nil, or_false, forall_eq_or_imp, forall_eq, Prod.exists]
  constructor
  · rintro ⟨i, j, ⟨h1, h2, h3, h4, h5, h6⟩, h7⟩
    exact ⟨i, j, h1, h2, h3, h4, h5, h6, h7⟩
  · rintro ⟨i, j, h1, h2, h3, h4, h5, h6, h7⟩
    exact ⟨i, j, ⟨h1, h2, h3, h4, h5, h6⟩, h7⟩

/-- the contour at the masked point is gone -/
example : cntrTrace exX exY exZ (some exMask) (1/2) (bound exZ) exMem = .ok
    [.points [some (1, 1/2), some (3/2, 1), some (1, 3/2), some (1/2, 1), some (1, 1/2)], .codes [1, 2, 2, 2, 2]] := by
  decide +kernel

/-! ### C72 -/

/-- without mask a side of one cell only lies on the edge of the grid -/
theorem border_outer {X Y : NdArr K} {Z : NdArr (Option K)} {e : Side} (h : (arrGrid X Y Z none).Border e) :
    (e.vert = true ∧ (e.i = 0 ∨ e.i + 1 = Z.cols)) ∨ (e.vert = false ∧ (e.j = 0 ∨ e.j + 1 = Z.rows)) := by
  obtain ⟨c, ⟨hc, hs⟩, hu⟩ := h
  have cell : ∀ i j, i + 1 < Z.cols → j + 1 < Z.rows → (arrGrid X Y Z none).IsCell (i, j) :=
    fun i j h1 h2 => ⟨h1, h2, fun _ _ => rfl⟩
  obtain ⟨c1, c2⟩ := c
  obtain ⟨g1, g2, _⟩ := hc
  simp only [arrGrid] at g1 g2
  rw [sides_mem] at hs
  simp only at hs
  by_contra hcon
  push Not at hcon
  rcases hs with rfl | rfl | rfl | rfl <;> simp only [Bool.false_eq_true, Bool.true_eq_false, false_implies, true_implies,
    true_and, and_true, forall_const] at hcon
  · obtain ⟨k, hk⟩ : ∃ k, c2 = k + 1 := ⟨c2 - 1, by omega⟩
    have := hu (c1, k) ⟨cell _ _ (by omega) (by omega), by rw [sides_mem]; simp [hk]⟩
    simp only [Prod.mk.injEq] at this
    omega
  · have := hu (c1 + 1, c2) ⟨cell _ _ (by omega) (by omega), by rw [sides_mem]; simp⟩
    simp only [Prod.mk.injEq] at this
    omega
  · have := hu (c1, c2 + 1) ⟨cell _ _ (by omega) (by omega), by rw [sides_mem]; simp⟩
    simp only [Prod.mk.injEq] at this
    omega
  · obtain ⟨k, hk⟩ : ∃ k, c1 = k + 1 := ⟨c1 - 1, by omega⟩
    have := hu (k, c2) ⟨cell _ _ (by omega) (by omega), by rw [sides_mem]; simp [hk]⟩
    simp only [Prod.mk.injEq] at this
    omega

/-- grid edges crossed by the level: neighbouring grid points of the array of which one is above the level -/
def CrossedEdge (Z : NdArr (Option K)) (lev : K) (e : Side) : Prop :=
  e.b.1 < Z.cols ∧ e.b.2 < Z.rows ∧
    ¬ ((∃ v, Z.get e.a.2 e.a.1 = some v ∧ lev < v) ↔ ∃ v, Z.get e.b.2 e.b.1 = some v ∧ lev < v)

theorem crossedEdge_iff {X Y : NdArr K} {Z : NdArr (Option K)} {lev : K} (hr : 2 ≤ Z.rows) (hc : 2 ≤ Z.cols) (e : Side) :
    CrossedEdge Z lev e ↔ (arrGrid X Y Z none).InMesh e ∧ (arrGrid X Y Z none).Crossed lev e := by
  unfold CrossedEdge
  rw [← and_assoc]
  refine and_congr ⟨fun h => ?_, fun h => ?_⟩ Iff.rfl
  · obtain ⟨i, j, v⟩ := e
    have cell : ∀ i j, i + 1 < Z.cols → j + 1 < Z.rows → (arrGrid X Y Z none).IsCell (i, j) :=
      fun i j h1 h2 => ⟨h1, h2, fun _ _ => rfl⟩
    cases v
    · simp only [Side.b, Bool.false_eq_true, if_false] at h
      by_cases hj : j + 1 < Z.rows
      · exact ⟨(i, j), cell _ _ h.1 hj, by rw [sides_mem]; simp⟩
      · exact ⟨(i, j - 1), cell _ _ h.1 (by omega), by rw [sides_mem]; right; right; left; simp; omega⟩
    · simp only [Side.b, if_true] at h
      by_cases hi : i + 1 < Z.cols
      · exact ⟨(i, j), cell _ _ hi h.2, by rw [sides_mem]; simp⟩
      · exact ⟨(i - 1, j), cell _ _ (by omega) h.2, by rw [sides_mem]; right; left; simp; omega⟩
  · obtain ⟨c, h1, h2⟩ := h
    exact (side_inside h1 h2).2

/-- **C72** on a grid with at least two rows and columns the contours pass through every grid edge that the level crosses,
each exactly once, and through no other; a contour is closed or starts and ends on the edge of the grid. -/
theorem C72_complete [DecidableEq K] {X Y : NdArr K} {Z : NdArr (Option K)} (h : SameShape X Y Z none) (hr : 2 ≤ Z.rows)
    (hc : 2 ≤ Z.cols) (lev : K) {fuel : ℕ} (mem : Memory) (hf : bound Z ≤ fuel) :
    ∃ cs : List (List Side), extractContours X Y Z lev fuel mem =
        .ok (pointArrays (arrGrid X Y Z none) lev cs, codeArrays cs) ∧
      (∀ e, e ∈ cs.flatMap body ↔ CrossedEdge Z lev e) ∧ (cs.flatMap body).Nodup ∧
      ∀ es ∈ cs, 2 ≤ es.length ∧ ((5 ≤ es.length ∧ es.head? = es.getLast?) ∨
        ∀ e, es.head? = some e ∨ es.getLast? = some e →
          (e.vert = true ∧ (e.i = 0 ∨ e.i + 1 = Z.cols)) ∨ (e.vert = false ∧ (e.j = 0 ∨ e.j + 1 = Z.rows))) := by
  obtain ⟨cs, hcs, hres⟩ := extract_result h lev
  refine ⟨cs, hres fuel mem hf, fun e => ?_, hcs.once, fun es hes => ?_⟩
  · rw [crossedEdge_iff (X := X) (Y := Y) hr hc]; exact hcs.all e
  · have hi := hcs.each es hes
    refine ⟨hi.two, ?_⟩
    by_cases hcl : es.head? = es.getLast?
    · exact Or.inl ⟨hi.closed hcl, hcl⟩
    · exact Or.inr fun e he => border_outer (hi.opened hcl e he)

/-- **C72** the result does not depend on the way the contours are found: any family of contour lines that covers the
crossed edges consists of the same closed and open curves, up to their order, starting points and directions. -/
theorem C72_unique [DecidableEq K] {X Y : NdArr K} {Z : NdArr (Option K)} (h : SameShape X Y Z none) (lev : K) {fuel : ℕ}
    (mem : Memory) (hf : bound Z ≤ fuel) {cs' : List (List Side)} (hcs' : Contours (arrGrid X Y Z none) lev cs') :
    ∃ cs : List (List Side), extractContours X Y Z lev fuel mem =
        .ok (pointArrays (arrGrid X Y Z none) lev cs, codeArrays cs) ∧
      SameLines cs cs' := by
  obtain ⟨cs, hcs, hres⟩ := extract_result h lev
  exact ⟨cs, hres fuel mem hf, contours_sameLines hcs hcs'⟩

example : ∃ cs, Contours (arrGrid exX exY exZ none) (1/2 : ℚ) cs := (extract_result exShape _).imp fun _ h => h.1
example : 2 ≤ exZ.rows ∧ 2 ≤ exZ.cols := by decide

/-! ### C73 -/

/-- **C73** for arrays of equal shape tracing always ends with a result: no access outside the arrays, no endless loop, no
error; and the result depends neither on the bound on the rounds nor on the content of fresh memory. -/
theorem C73_total_and_deterministic [DecidableEq K] {X Y : NdArr K} {Z : NdArr (Option K)} {mask : Option (NdArr Bool)}
    (h : SameShape X Y Z mask) (lev : K) :
    ∃ res, ∀ (fuel : ℕ) (mem : Memory), bound Z ≤ fuel → cntrTrace X Y Z mask lev fuel mem = .ok res := by
  obtain ⟨cs, _, hres⟩ := cntr_result h lev
  exact ⟨_, hres⟩

/-- other memory content -/
example : cntrTrace exX exY exZ none (1/2) 1000 ⟨⟨fun k => { z := decide (k % 2 = 0), i0 := true, opn := true }⟩,
    ⟨fun _ => some true⟩, fun _ => false⟩ = cntrTrace exX exY exZ none (1/2) (bound exZ) exMem := by
  obtain ⟨res, hres⟩ := C73_total_and_deterministic exShape (1/2)
  rw [hres, hres] <;> decide

/-! ### C74 -/

/-- **C74** every contour comes with as many codes as vertices, at least two: MOVETO and then LINETO only. -/
theorem C74_codes_match [DecidableEq K] {X Y : NdArr K} {Z : NdArr (Option K)} (h : SameShape X Y Z none) (lev : K) {fuel : ℕ}
    (mem : Memory) (hf : bound Z ≤ fuel) :
    ∃ segs codes, extractContours X Y Z lev fuel mem = .ok (segs, codes) ∧ segs.length = codes.length ∧
      ∀ k (hk : k < segs.length) (hk' : k < codes.length), ∃ (vs : List (Vertex K)) (n : ℕ), vs.length = n + 2 ∧
        segs[k] = .points vs ∧ codes[k] = .codes (1 :: List.replicate (n + 1) 2) := by
  obtain ⟨cs, hcs, hres⟩ := extract_result h lev
  refine ⟨_, _, hres fuel mem hf, by rw [pointArrays_length, codeArrays_length], fun k hk hk' => ?_⟩
  rw [pointArrays_length] at hk
  have h2 := (hcs.each _ (List.getElem_mem hk)).two
  refine ⟨cs[k].map ((arrGrid X Y Z none).point lev), cs[k].length - 2, by rw [List.length_map]; omega, ?_, ?_⟩
  · simp only [pointArrays, List.getElem_map]
  · simp only [codeArrays, List.getElem_map, Item.codes.injEq]
    obtain ⟨n, hn⟩ : ∃ n, cs[k].length = n + 2 := ⟨cs[k].length - 2, by omega⟩
    rw [hn]
    unfold codes
    rw [List.range_succ_eq_map, List.map_cons, if_pos rfl, List.map_map]
    congr 1
    rw [List.eq_replicate_iff]
    constructor
    · simp
    · intro b hb
      obtain ⟨a, _, rfl⟩ := List.mem_map.mp hb
      simp

/-! ### C75 -/

/-- **C75** arrays of different shape, and only those, are rejected with a ValueError. -/
theorem C75_value_error_iff [DecidableEq K] (X Y : NdArr K) (Z : NdArr (Option K)) (lev : K) {fuel : ℕ} (mem : Memory)
    (hf : bound Z ≤ fuel) :
    extractContours X Y Z lev fuel mem = .error .valueError ↔
      ¬ ((X.rows, X.cols) = (Z.rows, Z.cols) ∧ (Y.rows, Y.cols) = (Z.rows, Z.cols)) := by
  by_cases h : SameShape X Y Z none
  · obtain ⟨cs, _, hres⟩ := extract_result h lev
    rw [hres fuel mem hf]
    simp only [reduceCtorEq, false_iff, not_not]
    exact ⟨h.1, h.2.1⟩
  · have h' : ¬ ((X.rows, X.cols) = (Z.rows, Z.cols) ∧ (Y.rows, Y.cols) = (Z.rows, Z.cols)) :=
      fun hh => h ⟨hh.1, hh.2, by simp⟩
    unfold extractContours cntrTrace
    rw [cntrInit_bad h]
    simp only [bind, Except.bind, true_iff]
    exact h'

example : extractContours exX exY (⟨4, 3, fun _ _ => some 0⟩ : NdArr (Option ℚ)) 0 100 exMem = .error .valueError := by
  decide +kernel

/-! ### C76 -/

/-- **C76** is false: next to missing data the contours have missing vertices. -/
theorem C76_refuted : ∃ (X Y : NdArr ℚ) (Z : NdArr (Option ℚ)) (lev : ℚ) (segs codes : List (Item ℚ)) (vs : List (Vertex ℚ)),
    SameShape X Y Z none ∧ extractContours X Y Z lev (bound Z) exMem = .ok (segs, codes) ∧ .points vs ∈ segs ∧ none ∈ vs := by
  refine ⟨exX, exY, exNaN, 1/2,
    [.points [some (1, 1/2), some (3/2, 1), none, some (1/2, 1), some (1, 1/2)],
     .points [some (3, 1/4), some (9/4, 1), some (3, 7/4)]],
    [.codes [1, 2, 2, 2, 2], .codes [1, 2, 2]],
    [some (1, 1/2), some (3/2, 1), none, some (1/2, 1), some (1, 1/2)], exShapeNaN, by decide +kernel, by simp, by simp⟩

/-- **C76, partial** the vertices that are missing are exactly those on edges with a missing value, at the other end of
which the value is above the level. -/
theorem C76_partial [DecidableEq K] {X Y : NdArr K} {Z : NdArr (Option K)} (h : SameShape X Y Z none) (lev : K) {fuel : ℕ}
    (mem : Memory) (hf : bound Z ≤ fuel) :
    ∃ cs : List (List Side), extractContours X Y Z lev fuel mem =
        .ok (pointArrays (arrGrid X Y Z none) lev cs, codeArrays cs) ∧
      ∀ es ∈ cs, ∀ e ∈ es, ((arrGrid X Y Z none).point lev e = none ↔
        (Z.get e.a.2 e.a.1 = none ∧ ∃ v, Z.get e.b.2 e.b.1 = some v ∧ lev < v) ∨
        (Z.get e.b.2 e.b.1 = none ∧ ∃ v, Z.get e.a.2 e.a.1 = some v ∧ lev < v)) := by
  obtain ⟨cs, hcs, hres⟩ := extract_result h lev
  refine ⟨cs, hres fuel mem hf, fun es hes e he => ?_⟩
  obtain ⟨_, hc⟩ := contour_sides (hcs.each es hes) he
  unfold Grid.Crossed Grid.Above at hc
  unfold Grid.point
  simp only [arrGrid] at hc ⊢
  cases hu : Z.get e.a.2 e.a.1 <;> cases hw : Z.get e.b.2 e.b.1 <;> rw [hu, hw] at hc <;> simp at hc ⊢ <;> exact hc

/-- **C76, partial** with complete data all vertices are present. -/
theorem C76_partial_full [DecidableEq K] {X Y : NdArr K} {Z : NdArr (Option K)} (h : SameShape X Y Z none) (hz : Full Z) (lev : K)
    {fuel : ℕ} (mem : Memory) (hf : bound Z ≤ fuel) :
    ∃ segs codes, extractContours X Y Z lev fuel mem = .ok (segs, codes) ∧
      ∀ s ∈ segs, ∃ vs, s = .points vs ∧ none ∉ vs := by
  obtain ⟨cs, hcs, hres⟩ := extract_result h lev
  refine ⟨_, _, hres fuel mem hf, fun s hs => ?_⟩
  unfold pointArrays at hs
  obtain ⟨es, hes, rfl⟩ := List.mem_map.mp hs
  refine ⟨_, rfl, fun hv => ?_⟩
  obtain ⟨e, he, hn⟩ := List.mem_map.mp hv
  obtain ⟨⟨c, h1, h2⟩, _⟩ := contour_sides (hcs.each es hes) he
  obtain ⟨⟨a1, a2⟩, ⟨b1, b2⟩⟩ := side_inside h1 h2
  obtain ⟨u, hu⟩ := hz _ a2 _ a1
  obtain ⟨w, hw⟩ := hz _ b2 _ b1
  unfold Grid.point at hn
  simp only [arrGrid] at hn
  rw [hu, hw] at hn
  simp at hn

/-! ### C77 -/

/-- **C77** is false: a contour with a missing vertex is only skipped if the first vertex is missing. -/
theorem C77_refuted : ∃ (X Y : NdArr ℚ) (Z : NdArr (Option ℚ)) (lev : ℚ) (segs codes : List (Item ℚ)) (vs : List (Vertex ℚ)),
    SameShape X Y Z none ∧ extractContours X Y Z lev (bound Z) exMem = .ok (segs, codes) ∧ .points vs ∈ segs ∧ none ∈ vs ∧
      skipsContour vs = false := by
  refine ⟨exX, exY, exNaN, 1/2,
    [.points [some (1, 1/2), some (3/2, 1), none, some (1/2, 1), some (1, 1/2)],
     .points [some (3, 1/4), some (9/4, 1), some (3, 7/4)]],
    [.codes [1, 2, 2, 2, 2], .codes [1, 2, 2]],
    [some (1, 1/2), some (3/2, 1), none, some (1/2, 1), some (1, 1/2)], exShapeNaN, by decide +kernel, by simp, by simp,
    by decide +kernel⟩

/-- **C77, partial** a contour with a missing vertex is skipped iff its first vertex is missing. -/
theorem C77_partial [DecidableEq K] {vs : List (Vertex K)} (h : none ∈ vs) : skipsContour vs = true ↔ vs.head? = some none := by
  have hm : ∀ g : K × K → K, meanOf (vs.map fun v => v.map g) = none := by
    intro g
    unfold meanOf
    rw [if_neg]
    simp only [List.all_eq_true, not_forall]
    exact ⟨none, List.mem_map.mpr ⟨none, h, rfl⟩, by simp⟩
  unfold skipsContour
  cases vs with
  | nil => simp at h
  | cons v l =>
    simp only
    rw [hm Prod.fst, hm Prod.snd]
    cases v <;> simp [closeNan]

example : none ∈ ([none, some (1, 2)] : List (Vertex ℚ)) := by simp
example : skipsContour ([none, some (1, 2)] : List (Vertex ℚ)) = true := by decide +kernel
example : skipsContour ([some (1, 2), none] : List (Vertex ℚ)) = false := by decide +kernel

end Trackeddy.Cntr
