import Verif.Props.Contour
import Verif.Proofs.Cntr.Relisted

/-!
C78-C82: contours of changed data, coordinates and grids (trackeddy/geometry.py:9-42, trackeddy/src/cntr.c).
-/
namespace Trackeddy.Cntr
open Trackeddy.Spec

variable {K : Type} [Field K] [LinearOrder K]

/-! ### C78 -/

/-- the value at row `j`, column `i` is above the level -/
def AboveAt (Z : NdArr (Option K)) (lev : K) (j i : ℕ) : Prop := ∃ v, Z.get j i = some v ∧ lev < v

theorem connected {Z : NdArr (Option K)} {lev : K} (h : ∀ e, ¬ CrossedEdge Z lev e) {j i : ℕ} (hj : j < Z.rows) (hi : i < Z.cols) :
    AboveAt Z lev j i ↔ AboveAt Z lev 0 0 := by
  have h1 : ∀ i, i < Z.cols → (AboveAt Z lev j i ↔ AboveAt Z lev j 0) := by
    intro i hi
    induction i with
    | zero => rfl
    | succ i ih =>
      rw [← ih (by omega)]
      by_contra hn
      refine h ⟨i, j, false⟩ ⟨by simpa [Side.b] using hi, by simpa [Side.b] using hj, ?_⟩
      simp only [Side.a, Side.b, Bool.false_eq_true, if_false]
      exact fun hh => hn hh.symm
  rw [h1 i hi]
  have h0 : 0 < Z.cols := by omega
  clear h1 hi
  induction j with
  | zero => rfl
  | succ j ih =>
    refine Iff.trans ?_ (ih (by omega))
    by_contra hn
    refine h ⟨0, j, true⟩ ⟨by simpa [Side.b] using h0, by simpa [Side.b] using hj, ?_⟩
    simp only [Side.a, Side.b, if_true]
    exact fun hh => hn hh.symm

/-- **C78** no contours are returned exactly if all values of the field are above the level or none is. -/
theorem C78_empty_iff [DecidableEq K] {X Y : NdArr K} {Z : NdArr (Option K)} (h : SameShape X Y Z none) (hr : 2 ≤ Z.rows)
    (hc : 2 ≤ Z.cols) (lev : K) {fuel : ℕ} (mem : Memory) (hf : bound Z ≤ fuel) :
    extractContours X Y Z lev fuel mem = .ok ([], []) ↔
      (∀ j < Z.rows, ∀ i < Z.cols, AboveAt Z lev j i) ∨ (∀ j < Z.rows, ∀ i < Z.cols, ¬ AboveAt Z lev j i) := by
  obtain ⟨cs, hres, hall, _, heach⟩ := C72_complete h hr hc lev mem hf
  rw [hres]
  have hnil : cs = [] ↔ ∀ e, ¬ CrossedEdge Z lev e := by
    constructor
    · rintro rfl e he
      exact absurd ((hall e).mpr he) (by simp)
    · intro hn
      cases cs with
      | nil => rfl
      | cons es cs =>
        exfalso
        have h2 := (heach es (by simp)).1
        have hm : es[0] ∈ (es :: cs).flatMap body := by
          rw [List.flatMap_cons, List.mem_append]
          exact Or.inl ((mem_body h2).mpr (List.getElem_mem _))
        exact hn _ ((hall _).mp hm)
  have : (Except.ok (pointArrays (arrGrid X Y Z none) lev cs, codeArrays cs) : Except CntrErr (List (Item K) × List (Item K))) =
      .ok ([], []) ↔ cs = [] := by
    simp [pointArrays, codeArrays]
  rw [this, hnil]
  constructor
  · intro hn
    by_cases h0 : AboveAt Z lev 0 0
    · exact Or.inl fun j hj i hi => (connected hn hj hi).mpr h0
    · exact Or.inr fun j hj i hi hh => h0 ((connected hn hj hi).mp hh)
  · intro hh e ⟨h1, h2, h3⟩
    have ha : e.a.1 < Z.cols ∧ e.a.2 < Z.rows := by
      obtain ⟨i, j, v⟩ := e
      cases v <;> simp [Side.a, Side.b] at h1 h2 ⊢ <;> omega
    rcases hh with hh | hh
    · exact h3 ⟨fun _ => hh _ h2 _ h1, fun _ => hh _ ha.2 _ ha.1⟩
    · exact h3 ⟨fun hx => absurd hx (hh _ ha.2 _ ha.1), fun hx => absurd hx (hh _ h2 _ h1)⟩

example : extractContours exX exY exZ 5 (bound exZ) exMem = .ok ([], []) := by
  rw [C78_empty_iff exShape (by decide) (by decide) _ _ le_rfl]
  right
  rintro j _ i _ ⟨v, hv, hlt⟩
  simp only [exZ, Option.some.injEq] at hv
  subst hv
  split_ifs at hlt <;> norm_num at hlt
example : extractContours exX exY exZ (1/2) (bound exZ) exMem ≠ .ok ([], []) := by decide +kernel

/-! ### C79 -/

/-- a map of the vertices applied to a returned array -/
def Item.map (g : K × K → K × K) : Item K → Item K
  | .points vs => .points (vs.map (Option.map g))
  | .codes c => .codes c

/-- **C79** the contours are found in index space: after an affine change of the coordinates (a shift of the longitudes, other
units, exchanged or rotated axes) the same contours are returned in the new coordinates, in the same order. -/
theorem C79_affine_coordinates [DecidableEq K] {X Y : NdArr K} {Z : NdArr (Option K)} (h : SameShape X Y Z none) (lev : K)
    (a b c a' b' c' : K) {fuel fuel' : ℕ} (mem mem' : Memory) (hf : bound Z ≤ fuel) (hf' : bound Z ≤ fuel') :
    ∃ segs codes, extractContours X Y Z lev fuel mem = .ok (segs, codes) ∧
      extractContours (NdArr.lin a b c X Y) (NdArr.lin a' b' c' X Y) Z lev fuel' mem' =
        .ok (segs.map (Item.map fun p => (a * p.1 + b * p.2 + c, a' * p.1 + b' * p.2 + c')), codes) := by
  obtain ⟨cs, _, hres⟩ := extract_same h lev
  refine ⟨_, _, hres X Y Z lev h (sameTopo_refl _ _ _ _ _) fuel mem hf, ?_⟩
  rw [hres (NdArr.lin a b c X Y) (NdArr.lin a' b' c' X Y) Z lev ⟨h.1, h.1, by simp⟩ ⟨rfl, rfl, fun _ => rfl⟩ fuel' mem' hf']
  congr 2
  unfold pointArrays
  rw [List.map_map]
  apply List.map_congr_left
  intro es _
  simp only [Function.comp, Item.map, List.map_map]
  congr 1
  apply List.map_congr_left
  intro e _
  unfold Grid.point
  simp only [Function.comp, arrGrid, NdArr.lin]
  cases Z.get e.a.2 e.a.1 <;> cases Z.get e.b.2 e.b.1 <;> simp only [Option.map_some, Option.map_none]
  congr 2 <;> ring

/-- **C79** more generally, for any other coordinates the contours pass through the same grid edges in the same order. -/
theorem C79_same_edges [DecidableEq K] (Z : NdArr (Option K)) (lev : K) :
    ∃ cs : List (List Side), ∀ (X Y : NdArr K), SameShape X Y Z none → ∀ fuel mem, bound Z ≤ fuel →
      extractContours X Y Z lev fuel mem = .ok (pointArrays (arrGrid X Y Z none) lev cs, codeArrays cs) := by
  obtain ⟨cs, _, hres⟩ := extract_same (X := ⟨Z.rows, Z.cols, fun _ _ => 0⟩) (Y := ⟨Z.rows, Z.cols, fun _ _ => 0⟩) (Z := Z)
    ⟨rfl, rfl, by simp⟩ lev
  exact ⟨cs, fun X Y h => hres X Y Z lev h ⟨rfl, rfl, fun _ => rfl⟩⟩

/-- longitudes shifted by 360 -/
example : extractContours (NdArr.lin 1 0 360 exX exY) (NdArr.lin 0 1 0 exX exY) exZ (1/2) (bound exZ) exMem = .ok
    ([.points [some (361, 1/2), some (723/2, 1), some (361, 3/2), some (721/2, 1), some (361, 1/2)],
      .points [some (363, 1/4), some (1449/4, 1), some (363, 7/4)]],
     [.codes [1, 2, 2, 2, 2], .codes [1, 2, 2]]) := by decide +kernel

/-! ### C80 -/

theorem topo_ext {m m' : Mesh K} {lev lev' : K} (h1 : m'.imax = m.imax) (h2 : m'.jmax = m.jmax)
    (hh : ∀ k, m'.high lev' k = m.high lev k)
    (hs : ∀ a b c d, centreHigh lev' (m'.z a) (m'.z b) (m'.z c) (m'.z d) = centreHigh lev (m.z a) (m.z b) (m.z c) (m.z d)) :
    ∀ rjunk, topoOf m' none rjunk lev' = topoOf m none rjunk lev := by
  intro rjunk
  unfold topoOf mkTopo
  simp only [Option.map_none, h1, h2, hh, hs, Topo.mk.injEq, true_and, and_true]
  funext i j
  unfold zf
  simp only [h1, h2]

/-- **C80** scaling the field by a positive factor and adding a constant, with the same change of the level, does not change
the result at all. -/
theorem C80_affine_data [DecidableEq K] [IsStrictOrderedRing K] {X Y : NdArr K} {Z : NdArr (Option K)} (h : SameShape X Y Z none)
    (lev : K) {a : K} (ha : 0 < a) (b : K) {fuel fuel' : ℕ} (mem mem' : Memory) (hf : bound Z ≤ fuel) (hf' : bound Z ≤ fuel') :
    extractContours X Y (NdArr.affine a b Z) (a * lev + b) fuel mem = extractContours X Y Z lev fuel' mem' := by
  obtain ⟨cs, _, hres⟩ := extract_same h lev
  have hlt : ∀ v, a * lev + b < a * v + b ↔ lev < v := fun v => by
    rw [add_lt_add_iff_right, mul_lt_mul_iff_right₀ ha]
  rw [hres X Y Z lev h (sameTopo_refl _ _ _ _ _) fuel' mem' hf',
    hres X Y (NdArr.affine a b Z) (a * lev + b) ⟨h.1, h.2.1, by simp⟩ ⟨rfl, rfl, topo_ext rfl rfl ?_ ?_⟩ fuel mem hf]
  · congr 2
    unfold pointArrays
    apply List.map_congr_left
    intro es _
    congr 1
    apply List.map_congr_left
    intro e _
    unfold Grid.point
    simp only [arrGrid, NdArr.affine]
    cases Z.get e.a.2 e.a.1 <;> cases Z.get e.b.2 e.b.1 <;> simp only [Option.map_some, Option.map_none]
    rename_i u w
    rw [show (a * lev + b - (a * u + b)) / (a * w + b - (a * u + b)) = (lev - u) / (w - u) by
      rw [show a * lev + b - (a * u + b) = a * (lev - u) by ring, show a * w + b - (a * u + b) = a * (w - u) by ring,
        mul_div_mul_left _ _ ha.ne']]
  · intro k
    unfold Mesh.high meshOf
    simp only [NdArr.data, NdArr.affine]
    show (match (Z.get (k.toNat / Z.cols) (k.toNat % Z.cols)).map fun v => a * v + b with
      | some v => decide (a * lev + b < v) | none => false) = match Z.get (k.toNat / Z.cols) (k.toNat % Z.cols) with
      | some v => decide (lev < v) | none => false
    cases Z.get (k.toNat / Z.cols) (k.toNat % Z.cols) <;> simp [hlt]
  · intro p q r s
    show centreHigh (a * lev + b) ((Z.get (p.toNat / Z.cols) (p.toNat % Z.cols)).map fun v => a * v + b)
      ((Z.get (q.toNat / Z.cols) (q.toNat % Z.cols)).map fun v => a * v + b)
      ((Z.get (r.toNat / Z.cols) (r.toNat % Z.cols)).map fun v => a * v + b)
      ((Z.get (s.toNat / Z.cols) (s.toNat % Z.cols)).map fun v => a * v + b) =
      centreHigh lev (Z.get (p.toNat / Z.cols) (p.toNat % Z.cols)) (Z.get (q.toNat / Z.cols) (q.toNat % Z.cols))
      (Z.get (r.toNat / Z.cols) (r.toNat % Z.cols)) (Z.get (s.toNat / Z.cols) (s.toNat % Z.cols))
    unfold centreHigh
    cases Z.get (p.toNat / Z.cols) (p.toNat % Z.cols) <;> cases Z.get (q.toNat / Z.cols) (q.toNat % Z.cols) <;>
      cases Z.get (r.toNat / Z.cols) (r.toNat % Z.cols) <;> cases Z.get (s.toNat / Z.cols) (s.toNat % Z.cols) <;>
      simp only [Option.map_some, Option.map_none]
    rename_i p q r s
    rw [show (a * p + b + (a * q + b) + (a * r + b) + (a * s + b)) / 4 = a * ((p + q + r + s) / 4) + b by ring]
    simp only [hlt]

/-- in centimetres instead of metres -/
example : extractContours exX exY (NdArr.affine 100 0 exZ) 50 (bound exZ) exMem = extractContours exX exY exZ (1/2) (bound exZ) exMem := by
  have := C80_affine_data exShape (1/2) (a := 100) (by norm_num) 0 exMem exMem (le_refl (bound exZ)) (le_refl (bound exZ))
  norm_num at this
  exact this

/-! ### C81 -/

/-- the field has the value 1 at one point, 0 elsewhere -/
def exTie : NdArr (Option ℚ) := ⟨3, 3, fun j i => some (if i = 1 ∧ j = 1 then 1 else 0)⟩
def exTX : NdArr ℚ := ⟨3, 3, fun _ i => i⟩
def exTY : NdArr ℚ := ⟨3, 3, fun j _ => j⟩

/-- **C81** is false: at the level of the maximum there is no contour, with reversed signs there is one. -/
theorem C81_refuted : ∃ (X Y : NdArr ℚ) (Z : NdArr (Option ℚ)) (lev : ℚ) (segs codes : List (Item ℚ)),
    SameShape X Y Z none ∧ Full Z ∧ extractContours X Y Z lev (bound Z) exMem = .ok ([], []) ∧
      extractContours X Y Z.neg (-lev) (bound Z) exMem = .ok (segs, codes) ∧ segs ≠ [] :=
  ⟨exTX, exTY, exTie, 1, [.points [some (1, 1), some (1, 1), some (1, 1), some (1, 1), some (1, 1)]], [.codes [1, 2, 2, 2, 2]],
    ⟨rfl, rfl, by simp⟩, fun _ _ _ _ => ⟨_, rfl⟩, by decide +kernel, by decide +kernel, by simp⟩

/-- **C81, partial** if no value equals the level and, in cells of which two opposite corners only are above the level, no mean of the corners
does, the contours of the field with
reversed sign at the reversed level are the same lines. -/
theorem C81_partial [DecidableEq K] [IsStrictOrderedRing K] {X Y : NdArr K} {Z : NdArr (Option K)} (h : SameShape X Y Z none)
    {lev : K} (ht : NoTies Z lev) {fuel fuel' : ℕ} (mem mem' : Memory) (hf : bound Z ≤ fuel) (hf' : bound Z ≤ fuel') :
    ∃ (L L' : List (List (Vertex K))) (codes codes' : List (Item K)),
      extractContours X Y Z lev fuel mem = .ok (L.map .points, codes) ∧
      extractContours X Y Z.neg (-lev) fuel' mem' = .ok (L'.map .points, codes') ∧ SamePolygons L L' := by
  obtain ⟨cs, hcs, hres⟩ := extract_result h lev
  obtain ⟨cs', hcs', hres'⟩ := extract_result (X := X) (Y := Y) (Z := Z.neg) ⟨h.1, h.2.1, by simp⟩ (-lev)
  refine ⟨cs.map (List.map ((arrGrid X Y Z none).point lev)), cs'.map (List.map ((arrGrid X Y Z none).point lev)), codeArrays cs,
    codeArrays cs', ?_, ?_, samePolygons_map _ ?_⟩
  · rw [hres fuel mem hf, List.map_map]; rfl
  · rw [hres' fuel' mem' hf', List.map_map]
    congr 2
    unfold pointArrays
    apply List.map_congr_left
    intro es _
    simp only [Function.comp]
    congr 1
    apply List.map_congr_left
    intro e _
    exact neg_point
  · exact contours_polygons (neg_contours ht hcs) hcs'

theorem exNoTies : NoTies exZ (1/3) := by
  constructor
  · intro j _ i _
    refine ⟨_, rfl, ?_⟩
    split_ifs <;> norm_num
  · intro j i hj hi p q r s hp hq hr hs _ _ _
    simp only [exZ] at hj hi hp hq hr hs
    have hj' : j = 0 ∨ j = 1 := by omega
    have hi' : i = 0 ∨ i = 1 ∨ i = 2 := by omega
    rcases hj' with rfl | rfl <;> rcases hi' with rfl | rfl | rfl <;> norm_num at hp hq hr hs <;> subst hp hq hr hs <;> norm_num

example : NoTies exZ (1/3) := exNoTies

/-! ### C82 -/

theorem rearranged [DecidableEq K] [IsStrictOrderedRing K] {X Y X' Y' : NdArr K} {Z Z' : NdArr (Option K)} (h : SameShape X Y Z none)
    (h' : SameShape X' Y' Z' none) {lev : K} (I : Iso (arrGrid X Y Z none) (arrGrid X' Y' Z' none) lev) {fuel fuel' : ℕ}
    (mem mem' : Memory) (hf : bound Z ≤ fuel) (hf' : bound Z' ≤ fuel') :
    ∃ (L L' : List (List (Vertex K))) (codes codes' : List (Item K)),
      extractContours X Y Z lev fuel mem = .ok (L.map .points, codes) ∧
      extractContours X' Y' Z' lev fuel' mem' = .ok (L'.map .points, codes') ∧ SamePolygons L L' := by
  obtain ⟨cs, hcs, hres⟩ := extract_result h lev
  obtain ⟨cs', hcs', hres'⟩ := extract_result h' lev
  refine ⟨_, _, codeArrays cs, codeArrays cs', ?_, ?_, iso_polygons I hcs hcs'⟩
  · rw [hres fuel mem hf, List.map_map]; rfl
  · rw [hres' fuel' mem' hf', List.map_map]; rfl

/-- **C82** latitudes in reverse order (rows of all arrays reversed) give the same lists of points up to order, start and direction. -/
theorem C82_rows_reversed [DecidableEq K] [IsStrictOrderedRing K] {X Y : NdArr K} {Z : NdArr (Option K)} (h : SameShape X Y Z none)
    (lev : K) {fuel fuel' : ℕ} (mem mem' : Memory) (hf : bound Z ≤ fuel) (hf' : bound Z ≤ fuel') :
    ∃ (L L' : List (List (Vertex K))) (codes codes' : List (Item K)),
      extractContours X Y Z lev fuel mem = .ok (L.map .points, codes) ∧
      extractContours X.flipRows Y.flipRows Z.flipRows lev fuel' mem' = .ok (L'.map .points, codes') ∧ SamePolygons L L' :=
  rearranged h (X' := X.flipRows) (Y' := Y.flipRows) (Z' := Z.flipRows) ⟨h.1, h.2.1, by simp⟩ (flipRowsIso h lev) mem mem' hf hf'

theorem shape_transpose {X Y : NdArr K} {Z : NdArr (Option K)} (h : SameShape X Y Z none) :
    SameShape X.transpose Y.transpose Z.transpose none := by
  obtain ⟨h1, h2, _⟩ := h
  simp only [Prod.mk.injEq] at h1 h2
  exact ⟨by simp [NdArr.transpose, h1.1, h1.2], by simp [NdArr.transpose, h2.1, h2.2], by simp⟩

theorem bound_transpose (Z : NdArr (Option K)) : bound Z.transpose = bound Z := by
  simp only [bound, NdArr.transpose, Nat.mul_comm]

/-- **C82** transposed arrays (longitude along the rows) give the same lists of points up to order, start and direction. -/
theorem C82_transposed [DecidableEq K] [IsStrictOrderedRing K] {X Y : NdArr K} {Z : NdArr (Option K)} (h : SameShape X Y Z none)
    (lev : K) {fuel fuel' : ℕ} (mem mem' : Memory) (hf : bound Z ≤ fuel) (hf' : bound Z ≤ fuel') :
    ∃ (L L' : List (List (Vertex K))) (codes codes' : List (Item K)),
      extractContours X Y Z lev fuel mem = .ok (L.map .points, codes) ∧
      extractContours X.transpose Y.transpose Z.transpose lev fuel' mem' = .ok (L'.map .points, codes') ∧ SamePolygons L L' :=
  rearranged h (shape_transpose h) (transposeIso lev) mem mem' hf (by rw [bound_transpose]; exact hf')

/-- **C82** longitudes in reverse order (columns of all arrays reversed) give the same lists of points up to order, start and direction. -/
theorem C82_columns_reversed [DecidableEq K] [IsStrictOrderedRing K] {X Y : NdArr K} {Z : NdArr (Option K)}
    (h : SameShape X Y Z none) (lev : K) {fuel fuel' : ℕ} (mem mem' : Memory) (hf : bound Z ≤ fuel) (hf' : bound Z ≤ fuel') :
    ∃ (L L' : List (List (Vertex K))) (codes codes' : List (Item K)),
      extractContours X Y Z lev fuel mem = .ok (L.map .points, codes) ∧
      extractContours X.flipCols Y.flipCols Z.flipCols lev fuel' mem' = .ok (L'.map .points, codes') ∧ SamePolygons L L' := by
  have ht := shape_transpose h
  have htf : SameShape X.transpose.flipRows Y.transpose.flipRows Z.transpose.flipRows none := ⟨ht.1, ht.2.1, by simp⟩
  obtain ⟨cs, hcs, hres⟩ := extract_result h lev
  obtain ⟨cs3, hcs3, hres3⟩ := extract_result (shape_transpose htf) lev
  obtain ⟨ds1, d1, e1⟩ := iso_lists (transposeIso lev) hcs
  obtain ⟨ds2, d2, e2⟩ := iso_lists (flipRowsIso ht lev) d1
  have s3 := iso_polygons (transposeIso lev) d2 hcs3
  rw [e2, e1] at s3
  refine ⟨_, _, codeArrays cs, codeArrays cs3, ?_, ?_, s3⟩
  · rw [hres fuel mem hf, List.map_map]; rfl
  · have := hres3 fuel' mem' (by rw [bound_transpose]; show bound Z.transpose ≤ _; rw [bound_transpose]; exact hf')
    rw [List.map_map]
    exact this

/-- the arrays of the example reversed: other order, starting points and directions -/
example : extractContours exX.flipCols exY.flipCols exZ.flipCols (1/2) (bound exZ) exMem = .ok
    ([.points [some (3, 1/4), some (9/4, 1), some (3, 7/4)],
      .points [some (1, 1/2), some (1/2, 1), some (1, 3/2), some (3/2, 1), some (1, 1/2)]],
     [.codes [1, 2, 2], .codes [1, 2, 2, 2, 2]]) := by decide +kernel

end Trackeddy.Cntr
