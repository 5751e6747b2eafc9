import Verif.Props.Crossing
import Verif.Props.Contour
import Verif.Proofs.Cntr.Crop

/-!
C110: the contours inside a part of the map do not depend on the rest.
-/
namespace Trackeddy
open Spec
open Cntr (SameShape arrGrid bound Memory extractContours Item linesInside LineInside InsideBox Between AgreeIn PartOf SideIn SideStrict
  offSide offPt)

section
set_option linter.unusedSectionVars false
variable {K : Type} [Field K] [LinearOrder K] [IsStrictOrderedRing K]

/-- a coordinate between those of two grid lines is between neighbours of these -/
theorem axis_inside {n : ℕ} {f : ℕ → K} (h : StrictAxis n f) {i i' a b : ℕ} (hii : i ≤ i') (hi' : i' < n) (hab : a ≤ b) (hb : b < n) {w : K}
    (hw : 0 ≤ w ∧ w ≤ 1) (hB : Between (f a) (f b) (f i + w * (f i' - f i))) : a < i' ∧ i < b := by
  have key : ∀ g : ℕ → K, (∀ i j, i < j → j < n → g i < g j) → g a < g i + w * (g i' - g i) → g i + w * (g i' - g i) < g b →
      a < i' ∧ i < b := by
    intro g hg h1 h2
    have mono : ∀ p q, p ≤ q → q < n → g p ≤ g q := fun p q hpq hq => by
      rcases Nat.lt_or_ge p q with h | h
      · exact (hg p q h hq).le
      · rw [le_antisymm hpq h]
    have m := mono i i' hii hi'
    have a1 := mul_nonneg hw.1 (sub_nonneg.2 m)
    have a2 := mul_nonneg (sub_nonneg.2 hw.2) (sub_nonneg.2 m)
    constructor
    · by_contra hc
      have := mono i' a (by omega) (by omega)
      linarith
    · by_contra hc
      have := mono b i (by omega) (by omega)
      linarith
  rcases h with h | h
  · have hm : f a ≤ f b := by
      rcases Nat.lt_or_ge a b with hh | hh
      · exact (h a b hh hb).le
      · rw [le_antisymm hab hh]
    rcases hB with ⟨h1, h2⟩ | ⟨h1, h2⟩
    · exact key f h h1 h2
    · exact absurd (h1.trans h2) (not_lt.2 hm)
  · have hm : f b ≤ f a := by
      rcases Nat.lt_or_ge a b with hh | hh
      · exact (h a b hh hb).le
      · rw [le_antisymm hab hh]
    rcases hB with ⟨h1, h2⟩ | ⟨h1, h2⟩
    · exact absurd (h1.trans h2) (not_lt.2 hm)
    · exact key (fun k => -f k) (fun i j hij hj => neg_lt_neg (h i j hij hj)) (by linarith) (by linarith)

/-- a vertex strictly inside the rectangle is on a side that is not at its boundary -/
theorem inside_strict {X Y : Cntr.NdArr K} {Z : Cntr.NdArr (Option K)} (hR : (arrGrid X Y Z none).Rect) {H : Spec.Grid K} {i0 j0 : ℕ}
    (P : PartOf H (arrGrid X Y Z none) i0 j0) (hx : 0 < H.nx) (hy : 0 < H.ny) {l : K} {e : Side}
    (he : (arrGrid X Y Z none).InMesh e) (hc : (arrGrid X Y Z none).Crossed l e) {p : K × K}
    (hp : (arrGrid X Y Z none).point l e = some p) (hin : InsideBox X Y j0 H.ny i0 H.nx p) :
    ∃ f, e = offSide i0 j0 f ∧ SideStrict H f := by
  obtain ⟨xs, ys, hg, ax, ay⟩ := hR
  have hnx := P.nx
  have hny := P.ny
  obtain ⟨b1, b2⟩ := Cntr.inMesh_sideIn he
  obtain ⟨a1, a2⟩ := Cntr.sideIn_a ⟨b1, b2⟩
  have hv : ∃ u v, Z.get e.a.2 e.a.1 = some u ∧ Z.get e.b.2 e.b.1 = some v := by
    unfold Spec.Grid.point at hp
    simp only [arrGrid] at hp
    cases hu : Z.get e.a.2 e.a.1 with
    | none => rw [hu] at hp; simp at hp
    | some u =>
      cases hw : Z.get e.b.2 e.b.1 with
      | none => rw [hu, hw] at hp; simp at hp
      | some v => exact ⟨u, v, rfl, rfl⟩
  obtain ⟨u, v, hu, hv⟩ := hv
  obtain ⟨w0, w1, _⟩ := Cntr.weight_range (Cntr.crossed_values he hc hu hv)
  obtain ⟨h1, h2⟩ := hin
  have hpt : p = (X.get e.a.2 e.a.1 + (l - u) / (v - u) * (X.get e.b.2 e.b.1 - X.get e.a.2 e.a.1),
      Y.get e.a.2 e.a.1 + (l - u) / (v - u) * (Y.get e.b.2 e.b.1 - Y.get e.a.2 e.a.1)) := by
    unfold Spec.Grid.point at hp
    simp only [arrGrid] at hp
    rw [hu, hv] at hp
    exact (Option.some.inj hp).symm
  have gx : ∀ i j, i < Z.cols → j < Z.rows → X.get j i = xs i := fun i j hi hj => (hg i j hi hj).1
  have gy : ∀ i j, i < Z.cols → j < Z.rows → Y.get j i = ys j := fun i j hi hj => (hg i j hi hj).2
  change i0 + H.nx ≤ Z.cols at hnx
  change j0 + H.ny ≤ Z.rows at hny
  change _ < Z.cols at a1 b1
  change _ < Z.rows at a2 b2
  rw [hpt] at h1 h2
  simp only at h1 h2
  rw [gx _ _ (by omega) (by omega), gx _ _ (by omega) (by omega), gx _ _ a1 a2, gx _ _ b1 b2] at h1
  rw [gy _ _ (by omega) (by omega), gy _ _ (by omega) (by omega), gy _ _ a1 a2, gy _ _ b1 b2] at h2
  obtain ⟨i, j, vt⟩ := e
  have r1 := axis_inside ax (i := i) (i' := (Side.b ⟨i, j, vt⟩).1) (by cases vt <;> simp [Side.b]) b1 (by omega)
    (show i0 + H.nx - 1 < Z.cols by omega) ⟨w0, w1⟩ h1
  have r2 := axis_inside ay (i := j) (i' := (Side.b ⟨i, j, vt⟩).2) (by cases vt <;> simp [Side.b]) b2 (by omega)
    (show j0 + H.ny - 1 < Z.rows by omega) ⟨w0, w1⟩ h2
  refine ⟨⟨i - i0, j - j0, vt⟩, ?_, ⟨?_, ?_⟩, ?_, ?_⟩ <;> cases vt <;>
    simp only [Side.b, offSide, Side.mk.injEq, if_true, if_false, Bool.false_eq_true, reduceCtorEq, true_implies, false_implies, and_true] at r1 r2 ⊢ <;>
    omega

theorem inside_family {X Y : Cntr.NdArr K} {j0 nj i0 ni : ℕ} (G : Spec.Grid K) (l : K) (cs : List (List Side)) [∀ ps : List (Option (K × K)), Decidable (LineInside X Y j0 nj i0 ni ps)] :
    linesInside X Y j0 nj i0 ni (cs.map fun es => Item.points (es.map (G.point l))) =
      (cs.filter fun es => decide (LineInside X Y j0 nj i0 ni (es.map (G.point l)))).map (List.map (G.point l)) := by
  unfold linesInside
  induction cs with
  | nil => rfl
  | cons es cs ih =>
    rw [List.map_cons, List.filterMap_cons, ih, List.filter_cons]
    by_cases h : LineInside X Y j0 nj i0 ni (es.map (G.point l))
    · simp [h]
    · simp [h]

/-- lines inside, for a map and a part with the same coordinates and values -/
theorem part_lines {X Y : Cntr.NdArr K} {Z : Cntr.NdArr (Option K)} (h : SameShape X Y Z none) (hR : (arrGrid X Y Z none).Rect)
    {X' Y' : Cntr.NdArr K} {Z' : Cntr.NdArr (Option K)} (h' : SameShape X' Y' Z' none) {i0 j0 : ℕ}
    (P : PartOf (arrGrid X' Y' Z' none) (arrGrid X Y Z none) i0 j0) (hx : 0 < Z'.cols) (hy : 0 < Z'.rows) {l : K}
    {fuel fuel' : Nat} {mem mem' : Memory} (hf : bound Z ≤ fuel) (hf' : bound Z' ≤ fuel') {segs cods segs' cods' : List (Item K)}
    (h1 : extractContours X Y Z l fuel mem = .ok (segs, cods)) (h2 : extractContours X' Y' Z' l fuel' mem' = .ok (segs', cods')) :
    SameLines (linesInside X Y j0 Z'.rows i0 Z'.cols segs) (linesInside X Y j0 Z'.rows i0 Z'.cols segs') := by
  classical
  obtain ⟨cs, hcs, rfl⟩ := points_mem_lines h hf h1
  obtain ⟨cs', hcs', rfl⟩ := points_mem_lines h' hf' h2
  rw [inside_family, inside_family]
  have pt : ∀ es ∈ cs', ∀ e ∈ es, (arrGrid X' Y' Z' none).point l e = (arrGrid X Y Z none).point l (offSide i0 j0 e) := fun es hes e he =>
    P.point (Cntr.inMesh_sideIn (Cntr.contour_sides (hcs'.each es hes) he).1)
  refine P.families hcs hcs' ?_ ?_ ?_
  · intro es hes hi e he
    obtain ⟨p, hp, hpi⟩ := of_decide_eq_true hi _ (List.mem_map_of_mem he)
    obtain ⟨s1, s2⟩ := Cntr.contour_sides (hcs.each es hes) he
    exact inside_strict hR P hx hy s1 s2 hp hpi
  · intro es hes hi e he
    obtain ⟨p, hp, hpi⟩ := of_decide_eq_true hi _ (List.mem_map_of_mem he)
    rw [pt es hes e he] at hp
    have s := Cntr.contour_sides (hcs'.each es hes) he
    obtain ⟨c, hc, hce⟩ := s.1
    obtain ⟨f, hf, hs⟩ := inside_strict hR P hx hy ⟨_, (P.cell.1 hc).1, Cntr.offSide_sides.2 hce⟩
      ((P.crossed (Cntr.inMesh_sideIn s.1)).1 s.2) hp hpi
    rw [Cntr.offSide_inj hf]
    exact hs
  · intro es hes es' hes' hm
    refine decide_eq_decide.2 ⟨fun hi p hp => ?_, fun hi p hp => ?_⟩
    · obtain ⟨e, he, rfl⟩ := List.mem_map.1 hp
      rw [pt es' hes' e he]
      exact hi _ (List.mem_map_of_mem ((hm _).2 (List.mem_map_of_mem he)))
    · obtain ⟨e, he, rfl⟩ := List.mem_map.1 hp
      obtain ⟨f, hf, rfl⟩ := List.mem_map.1 ((hm e).1 he)
      rw [← pt es' hes' f hf]
      exact hi _ (List.mem_map_of_mem hf)

/-- **C110** The contours of a rectangular part of a map are, as far as they do not reach the boundary of this part, the contours of the
whole map inside it, up to their order, start vertices and directions. The grid lines are parallel to the axes; values may be missing
(a contour with a missing vertex is not inside). -/
theorem C110_part {X Y : Cntr.NdArr K} {Z : Cntr.NdArr (Option K)} (h : SameShape X Y Z none) (hR : (arrGrid X Y Z none).Rect)
    {j0 nj i0 ni : ℕ} (hj : 0 < nj) (hi : 0 < ni) (hjn : j0 + nj ≤ Z.rows) (hin : i0 + ni ≤ Z.cols) {l : K} {fuel fuel' : Nat}
    {mem mem' : Memory} (hf : bound Z ≤ fuel) (hf' : bound (Z.crop j0 nj i0 ni) ≤ fuel') {segs cods segs' cods' : List (Item K)}
    (h1 : extractContours X Y Z l fuel mem = .ok (segs, cods))
    (h2 : extractContours (X.crop j0 nj i0 ni) (Y.crop j0 nj i0 ni) (Z.crop j0 nj i0 ni) l fuel' mem' = .ok (segs', cods')) :
    SameLines (linesInside X Y j0 nj i0 ni segs) (linesInside X Y j0 nj i0 ni segs') :=
  part_lines h hR (X' := X.crop j0 nj i0 ni) (Y' := Y.crop j0 nj i0 ni) (Z' := Z.crop j0 nj i0 ni) ⟨rfl, rfl, by simp⟩
    ⟨hin, hjn, fun _ _ _ => rfl, fun _ _ _ => rfl, fun _ _ _ => rfl, fun _ => rfl, fun _ => rfl⟩ hi hj hf hf' h1 h2

/-- **C110** Two maps that have the same values in a rectangle have the same contours inside it. -/
theorem C110_local {X Y X' Y' : Cntr.NdArr K} {Z Z' : Cntr.NdArr (Option K)} (h : SameShape X Y Z none) (h' : SameShape X' Y' Z' none)
    (hR : (arrGrid X Y Z none).Rect) (hR' : (arrGrid X' Y' Z' none).Rect) {j0 nj i0 ni : ℕ} (hj : 0 < nj) (hi : 0 < ni)
    (hjn : j0 + nj ≤ Z.rows) (hin : i0 + ni ≤ Z.cols) (hjn' : j0 + nj ≤ Z'.rows) (hin' : i0 + ni ≤ Z'.cols)
    (hA : AgreeIn X Y Z X' Y' Z' j0 nj i0 ni) {l : K} {fuel fuel' : Nat} {mem mem' : Memory} (hf : bound Z ≤ fuel)
    (hf' : bound Z' ≤ fuel') {segs cods segs' cods' : List (Item K)} (h1 : extractContours X Y Z l fuel mem = .ok (segs, cods))
    (h2 : extractContours X' Y' Z' l fuel' mem' = .ok (segs', cods')) :
    SameLines (linesInside X Y j0 nj i0 ni segs) (linesInside X Y j0 nj i0 ni segs') := by
  have hc : SameShape (X.crop j0 nj i0 ni) (Y.crop j0 nj i0 ni) (Z.crop j0 nj i0 ni) none := ⟨rfl, rfl, by simp⟩
  obtain ⟨cs, _, hr⟩ := Cntr.extract_result hc l
  have h3 := hr (bound (Z.crop j0 nj i0 ni)) mem le_rfl
  have a := C110_part h hR hj hi hjn hin hf le_rfl h1 h3
  have b := part_lines h' hR' (X' := X.crop j0 nj i0 ni) (Y' := Y.crop j0 nj i0 ni) (Z' := Z.crop j0 nj i0 ni) hc (i0 := i0) (j0 := j0)
    ⟨hin', hjn', fun p p1 p2 => hA.x p.2 p2 p.1 p1, fun p p1 p2 => hA.y p.2 p2 p.1 p1, fun p p1 p2 => hA.z p.2 p2 p.1 p1, fun _ => rfl, fun _ => rfl⟩
    hi hj hf' le_rfl h2 h3
  have box : linesInside X' Y' j0 nj i0 ni = linesInside X Y j0 nj i0 ni := by
    have e : InsideBox X' Y' j0 nj i0 ni = InsideBox X Y j0 nj i0 ni := by
      funext p
      have e1 := hA.x 0 hj 0 hi
      have e2 := hA.x 0 hj (ni - 1) (by omega)
      have e3 := hA.y 0 hj 0 hi
      have e4 := hA.y (nj - 1) (by omega) 0 hi
      rw [show i0 + (ni - 1) = i0 + ni - 1 by omega] at e2
      rw [show j0 + (nj - 1) = j0 + nj - 1 by omega] at e4
      simp only [Nat.add_zero] at e1 e2 e3 e4
      unfold InsideBox
      rw [e1, e2, e3, e4]
    funext s
    unfold linesInside LineInside
    rw [e]
  change SameLines (linesInside X' Y' j0 nj i0 ni _) (linesInside X' Y' j0 nj i0 ni _) at b
  rw [box] at b
  exact Cntr.sameLines_trans a (Cntr.sameLines_symm b)
end

/-! ### examples -/

theorem exGrid_rect : (arrGrid Cntr.exX Cntr.exY Cntr.exZ none).Rect :=
  ⟨fun i => i, fun j => j, fun _ _ _ _ => ⟨rfl, rfl⟩, Or.inl fun _ _ h _ => Nat.cast_lt.2 h, Or.inl fun _ _ h _ => Nat.cast_lt.2 h⟩

theorem ex_whole : extractContours Cntr.exX Cntr.exY Cntr.exZ (1 / 2) (bound Cntr.exZ) Cntr.exMem = .ok
    ([.points [some (1, 1/2), some (3/2, 1), some (1, 3/2), some (1/2, 1), some (1, 1/2)],
      .points [some (3, 1/4), some (9/4, 1), some (3, 7/4)]],
     [.codes [1, 2, 2, 2, 2], .codes [1, 2, 2]]) := by decide +kernel

/-- the first three columns -/
theorem ex_three : extractContours (Cntr.exX.crop 0 3 0 3) (Cntr.exY.crop 0 3 0 3) (Cntr.exZ.crop 0 3 0 3) (1 / 2)
    (bound (Cntr.exZ.crop 0 3 0 3)) Cntr.exMem = .ok
    ([.points [some (1, 1/2), some (3/2, 1), some (1, 3/2), some (1/2, 1), some (1, 1/2)]], [.codes [1, 2, 2, 2, 2]]) := by decide +kernel

/-- the first two columns -/
theorem ex_two : extractContours (Cntr.exX.crop 0 3 0 2) (Cntr.exY.crop 0 3 0 2) (Cntr.exZ.crop 0 3 0 2) (1 / 2)
    (bound (Cntr.exZ.crop 0 3 0 2)) Cntr.exMem = .ok
    ([.points [some (1, 1/2), some (1/2, 1), some (1, 3/2)]], [.codes [1, 2, 2]]) := by decide +kernel

theorem ex_inside : LineInside Cntr.exX Cntr.exY 0 3 0 3 [some (1, 1/2), some (3/2, 1), some (1, 3/2), some (1/2, 1), some (1, 1/2)] := by
  have e1 : Cntr.exX.get 0 0 = 0 := by decide +kernel
  have e2 : Cntr.exX.get 0 2 = 2 := by decide +kernel
  have e3 : Cntr.exY.get 0 0 = 0 := by decide +kernel
  have e4 : Cntr.exY.get 2 0 = 2 := by decide +kernel
  intro p hp
  simp only [List.mem_cons, List.not_mem_nil, or_false] at hp
  unfold InsideBox Between
  simp only [Nat.zero_add, Nat.reduceSub, e1, e2, e3, e4]
  rcases hp with rfl | rfl | rfl | rfl | rfl <;> refine ⟨_, rfl, ?_, ?_⟩ <;> norm_num

/-- the hypotheses of `C110_part` hold for the first three columns of a map with four; one line is inside -/
example : SameLines (linesInside Cntr.exX Cntr.exY 0 3 0 3 [.points [some (1, 1/2), some (3/2, 1), some (1, 3/2), some (1/2, 1), some (1, 1/2)],
      .points [some (3, 1/4), some (9/4, 1), some (3, 7/4)]])
    (linesInside Cntr.exX Cntr.exY 0 3 0 3 [.points [some (1, 1/2), some (3/2, 1), some (1, 3/2), some (1/2, 1), some (1, 1/2)]]) ∧
    linesInside Cntr.exX Cntr.exY 0 3 0 3 [.points [some (1, 1/2), some (3/2, 1), some (1, 3/2), some (1/2, 1), some (1, 1/2)]] ≠ [] :=
  ⟨C110_part Cntr.exShape exGrid_rect (by decide) (by decide) (by decide) (by decide) le_rfl le_rfl ex_whole ex_three,
    by
      unfold linesInside
      rw [List.filterMap_cons]
      simp only [if_pos ex_inside]
      exact List.cons_ne_nil _ _⟩

/-- the map with another value in the last column -/
def exZ' : Cntr.NdArr (Option ℚ) := ⟨3, 4, fun j i => if i = 3 then some (-7) else Cntr.exZ.get j i⟩

/-- the hypotheses of `C110_local` hold for two maps that differ in the last column -/
example : AgreeIn Cntr.exX Cntr.exY Cntr.exZ Cntr.exX Cntr.exY exZ' 0 3 0 3 ∧ Cntr.exZ.get 1 3 ≠ exZ'.get 1 3 ∧
    ∃ segs cods, extractContours Cntr.exX Cntr.exY exZ' (1 / 2) (bound exZ') Cntr.exMem = .ok (segs, cods) ∧
      SameLines (linesInside Cntr.exX Cntr.exY 0 3 0 3 [.points [some (1, 1/2), some (3/2, 1), some (1, 3/2), some (1/2, 1), some (1, 1/2)],
        .points [some (3, 1/4), some (9/4, 1), some (3, 7/4)]]) (linesInside Cntr.exX Cntr.exY 0 3 0 3 segs) := by
  have hA : AgreeIn Cntr.exX Cntr.exY Cntr.exZ Cntr.exX Cntr.exY exZ' 0 3 0 3 :=
    ⟨fun _ _ _ _ => rfl, fun _ _ _ _ => rfl, fun j _ i hi => by
      show _ = if 0 + i = 3 then _ else _
      rw [if_neg (by omega)]⟩
  have hS : SameShape Cntr.exX Cntr.exY exZ' none := ⟨rfl, rfl, by simp⟩
  obtain ⟨cs, _, hr⟩ := Cntr.extract_result hS (1 / 2)
  refine ⟨hA, by decide +kernel, _, _, hr _ Cntr.exMem le_rfl, ?_⟩
  exact C110_local Cntr.exShape hS exGrid_rect exGrid_rect (by decide) (by decide) (by decide) (by decide) (by decide) (by decide) hA
    le_rfl le_rfl ex_whole (hr _ Cntr.exMem le_rfl)

/-- **C110** A contour that reaches the boundary of the part is cut there: the whole map has a closed contour through a vertex on the
boundary of the part, the part has an open one. The condition that the contours are inside cannot be left out. -/
theorem C110_cut_at_boundary : ∃ (X Y : Cntr.NdArr ℚ) (Z : Cntr.NdArr (Option ℚ)) (ni : ℕ) (l : ℚ) (mem : Memory)
    (ps ps' : List (Option (ℚ × ℚ))) (rest cods cods' : List (Item ℚ)), SameShape X Y Z none ∧ (arrGrid X Y Z none).Rect ∧ ni ≤ Z.cols ∧
    extractContours X Y Z l (bound Z) mem = .ok (.points ps :: rest, cods) ∧
    extractContours (X.crop 0 Z.rows 0 ni) (Y.crop 0 Z.rows 0 ni) (Z.crop 0 Z.rows 0 ni) l (bound (Z.crop 0 Z.rows 0 ni)) mem =
      .ok ([.points ps'], cods') ∧ (∀ p ∈ ps', p ∈ ps) ∧ ps.head? = ps.getLast? ∧ ps'.head? ≠ ps'.getLast? :=
  ⟨Cntr.exX, Cntr.exY, Cntr.exZ, 2, 1 / 2, Cntr.exMem, _, _, _, _, _, Cntr.exShape, exGrid_rect, by decide, ex_whole, ex_two,
    by decide +kernel, by decide +kernel, by decide +kernel⟩

end Trackeddy
