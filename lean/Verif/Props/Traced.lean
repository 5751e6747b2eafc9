import Verif.Props.Crop
import Verif.Props.ContourSym
import Verif.Props.Negated
import Verif.Proofs.Direction

/-!
C111: start, direction and order of the returned contours; with these, exact forms of C81, C105 and C110.
-/
namespace Trackeddy
open Spec
open Cntr (SameShape arrGrid bound Memory extractContours Item pointArrays codeArrays linesInside LineInside InsideBox AgreeIn PartOf NoTies
  Full Vertex)

section
set_option linter.unusedSectionVars false
variable {K : Type} [Field K] [LinearOrder K] [IsStrictOrderedRing K]

/-! ### C111 -/

/-- **C111** Where the returned contours start, in which direction they run and in which order they are listed: they are the contour
lines of the level, listed by the position of their first vertex, row by row. A closed contour has the higher values on the left and
starts at the first edge of a certain kind (`Grid.Start`) that it crosses. A contour that ends at the border has the higher values on the
left, unless the end with the higher values on the right comes before all other places where it could start. -/
theorem C111_start_direction_order {X Y : Cntr.NdArr K} {Z : Cntr.NdArr (Option K)} (h : SameShape X Y Z none) (l : K) {fuel : Nat}
    {mem : Memory} (hf : bound Z ≤ fuel) : ∃ cs, Traced (arrGrid X Y Z none) l cs ∧
      extractContours X Y Z l fuel mem = .ok (pointArrays (arrGrid X Y Z none) l cs, codeArrays cs) := by
  obtain ⟨cs, h1, h2⟩ := Cntr.extract_traced h l
  exact ⟨cs, h1, h2 fuel mem hf⟩

/-- **C111** This determines the result: any list of lines with these starts, directions and order is the one returned. -/
theorem C111_determined {X Y : Cntr.NdArr K} {Z : Cntr.NdArr (Option K)} (h : SameShape X Y Z none) {l : K} {cs : List (List Side)}
    (hcs : Traced (arrGrid X Y Z none) l cs) {fuel : Nat} {mem : Memory} (hf : bound Z ≤ fuel) :
    extractContours X Y Z l fuel mem = .ok (pointArrays (arrGrid X Y Z none) l cs, codeArrays cs) := by
  obtain ⟨cs', h1, h2⟩ := Cntr.extract_traced h l
  rw [Cntr.traced_unique hcs h1]
  exact h2 fuel mem hf

theorem traced_lines {X Y : Cntr.NdArr K} {Z : Cntr.NdArr (Option K)} (h : SameShape X Y Z none) {l : K} {fuel : Nat} {mem : Memory}
    (hf : bound Z ≤ fuel) {segs cods : List (Item K)} (h1 : extractContours X Y Z l fuel mem = .ok (segs, cods)) :
    ∃ cs, Traced (arrGrid X Y Z none) l cs ∧ segs = cs.map fun es => .points (es.map ((arrGrid X Y Z none).point l)) := by
  obtain ⟨cs, hcs, hr⟩ := Cntr.extract_traced h l
  rw [hr fuel mem hf] at h1
  injection h1 with h1
  injection h1 with h1 h2
  exact ⟨cs, hcs, h1.symm⟩

theorem full_points {X Y : Cntr.NdArr K} {Z : Cntr.NdArr (Option K)} (hz : Full Z) {l : K} {es : List Side}
    (hc : (arrGrid X Y Z none).IsContour l es) : ∀ e ∈ es, ∃ p, (arrGrid X Y Z none).point l e = some p := by
  intro e he
  obtain ⟨b1, b2⟩ := Cntr.inMesh_sideIn (Cntr.contour_sides hc he).1
  obtain ⟨a1, a2⟩ := Cntr.sideIn_a ⟨b1, b2⟩
  obtain ⟨u, hu⟩ := hz _ a2 _ a1
  obtain ⟨v, hv⟩ := hz _ b2 _ b1
  unfold Spec.Grid.point
  simp only [arrGrid]
  rw [hu, hv]
  exact ⟨_, rfl⟩

theorem ascending_rect {G : Spec.Grid K} (h : G.Ascending) : G.Rect := by
  obtain ⟨xs, ys, h1, h2, h3⟩ := h
  exact ⟨xs, ys, h1, Or.inl h2, Or.inl h3⟩

/-- **C111** On a grid with ascending coordinates, closed contours have the higher values on the left: for each piece of a closed contour
there are two neighbouring grid points, one above the level to the left of the piece and one below it to the right. So a contour around
high values is run through counterclockwise, one around low values clockwise. -/
theorem C111_high_values_left {X Y : Cntr.NdArr K} {Z : Cntr.NdArr (Option K)} (h : SameShape X Y Z none) (hG : (arrGrid X Y Z none).Ascending)
    (hz : Full Z) {l : K} (hm : (arrGrid X Y Z none).Misses l) {fuel : Nat} {mem : Memory} (hf : bound Z ≤ fuel) {segs cods : List (Item K)}
    (h1 : extractContours X Y Z l fuel mem = .ok (segs, cods)) {ps : List (Option (K × K))} (hp : Item.points ps ∈ segs)
    (hcl : ps.head? = ps.getLast?) {k : ℕ} {p q : K × K} (hk : ps[k]? = some (some p)) (hk' : ps[k + 1]? = some (some q)) :
    ∃ i j i' j' u v, (i' = i ∧ (j' = j + 1 ∨ j = j' + 1) ∨ j' = j ∧ (i' = i + 1 ∨ i = i' + 1)) ∧ Z.get j i = some u ∧ l < u ∧ Z.get j' i' = some v ∧ v < l ∧
      LeftOf p q (X.get j i, Y.get j i) ∧ LeftOf q p (X.get j' i', Y.get j' i') := by
  obtain ⟨cs, hcs, rfl⟩ := traced_lines h hf h1
  obtain ⟨es, hes, he⟩ := List.mem_map.1 hp
  injection he with he
  subst he
  have hc := hcs.lines.each es hes
  rw [Crossing.closed_vertices (ascending_rect hG) hm hc (full_points hz hc)] at hcl
  rw [List.getElem?_map, Option.map_eq_some_iff] at hk hk'
  obtain ⟨e, he, hp⟩ := hk
  obtain ⟨f, hf, hq⟩ := hk'
  obtain ⟨lt, rfl⟩ := List.getElem?_eq_some_iff.1 he
  obtain ⟨lt', rfl⟩ := List.getElem?_eq_some_iff.1 hf
  obtain ⟨c, jc, hl⟩ := Cntr.highLeft_all hc (Cntr.contours_nodup hcs.lines hes) (hcs.closed es hes hcl).1 lt'
  obtain ⟨a, b, hab, hA, hB, hL, hL'⟩ := Crossing.piece_left hG hm jc hl hp hq
  generalize es[k] = e at hab jc
  obtain ⟨u, hu, hlt⟩ := hA
  obtain ⟨b1, b2⟩ := Cntr.inMesh_sideIn ⟨c, jc.1, jc.2.1⟩
  obtain ⟨a1, a2⟩ := Cntr.sideIn_a ⟨b1, b2⟩
  have hbin : b.1 < Z.cols ∧ b.2 < Z.rows := by
    rcases hab with ⟨-, rfl⟩ | ⟨-, rfl⟩
    · exact ⟨b1, b2⟩
    · exact ⟨a1, a2⟩
  obtain ⟨v, hv⟩ := hz _ hbin.2 _ hbin.1
  refine ⟨a.1, a.2, b.1, b.2, u, v, ?_, hu, hlt, hv, ?_, hL, hL'⟩
  · obtain ⟨i, j, vt⟩ := e
    rcases hab with ⟨rfl, rfl⟩ | ⟨rfl, rfl⟩ <;> cases vt <;> simp [Side.a, Side.b]
  · refine lt_of_le_of_ne (not_lt.1 fun hh => hB ⟨v, hv, hh⟩) ?_
    rintro rfl
    exact hm _ _ hbin.1 hbin.2 hv

/-! ### C110, exactly -/

/-- as `part_lines`, with start, direction and order -/
theorem part_lists {X Y : Cntr.NdArr K} {Z : Cntr.NdArr (Option K)} (h : SameShape X Y Z none) (hR : (arrGrid X Y Z none).Rect)
    {X' Y' : Cntr.NdArr K} {Z' : Cntr.NdArr (Option K)} (h' : SameShape X' Y' Z' none) {i0 j0 : ℕ}
    (P : PartOf (arrGrid X' Y' Z' none) (arrGrid X Y Z none) i0 j0) (hx : 0 < Z'.cols) (hy : 0 < Z'.rows) {l : K}
    {fuel fuel' : Nat} {mem mem' : Memory} (hf : bound Z ≤ fuel) (hf' : bound Z' ≤ fuel') {segs cods segs' cods' : List (Item K)}
    (h1 : extractContours X Y Z l fuel mem = .ok (segs, cods)) (h2 : extractContours X' Y' Z' l fuel' mem' = .ok (segs', cods')) :
    linesInside X Y j0 Z'.rows i0 Z'.cols segs = linesInside X Y j0 Z'.rows i0 Z'.cols segs' := by
  classical
  obtain ⟨cs, hcs, rfl⟩ := traced_lines h hf h1
  obtain ⟨cs', hcs', rfl⟩ := traced_lines h' hf' h2
  rw [inside_family, inside_family]
  have pt : ∀ es ∈ cs', ∀ e ∈ es, (arrGrid X' Y' Z' none).point l e = (arrGrid X Y Z none).point l (Cntr.offSide i0 j0 e) := fun es hes e he =>
    P.point (Cntr.inMesh_sideIn (Cntr.contour_sides (hcs'.lines.each es hes) he).1)
  rw [P.lists hcs hcs' (q := fun es => decide (LineInside X Y j0 Z'.rows i0 Z'.cols (es.map ((arrGrid X' Y' Z' none).point l)))) ?_ ?_ ?_]
  · rw [List.map_map]
    apply List.map_congr_left
    intro es hes
    simp only [Function.comp, List.map_map]
    apply List.map_congr_left
    intro e he
    exact (pt es (List.mem_filter.1 hes).1 e he).symm
  · intro es hes hi e he
    obtain ⟨p, hp, hpi⟩ := of_decide_eq_true hi _ (List.mem_map_of_mem he)
    obtain ⟨s1, s2⟩ := Cntr.contour_sides (hcs.lines.each es hes) he
    exact inside_strict hR P hx hy s1 s2 hp hpi
  · intro es hes hi e he
    obtain ⟨p, hp, hpi⟩ := of_decide_eq_true hi _ (List.mem_map_of_mem he)
    rw [pt es hes e he] at hp
    have s := Cntr.contour_sides (hcs'.lines.each es hes) he
    obtain ⟨c, hc, hce⟩ := s.1
    obtain ⟨f, hf, hs⟩ := inside_strict hR P hx hy ⟨_, (P.cell.1 hc).1, Cntr.offSide_sides.2 hce⟩
      ((P.crossed (Cntr.inMesh_sideIn s.1)).1 s.2) hp hpi
    rw [Cntr.offSide_inj hf]
    exact hs
  · intro es hes es' hes' hm
    refine decide_eq_decide.2 ⟨fun hi p hp => ?_, fun hi p hp => ?_⟩
    · obtain ⟨e, he, rfl⟩ := List.mem_map.1 hp
      rw [pt es' hes' e he]
      exact hi _ (List.mem_map_of_mem ((hm _).2 (List.mem_map_of_mem he)))
    · obtain ⟨e, he, rfl⟩ := List.mem_map.1 hp
      obtain ⟨f, hf, rfl⟩ := List.mem_map.1 ((hm e).1 he)
      rw [← pt es' hes' f hf]
      exact hi _ (List.mem_map_of_mem hf)

/-- **C110** The contours of a rectangular part of a map that do not reach the boundary of this part are exactly the contours of the
whole map inside it: same vertices, start, direction and order. -/
theorem C110_part_exact {X Y : Cntr.NdArr K} {Z : Cntr.NdArr (Option K)} (h : SameShape X Y Z none) (hR : (arrGrid X Y Z none).Rect)
    {j0 nj i0 ni : ℕ} (hj : 0 < nj) (hi : 0 < ni) (hjn : j0 + nj ≤ Z.rows) (hin : i0 + ni ≤ Z.cols) {l : K} {fuel fuel' : Nat}
    {mem mem' : Memory} (hf : bound Z ≤ fuel) (hf' : bound (Z.crop j0 nj i0 ni) ≤ fuel') {segs cods segs' cods' : List (Item K)}
    (h1 : extractContours X Y Z l fuel mem = .ok (segs, cods))
    (h2 : extractContours (X.crop j0 nj i0 ni) (Y.crop j0 nj i0 ni) (Z.crop j0 nj i0 ni) l fuel' mem' = .ok (segs', cods')) :
    linesInside X Y j0 nj i0 ni segs = linesInside X Y j0 nj i0 ni segs' :=
  part_lists h hR (X' := X.crop j0 nj i0 ni) (Y' := Y.crop j0 nj i0 ni) (Z' := Z.crop j0 nj i0 ni) ⟨rfl, rfl, by simp⟩
    ⟨hin, hjn, fun _ _ _ => rfl, fun _ _ _ => rfl, fun _ _ _ => rfl, fun _ => rfl, fun _ => rfl⟩ hi hj hf hf' h1 h2

/-- the boxes of maps with the same coordinates -/
theorem inside_agree {X Y X' Y' : Cntr.NdArr K} {Z Z' : Cntr.NdArr (Option K)} {j0 nj i0 ni : ℕ} (hj : 0 < nj) (hi : 0 < ni)
    (hA : AgreeIn X Y Z X' Y' Z' j0 nj i0 ni) : linesInside X' Y' j0 nj i0 ni = linesInside X Y j0 nj i0 ni := by
  have e : InsideBox X' Y' j0 nj i0 ni = InsideBox X Y j0 nj i0 ni := by
    funext p
    have e1 := hA.x 0 hj 0 hi
    have e2 := hA.x 0 hj (ni - 1) (by omega)
    have e3 := hA.y 0 hj 0 hi
    have e4 := hA.y (nj - 1) (by omega) 0 hi
    rw [show i0 + (ni - 1) = i0 + ni - 1 by omega] at e2
    rw [show j0 + (nj - 1) = j0 + nj - 1 by omega] at e4
    simp only [Nat.add_zero] at e1 e2 e3 e4
    unfold InsideBox
    rw [e1, e2, e3, e4]
  funext s
  unfold linesInside LineInside
  rw [e]

/-- **C110** Two maps that have the same values in a rectangle have exactly the same contours inside it. -/
theorem C110_local_exact {X Y X' Y' : Cntr.NdArr K} {Z Z' : Cntr.NdArr (Option K)} (h : SameShape X Y Z none) (h' : SameShape X' Y' Z' none)
    (hR : (arrGrid X Y Z none).Rect) (hR' : (arrGrid X' Y' Z' none).Rect) {j0 nj i0 ni : ℕ} (hj : 0 < nj) (hi : 0 < ni)
    (hjn : j0 + nj ≤ Z.rows) (hin : i0 + ni ≤ Z.cols) (hjn' : j0 + nj ≤ Z'.rows) (hin' : i0 + ni ≤ Z'.cols)
    (hA : AgreeIn X Y Z X' Y' Z' j0 nj i0 ni) {l : K} {fuel fuel' : Nat} {mem mem' : Memory} (hf : bound Z ≤ fuel)
    (hf' : bound Z' ≤ fuel') {segs cods segs' cods' : List (Item K)} (h1 : extractContours X Y Z l fuel mem = .ok (segs, cods))
    (h2 : extractContours X' Y' Z' l fuel' mem' = .ok (segs', cods')) :
    linesInside X Y j0 nj i0 ni segs = linesInside X Y j0 nj i0 ni segs' := by
  have hc : SameShape (X.crop j0 nj i0 ni) (Y.crop j0 nj i0 ni) (Z.crop j0 nj i0 ni) none := ⟨rfl, rfl, by simp⟩
  obtain ⟨cs, _, hr⟩ := Cntr.extract_result hc l
  have h3 := hr (bound (Z.crop j0 nj i0 ni)) mem le_rfl
  have a := C110_part_exact h hR hj hi hjn hin hf le_rfl h1 h3
  have b := part_lists h' hR' (X' := X.crop j0 nj i0 ni) (Y' := Y.crop j0 nj i0 ni) (Z' := Z.crop j0 nj i0 ni) hc (i0 := i0) (j0 := j0)
    ⟨hin', hjn', fun p p1 p2 => hA.x p.2 p2 p.1 p1, fun p p1 p2 => hA.y p.2 p2 p.1 p1, fun p p1 p2 => hA.z p.2 p2 p.1 p1, fun _ => rfl, fun _ => rfl⟩
    hi hj hf' le_rfl h2 h3
  change linesInside X' Y' j0 nj i0 ni _ = linesInside X' Y' j0 nj i0 ni _ at b
  rw [inside_agree hj hi hA] at b
  exact a.trans b.symm

/-! ### C81 -/

theorem noTies_full {Z : Cntr.NdArr (Option K)} {l : K} (h : NoTies Z l) : Full Z := fun j hj i hi =>
  let ⟨v, hv, _⟩ := h.value j hj i hi; ⟨v, hv⟩

theorem noTies_misses {X Y : Cntr.NdArr K} {Z : Cntr.NdArr (Option K)} {l : K} (h : NoTies Z l) : (arrGrid X Y Z none).Misses l := by
  intro i j hi hj he
  obtain ⟨v, hv, hne⟩ := h.value j hj i hi
  exact hne (Option.some.inj (hv.symm.trans he))

/-- the closed lines, as lines of vertices -/
theorem closedLines_points [DecidableEq K] {X Y : Cntr.NdArr K} {Z : Cntr.NdArr (Option K)} (hR : (arrGrid X Y Z none).Rect) {l : K}
    (hm : (arrGrid X Y Z none).Misses l) (hz : Full Z) {cs : List (List Side)} (hc : ∀ es ∈ cs, (arrGrid X Y Z none).IsContour l es) :
    closedLines (cs.map (List.map ((arrGrid X Y Z none).point l))) = (closedLines cs).map (List.map ((arrGrid X Y Z none).point l)) := by
  unfold closedLines
  rw [List.filter_map]
  congr 1
  apply List.filter_congr
  intro es hes
  simp only [Function.comp]
  exact decide_eq_decide.2 (Crossing.closed_vertices hR hm (hc es hes) (full_points hz (hc es hes)))

/-- **C81, partial** For closed contours more is known: those of the map with reversed sign at the opposite level are those of the map, in the
same order, each with the same start and in the other direction. -/
theorem C81_partial_closed [DecidableEq K] {X Y : Cntr.NdArr K} {Z : Cntr.NdArr (Option K)} (h : SameShape X Y Z none)
    (hR : (arrGrid X Y Z none).Rect) {l : K} (ht : NoTies Z l) {fuel fuel' : ℕ} (mem mem' : Memory) (hf : bound Z ≤ fuel) (hf' : bound Z ≤ fuel') :
    ∃ (L L' : List (List (Vertex K))) (codes codes' : List (Item K)),
      extractContours X Y Z l fuel mem = .ok (L.map .points, codes) ∧
      extractContours X Y Z.neg (-l) fuel' mem' = .ok (L'.map .points, codes') ∧
      closedLines L' = (closedLines L).map List.reverse := by
  obtain ⟨cs, hcs, hres⟩ := Cntr.extract_traced h l
  obtain ⟨cs', hcs', hres'⟩ := Cntr.extract_traced (X := X) (Y := Y) (Z := Z.neg) ⟨h.1, h.2.1, by simp⟩ (-l)
  have hpt : (arrGrid X Y Z.neg none).point (-l) = (arrGrid X Y Z none).point l := funext fun _ => Cntr.neg_point
  refine ⟨cs.map (List.map ((arrGrid X Y Z none).point l)), cs'.map (List.map ((arrGrid X Y Z none).point l)), codeArrays cs,
    codeArrays cs', ?_, ?_, ?_⟩
  · rw [hres fuel mem hf, List.map_map]; rfl
  · rw [hres' fuel' mem' hf', List.map_map]
    unfold pointArrays
    rw [hpt]
    rfl
  · have hc' : ∀ es ∈ cs', (arrGrid X Y Z none).IsContour l es := by
      have hn := Cntr.neg_contours ht hcs.lines
      intro es hes
      by_cases hcl : es.head? = es.getLast?
      · have hm : es ∈ closedLines cs' := List.mem_filter.2 ⟨hes, decide_eq_true hcl⟩
        rw [Cntr.neg_closed ht hcs hcs'] at hm
        obtain ⟨es', h1, rfl⟩ := List.mem_map.1 hm
        exact Cntr.contour_reverse (hcs.lines.each es' (List.mem_filter.1 h1).1)
      · obtain ⟨es', h3, hm, _, hcl', _⟩ := Cntr.contours_unique hcs'.lines hn hes
        have two := (hcs'.lines.each es hes).two
        have hx := List.getElem_mem (l := es) (n := 0) (by omega)
        have hcl2 : es'.head? ≠ es'.getLast? := fun hh => hcl (hcl'.2 hh)
        rcases Cntr.open_ends (hn.each es' h3) (Cntr.contours_nodup hn h3) (hcs'.lines.each es hes) (Cntr.contours_nodup hcs'.lines hes)
          ((hm _).1 hx) hx hcl2 hcl with he | he
        · rw [he]; exact hcs.lines.each es' h3
        · rw [he]; exact Cntr.contour_reverse (hcs.lines.each es' h3)
    rw [closedLines_points hR (noTies_misses ht) (noTies_full ht) hc',
      closedLines_points hR (noTies_misses ht) (noTies_full ht) hcs.lines.each, Cntr.neg_closed ht hcs hcs', List.map_map, List.map_map]
    apply List.map_congr_left
    intro es _
    simp

end

/-! ### C105 -/

/-- the contours of the map with reversed sign, if all contours are closed -/
theorem contourList_negated (L : Libs) {S : Fields} (h : S.Ok) (hR : S.grid.Rect) {l : ℝ} (ht : NoTies S.data l)
    (hcl : ∀ vs ∈ contourList L S l, vs.head? = vs.getLast?) : contourList L S.negated (-l) = (contourList L S l).map List.reverse := by
  have lst : ∀ {S : Fields} (l : ℝ), S.Ok → ∃ cs, Traced S.grid l cs ∧ contourList L S l = cs.map (List.map (S.grid.point l)) := by
    intro S l h
    obtain ⟨cs, h1, h2⟩ := Cntr.extract_traced h l
    refine ⟨cs, h1, ?_⟩
    unfold contourList contoursOf
    rw [h2 (4 * (S.data.cols * S.data.rows) + 2) _ le_rfl]
    simp only [Cntr.pointArrays]
    clear h1 h2
    induction cs with
    | nil => rfl
    | cons a l ih => simp only [List.map_cons, List.filterMap_cons, vertsOf, ih]; rfl
  obtain ⟨cs, hcs, e1⟩ := lst l h
  obtain ⟨cs', hcs', e2⟩ := lst (S := S.negated) (-l) ⟨h.1, h.2.1, by simp⟩
  have hcs' : Traced (arrGrid S.X S.Y S.data.neg none) (-l) cs' := hcs'
  have hpt : S.negated.grid.point (-l) = S.grid.point l := funext fun _ => Cntr.neg_point
  have all : ∀ es ∈ cs, es.head? = es.getLast? := by
    intro es hes
    have hc := hcs.lines.each es hes
    exact (Crossing.closed_vertices hR (noTies_misses ht) hc (full_points (noTies_full ht) hc)).1
      (hcl _ (by rw [e1]; exact List.mem_map_of_mem hes))
  have all' : ∀ es ∈ cs', es.head? = es.getLast? := by
    intro es hes
    obtain ⟨es', h3, _, _, hc, _⟩ := Cntr.contours_unique hcs'.lines (Cntr.neg_contours ht hcs.lines) hes
    exact hc.2 (all es' h3)
  have key := Cntr.neg_closed ht hcs hcs'
  unfold closedLines at key
  rw [List.filter_eq_self.2 (by simpa using all'), List.filter_eq_self.2 (by simpa using all)] at key
  rw [e1, e2, hpt, key, List.map_map, List.map_map]
  apply List.map_congr_left
  intro es _
  simp

/-- **C105** partial: as `C105_partial`, from the data alone. Without the Gaussian fit and with a similarity threshold of at least one, if no value
equals the level (nor the mean of the corners of a cell in which the contour has two pieces) and all contours of the level are closed and
without consecutive vertices of opposite azimuths, the eddies of the map with reversed sign at the opposite level correspond to those of the
map. What is missing: the similarity with the ellipse and its criterion, the Gaussian fit, maps with open contours. -/
theorem C105_partial_from_data {c : Criteria ℝ} (hc : c.skipGauss = true) (h1 : 1 ≤ c.ellipseFit) (L : Libs) {S : Fields} (h : S.Ok)
    (hR : S.grid.Rect) {l : ℝ} (ht : NoTies S.data l)
    (hcl : ∀ vs ∈ contourList L S l, vs.head? = vs.getLast? ∧ ∀ pts : List (ℝ × ℝ), vs = pts.map some → pts.IsChain NotOpposite) :
    List.Forall₂ OppositeResult ((contourList L S l).map (examine c L S l))
      ((contourList L S.negated (-l)).map (examine c L S.negated (-l))) ∧
    List.Forall₂ OppositeEddy ((contourList L S l).filterMap (storedEddy c L S l))
      ((contourList L S.negated (-l)).filterMap (storedEddy c L S.negated (-l))) :=
  C105_partial hc h1 L S l (contourList_negated L h hR ht fun vs hvs => (hcl vs hvs).1) hcl

/-! ### examples -/

theorem exGrid_ascending : (arrGrid Cntr.exX Cntr.exY Cntr.exZ none).Ascending :=
  ⟨fun i => i, fun j => j, fun _ _ _ _ => ⟨rfl, rfl⟩, fun _ _ h _ => Nat.cast_lt.2 h, fun _ _ h _ => Nat.cast_lt.2 h⟩

theorem exGrid_misses : (arrGrid Cntr.exX Cntr.exY Cntr.exZ none).Misses (1 / 2) := by
  intro i j _ _ h
  have h : (Cntr.exZ.get j i) = some (1 / 2) := h
  simp only [Cntr.exZ, Option.some.injEq] at h
  split_ifs at h <;> norm_num at h

/-- the closed contour of the example, as grid edges: it starts below the maximum and runs counterclockwise -/
example : ∃ cs, Traced (arrGrid Cntr.exX Cntr.exY Cntr.exZ none) (1 / 2) cs ∧ cs.length = 2 ∧
    pointArrays (arrGrid Cntr.exX Cntr.exY Cntr.exZ none) (1 / 2) cs =
      [.points [some (1, 1/2), some (3/2, 1), some (1, 3/2), some (1/2, 1), some (1, 1/2)],
      .points [some (3, 1/4), some (9/4, 1), some (3, 7/4)]] := by
  obtain ⟨cs, h1, h2⟩ := C111_start_direction_order Cntr.exShape (1 / 2) (mem := Cntr.exMem) le_rfl
  rw [ex_whole] at h2
  injection h2 with h2
  injection h2 with h2 _
  refine ⟨cs, h1, ?_, h2.symm⟩
  have := congrArg List.length h2
  simpa [pointArrays] using this.symm

/-- the hypotheses of `C111_high_values_left` hold for the first piece of the closed contour -/
example : ∃ i j i' j' u v, (i' = i ∧ (j' = j + 1 ∨ j = j' + 1) ∨ j' = j ∧ (i' = i + 1 ∨ i = i' + 1)) ∧ Cntr.exZ.get j i = some u ∧ 1 / 2 < u ∧
    Cntr.exZ.get j' i' = some v ∧ v < 1 / 2 ∧ LeftOf (1, 1 / 2) (3 / 2, 1) (Cntr.exX.get j i, Cntr.exY.get j i) ∧
    LeftOf (3 / 2, 1) (1, 1 / 2) (Cntr.exX.get j' i', Cntr.exY.get j' i') :=
  C111_high_values_left Cntr.exShape exGrid_ascending Cntr.exFull exGrid_misses le_rfl ex_whole (List.mem_cons_self ..) (by decide +kernel)
    (k := 0) rfl rfl

/-- a line that starts at another vertex is not the returned one: the direction and the start are part of the result -/
example : ¬ Traced (arrGrid Cntr.exX Cntr.exY Cntr.exZ none) (1 / 2)
    [[⟨1, 1, false⟩, ⟨1, 1, true⟩, ⟨0, 1, false⟩, ⟨1, 0, true⟩, ⟨1, 1, false⟩], [⟨3, 0, true⟩, ⟨2, 1, false⟩, ⟨3, 1, true⟩]] := by
  intro h
  have := C111_determined Cntr.exShape h (mem := Cntr.exMem) le_rfl
  rw [ex_whole] at this
  revert this
  decide +kernel

/-- the hypotheses of `C110_part_exact` hold for the first three columns of a map with four -/
example : linesInside Cntr.exX Cntr.exY 0 3 0 3 [.points [some (1, 1/2), some (3/2, 1), some (1, 3/2), some (1/2, 1), some (1, 1/2)],
      .points [some (3, 1/4), some (9/4, 1), some (3, 7/4)]] =
    linesInside Cntr.exX Cntr.exY 0 3 0 3 [.points [some (1, 1/2), some (3/2, 1), some (1, 3/2), some (1/2, 1), some (1, 1/2)]] :=
  C110_part_exact Cntr.exShape exGrid_rect (by decide) (by decide) (by decide) (by decide) le_rfl le_rfl ex_whole ex_three

/-- the hypotheses of `C110_local_exact` hold for two maps that differ in the last column -/
example : ∃ segs cods, extractContours Cntr.exX Cntr.exY exZ' (1 / 2) (bound exZ') Cntr.exMem = .ok (segs, cods) ∧
      linesInside Cntr.exX Cntr.exY 0 3 0 3 [.points [some (1, 1/2), some (3/2, 1), some (1, 3/2), some (1/2, 1), some (1, 1/2)],
        .points [some (3, 1/4), some (9/4, 1), some (3, 7/4)]] = linesInside Cntr.exX Cntr.exY 0 3 0 3 segs := by
  have hA : AgreeIn Cntr.exX Cntr.exY Cntr.exZ Cntr.exX Cntr.exY exZ' 0 3 0 3 :=
    ⟨fun _ _ _ _ => rfl, fun _ _ _ _ => rfl, fun j _ i hi => by
      show _ = if 0 + i = 3 then _ else _
      rw [if_neg (by omega)]⟩
  have hS : SameShape Cntr.exX Cntr.exY exZ' none := ⟨rfl, rfl, by simp⟩
  obtain ⟨cs, _, hr⟩ := Cntr.extract_result hS (1 / 2)
  exact ⟨_, _, hr _ Cntr.exMem le_rfl,
    C110_local_exact Cntr.exShape hS exGrid_rect exGrid_rect (by decide) (by decide) (by decide) (by decide) (by decide) (by decide) hA
      le_rfl le_rfl ex_whole (hr _ Cntr.exMem le_rfl)⟩

/-- the hypotheses of `C81_partial_closed`, and its conclusion for the example -/
example : (arrGrid Cntr.exX Cntr.exY Cntr.exZ none).Rect ∧ NoTies Cntr.exZ (1 / 3) ∧
    extractContours Cntr.exX Cntr.exY Cntr.exZ (1 / 3) (bound Cntr.exZ) Cntr.exMem = .ok
      ([.points [some (1, 1/3), some (5/3, 1), some (1, 5/3), some (1/3, 1), some (1, 1/3)],
        .points [some (3, 1/6), some (13/6, 1), some (3, 11/6)]], [.codes [1, 2, 2, 2, 2], .codes [1, 2, 2]]) :=
  ⟨exGrid_rect, Cntr.exNoTies, by decide +kernel⟩

theorem mrField_noTies : NoTies mrField.data (1 / 2) := by
  constructor
  · intro j hj i hi
    have hj : j < 3 := hj
    have hi : i < 4 := hi
    refine ⟨if j = 1 ∧ (i = 1 ∨ i = 2) then 1 else 0, ?_, by split_ifs <;> norm_num⟩
    show (if j < 3 ∧ i < 4 then _ else _) = _
    rw [if_pos ⟨hj, hi⟩]
  · intro j i hj hi p q r s hp hq hr hs
    have hj : j + 1 < 3 := hj
    have hi : i + 1 < 4 := hi
    have hj' : j = 0 ∨ j = 1 := by omega
    have hi' : i = 0 ∨ i = 1 ∨ i = 2 := by omega
    simp only [mrField, exField] at hp hq hr hs
    rcases hj' with rfl | rfl <;> rcases hi' with rfl | rfl | rfl <;> norm_num at hp hq hr hs <;> subst hp hq hr hs <;> norm_num

theorem mrField_gridRect : mrField.grid.Rect := by
  refine ⟨fun c => [3, 2, 1, 0].getD c 0, fun r => [0, 1, 2].getD r 0, fun _ _ _ _ => ⟨rfl, rfl⟩, Or.inr ?_, Or.inl ?_⟩
  · intro i j h hj
    have hj : j < 4 := hj
    beta_reduce
    rw [mrAxis4 hj, mrAxis4 (by omega)]
    have : (i : ℝ) < j := Nat.cast_lt.2 h
    linarith
  · intro i j h hj
    have hj : j < 3 := hj
    beta_reduce
    rw [exAxis3 hj, exAxis3 (by omega)]
    exact Nat.cast_lt.2 h

/-- the example meets the hypotheses of `C105_partial_from_data` and has an eddy -/
example : mrField.Ok ∧ mrField.grid.Rect ∧ NoTies mrField.data (1 / 2) ∧
    (∀ vs ∈ contourList mrLibs mrField (1 / 2), vs.head? = vs.getLast? ∧ ∀ pts : List (ℝ × ℝ), vs = pts.map some → pts.IsChain NotOpposite) ∧
    ∃ e, examine { mrCriteria with ellipseFit := 1 } mrLibs mrField (1 / 2) (mrPts.map some) = .ok (.stored e) := by
  refine ⟨⟨rfl, rfl, fun M hM => by cases hM⟩, mrField_gridRect, mrField_noTies, ?_, mrStored (by norm_num)⟩
  rw [mrField_contours]
  intro vs hvs
  rw [List.mem_singleton] at hvs
  subst hvs
  refine ⟨by simp [mrPts], fun pts h => ?_⟩
  have : mrPts = pts := List.map_injective_iff.2 (Option.some_injective _) h
  exact this ▸ mrChain

end Trackeddy
