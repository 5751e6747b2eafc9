import Verif.Proofs.Local
import Verif.Props.Origin

/-!
C112: what is found in a part of the map depends only on the data in and around it.
-/
namespace Trackeddy
open Spec
open Cntr (InsideBox LineInside AgreeIn linesInside Item Vertex)

open Classical in
/-- the contours of a level inside a rectangle -/
noncomputable def contoursInside (L : Libs) (S : Fields) (l : ℝ) (j0 nj i0 ni : ℕ) : List (List (Vertex ℝ)) :=
  (contourList L S l).filter fun vs => LineInside S.X S.Y j0 nj i0 ni vs

theorem contoursInside_lines {L : Libs} {S : Fields} {l : ℝ} {segs cods : List (Item ℝ)}
    (h : Cntr.extractContours S.X S.Y S.data l (Cntr.bound S.data) (L.mem S.data l) = .ok (segs, cods)) (j0 nj i0 ni : ℕ) :
    contoursInside L S l j0 nj i0 ni = linesInside S.X S.Y j0 nj i0 ni segs := by
  have e : contourList L S l = segs.filterMap vertsOf := by
    unfold contourList contoursOf
    have h : Cntr.extractContours S.X S.Y S.data l (4 * (S.data.cols * S.data.rows) + 2) (L.mem S.data l) = .ok (segs, cods) := h
    rw [h]
  classical
  unfold contoursInside linesInside
  rw [e]
  clear h e
  induction segs with
  | nil => rfl
  | cons s segs ih =>
    cases s with
    | codes k => exact ih
    | points ps =>
      simp only [List.filterMap_cons, vertsOf, List.filter_cons]
      by_cases hp : LineInside S.X S.Y j0 nj i0 ni ps
      · simp only [if_pos hp, if_pos (decide_eq_true hp), ih]
      · rw [if_neg (fun hd => hp (of_decide_eq_true hd)), ih]
        simp only [if_neg hp]

section
variable {S S' : Fields} {j0 nj i0 ni : ℕ} {L : Libs}

theorem contoursInside_agree (hA : AgreeAround S S' j0 nj i0 ni) (h : S.Ok) (hR : S.grid.Rect) (hj : 0 < nj) (hi : 0 < ni)
    (hjn : j0 + nj ≤ S.data.rows) (hin : i0 + ni ≤ S.data.cols) (l : ℝ) :
    contoursInside L S' l j0 nj i0 ni = contoursInside L S l j0 nj i0 ni := by
  have h' : S'.Ok := ⟨by rw [hA.X, hA.rows, hA.cols]; exact h.1, by rw [hA.Y, hA.rows, hA.cols]; exact h.2.1, by simp⟩
  have hR' : S'.grid.Rect := by
    obtain ⟨xs, ys, h1, h2, h3⟩ := hR
    refine ⟨xs, ys, fun i j hi hj => ?_, ?_, ?_⟩
    · have hi : i < S'.data.cols := hi
      have hj : j < S'.data.rows := hj
      rw [hA.cols] at hi
      rw [hA.rows] at hj
      show S'.X.get j i = _ ∧ S'.Y.get j i = _
      rw [hA.X, hA.Y]
      exact h1 i j hi hj
    · show StrictAxis S'.data.cols xs
      rw [hA.cols]; exact h2
    · show StrictAxis S'.data.rows ys
      rw [hA.rows]; exact h3
  obtain ⟨cs, _, hr⟩ := Cntr.extract_result h l
  obtain ⟨cs', _, hr'⟩ := Cntr.extract_result h' l
  rw [contoursInside_lines (hr _ (L.mem S.data l) le_rfl), contoursInside_lines (hr' _ (L.mem S'.data l) le_rfl)]
  have e : ∀ segs, linesInside S'.X S'.Y j0 nj i0 ni segs = linesInside S.X S.Y j0 nj i0 ni segs := by rw [hA.X, hA.Y]; exact fun _ => rfl
  rw [e]
  refine (C110_local_exact h h' hR hR' hj hi hjn hin (hA.rows ▸ hjn) (hA.cols ▸ hin) ⟨?_, ?_, ?_⟩ le_rfl le_rfl (hr _ (L.mem S.data l) le_rfl)
    (hr' _ (L.mem S'.data l) le_rfl)).symm
  · intro j _ i _; rw [hA.X]
  · intro j _ i _; rw [hA.Y]
  · intro j h1 i h2
    exact (hA.values _ (by omega) _ (by omega) ⟨by omega, by omega, by omega, by omega⟩).symm

/-- **C112** Two maps on the same grid with the same data in a rectangle and around it (half the larger side of the rectangle further, at least
three rows and columns) have the same contours inside the rectangle, and each of these contours is skipped, discarded for the same reason or
accepted as the same eddy: same contour, area, radius, ellipse, extremum, Gaussian and scores. -/
theorem C112_outcomes_local (hA : AgreeAround S S' j0 nj i0 ni) (h : S.Ok) (hR : S.grid.Rect) (hrect : S.Rectilinear) (hL : L.Nearest)
    (hj : 0 < nj) (hi : 0 < ni) (hjn : j0 + nj ≤ S.data.rows) (hin : i0 + ni ≤ S.data.cols) (c : Criteria ℝ) (l : ℝ) :
    contoursInside L S' l j0 nj i0 ni = contoursInside L S l j0 nj i0 ni ∧
    ∀ vs ∈ contoursInside L S l j0 nj i0 ni, examine c L S' l vs = examine c L S l vs := by
  classical
  refine ⟨contoursInside_agree hA h hR hj hi hjn hin l, fun vs hvs => ?_⟩
  exact examine_agree hA hL hrect hR hj hi hjn hin c l (of_decide_eq_true (List.mem_filter.1 hvs).2)

theorem eddyInside_iff {c : Criteria ℝ} {l : ℝ} {vs : List (Vertex ℝ)} {e : EddyObj} (he : storedEddy c L S l vs = some e) :
    EddyInside S.X S.Y j0 nj i0 ni e.data ↔ LineInside S.X S.Y j0 nj i0 ni vs := by
  obtain ⟨pts, rfl, _, curve, i, hq⟩ := storedEddy_iff.1 he
  have hc : e.contour = pts := hq.contour
  constructor
  · rintro ⟨pts', h1, h2⟩ p hp
    obtain ⟨P, hP, rfl⟩ := List.mem_map.1 hp
    have : pts = pts' := by
      unfold HasContour EddyObj.data at h1
      simp only [hc] at h1
      exact List.map_injective_iff.2 (fun a b hab => by simpa [Prod.ext_iff] using hab) h1
    exact ⟨P, rfl, h2 P (this ▸ hP)⟩
  · intro h1
    refine ⟨pts, by unfold HasContour EddyObj.data; rw [hc], fun P hP => ?_⟩
    obtain ⟨Q, hQ, hQ'⟩ := h1 (some P) (List.mem_map_of_mem hP)
    injection hQ with hQ
    exact hQ ▸ hQ'

/-- the eddies inside a rectangle are those of the contours inside it -/
theorem eddiesInside_contours (c : Criteria ℝ) (L : Libs) (S : Fields) (l : ℝ) (j0 nj i0 ni : ℕ) :
    eddiesInside S.X S.Y j0 nj i0 ni (((contourList L S l).filterMap (storedEddy c L S l)).map EddyObj.data) =
      ((contoursInside L S l j0 nj i0 ni).filterMap (storedEddy c L S l)).map EddyObj.data := by
  classical
  unfold eddiesInside contoursInside
  induction contourList L S l with
  | nil => rfl
  | cons vs cl ih =>
    rw [List.filterMap_cons, List.filter_cons]
    cases he : storedEddy c L S l vs with
    | none =>
      simp only
      split
      · rw [List.filterMap_cons, he]; exact ih
      · exact ih
    | some e =>
      simp only [List.map_cons, List.filter_cons]
      by_cases hv : LineInside S.X S.Y j0 nj i0 ni vs
      · rw [if_pos (decide_eq_true hv), if_pos (decide_eq_true ((eddyInside_iff he).2 hv)), List.filterMap_cons, he, ih]
        rfl
      · rw [if_neg (fun hx => hv (of_decide_eq_true hx)), if_neg (fun hx => hv ((eddyInside_iff he).1 (of_decide_eq_true hx))), ih]

end

/-- the rows of a run with one level -/
theorem one_level_rows {Pt : Type} {E : Env Cols ℝ Pt} (hnn : IsNN E.dist E.nn) {c : Criteria ℝ} {L : Libs}
    {field : Int → Fields} {levels : List ℝ} {l : ℝ} (hl : levels.filter (· ≠ 0) = [l]) {t0 : Int} {tf : Option Int}
    {T : Nat} {ntimes : Int} {regs : Regs Cols} (h : ∀ t ∈ trackTimes t0 tf T, (field t).Ok) (hr : StoreEmpty regs)
    {s : LoopState Cols} (hs : (trackFields E c L field levels t0 tf T ntimes true regs).2 = .ok s) :
    ∃ g : Int → Nat → Nat, s.table.rows.Perm ((trackTimes t0 tf T).flatMap fun t =>
      ((((contourList L (field t) l).filterMap (storedEddy c L (field t) l)).map EddyObj.data).mapIdx fun i d =>
        atTime t (eddyRows (g t i) (tableRows d))).flatten) := by
  rw [(trackFields_pure E c L h hr).1] at hs
  have hsnap : ∀ t C, pureSnapshot E c L (field t) levels = .ok C → SnapRows C.rows := by
    intro t C hC
    have := detectSnapshot_inv (fun l tb htb => pureLevel_level htb) _ hC
    exact ⟨this.first, this.contig⟩
  obtain ⟨g, hg⟩ := C03_no_detection_lost_or_invented hnn hsnap hs
  have hproc : s.processed = trackTimes t0 tf T :=
    (run_inv hnn _ (pairwise_trackTimes t0 tf T) (fun t _ => rowsAt_snapRows hsnap t) hs).proc
  refine ⟨g, ?_⟩
  rw [hproc] at hg
  refine hg.trans (List.Perm.of_eq ?_)
  apply List.flatMap_congr
  intro t ht
  have hrows : rowsAt (fun t => pureSnapshot E c L (field t) levels) t =
      snapRows (((contourList L (field t) l).filterMap (storedEddy c L (field t) l)).map EddyObj.rows) := by
    obtain ⟨C, hC⟩ := run_snaps_ok _ hs t ht
    unfold rowsAt
    simp only [hC]
    exact snapshot_one_level (h t ht) hl hC
  rw [hrows, tagged_snapRows]
  congr 1
  apply List.ext_getElem?
  intro i
  simp only [List.getElem?_mapIdx, List.getElem?_map, Option.map_map]
  rfl

/-- **C112** Two runs with one level over maps on the same grids, with the same data in a rectangle and around it at all times, return at each
time the same eddies inside the rectangle, with the same columns, in the same order. -/
theorem C112_eddies_local {Pt : Type} {E : Env Cols ℝ Pt} (hnn : IsNN E.dist E.nn) {c : Criteria ℝ} {L : Libs} (hL : L.Nearest)
    {field field' : Int → Fields} {levels : List ℝ} {l : ℝ} (hl : levels.filter (· ≠ 0) = [l]) {t0 : Int} {tf : Option Int} {T : Nat}
    {ntimes : Int} {regs regs' : Regs Cols} (hr : StoreEmpty regs) (hr' : StoreEmpty regs') {j0 nj i0 ni : ℕ} (hj : 0 < nj) (hi : 0 < ni)
    (h : ∀ t ∈ trackTimes t0 tf T, (field t).Ok ∧ (field t).grid.Rect ∧ (field t).Rectilinear ∧ j0 + nj ≤ (field t).data.rows ∧
      i0 + ni ≤ (field t).data.cols ∧ AgreeAround (field t) (field' t) j0 nj i0 ni) {s s' : LoopState Cols}
    (hs : (trackFields E c L field levels t0 tf T ntimes true regs).2 = .ok s)
    (hs' : (trackFields E c L field' levels t0 tf T ntimes true regs').2 = .ok s') :
    ∃ (ds ds' : Int → List (EddyData (Option ℝ))) (g g' : Int → Nat → Nat),
      s.table.rows.Perm ((trackTimes t0 tf T).flatMap fun t =>
        ((ds t).mapIdx fun i d => atTime t (eddyRows (g t i) (tableRows d))).flatten) ∧
      s'.table.rows.Perm ((trackTimes t0 tf T).flatMap fun t =>
        ((ds' t).mapIdx fun i d => atTime t (eddyRows (g' t i) (tableRows d))).flatten) ∧
      ∀ t ∈ trackTimes t0 tf T, eddiesInside (field t).X (field t).Y j0 nj i0 ni (ds' t) =
        eddiesInside (field t).X (field t).Y j0 nj i0 ni (ds t) := by
  have hok' : ∀ t ∈ trackTimes t0 tf T, (field' t).Ok := by
    intro t ht
    obtain ⟨h1, _, _, _, _, hA⟩ := h t ht
    exact ⟨by rw [hA.X, hA.rows, hA.cols]; exact h1.1, by rw [hA.Y, hA.rows, hA.cols]; exact h1.2.1, by simp⟩
  obtain ⟨g, hg⟩ := one_level_rows hnn hl (fun t ht => (h t ht).1) hr hs
  obtain ⟨g', hg'⟩ := one_level_rows hnn hl hok' hr' hs'
  refine ⟨_, _, g, g', hg, hg', fun t ht => ?_⟩
  obtain ⟨h1, h2, h3, h4, h5, hA⟩ := h t ht
  have e := eddiesInside_contours c L (field' t) l j0 nj i0 ni
  rw [hA.X, hA.Y] at e
  rw [eddiesInside_contours, e]
  obtain ⟨o1, o2⟩ := C112_outcomes_local hA h1 h2 h3 hL hj hi h4 h5 c l
  rw [o1]
  congr 1
  apply List.filterMap_congr
  intro vs hvs
  unfold storedEddy
  rw [o2 vs hvs]

/-! ### examples -/

def loqX : Cntr.NdArr ℚ := ⟨3, 9, fun _ c => [-1 / 4, 1, 2, 13 / 4, 5, 7, 9, 11, 13].getD c 0⟩
def loqY : Cntr.NdArr ℚ := ⟨3, 9, fun r _ => [-1 / 4, 1, 9 / 4].getD r 0⟩
def loqZ (u : ℚ) : Cntr.NdArr (Option ℚ) := ⟨3, 9, fun r c => some (if r = 1 ∧ (c = 1 ∨ c = 2) then 1 else if 7 ≤ c then u else 0)⟩

/-- an elevation in the west, any constant value in the last two columns -/
noncomputable def loField (u : ℝ) : Fields :=
  ⟨⟨3, 9, fun _ c => [-1 / 4, 1, 2, 13 / 4, 5, 7, 9, 11, 13].getD c 0⟩, ⟨3, 9, fun r _ => [-1 / 4, 1, 9 / 4].getD r 0⟩,
    ⟨3, 9, fun r c => some (if r = 1 ∧ (c = 1 ∨ c = 2) then 1 else if 7 ≤ c then u else 0)⟩⟩

theorem loq_contours {u : ℚ} (hu : u = 0 ∨ u = 1 / 2) : Cntr.extractContours loqX loqY (loqZ u) (3 / 5) 110 Cntr.exMem =
    .ok ([[some (1, 1 / 2), some (2, 1 / 2), some (5 / 2, 1), some (2, 3 / 2), some (1, 3 / 2), some (1 / 2, 1),
      some (1, 1 / 2)]].map .points, [.codes [1, 2, 2, 2, 2, 2, 2]]) := by
  rcases hu with rfl | rfl <;> decide +kernel

theorem loField_cast (u : ℚ) : loqX.cast (Rat.castHom ℝ) = (loField u).X ∧ loqY.cast (Rat.castHom ℝ) = (loField u).Y ∧
    (loqZ u).castO (Rat.castHom ℝ) = (loField u).data := by
  refine ⟨?_, ?_, ?_⟩
  · unfold Cntr.NdArr.cast loqX loField
    simp only [Cntr.NdArr.mk.injEq, true_and]
    funext _ c
    match c with
    | 0 | 1 | 2 | 3 | 4 | 5 | 6 | 7 | 8 => norm_num
    | c + 9 => simp
  · unfold Cntr.NdArr.cast loqY loField
    simp only [Cntr.NdArr.mk.injEq, true_and]
    funext r _
    match r with
    | 0 | 1 | 2 => norm_num
    | r + 3 => simp
  · unfold Cntr.NdArr.castO loqZ loField
    simp only [Cntr.NdArr.mk.injEq, true_and]
    funext r c
    split_ifs <;> simp

theorem loField_ok (u : ℝ) : (loField u).Ok := ⟨rfl, rfl, fun M hM => by cases hM⟩

theorem loField_contours (L : Libs) {u : ℚ} (hu : u = 0 ∨ u = 1 / 2) : contourList L (loField u) (3 / 5) = [exPts.map some] := by
  obtain ⟨cds, h⟩ := Cntr.extract_cast (Rat.castHom ℝ) Rat.cast_strictMono (X := loqX) (Y := loqY) (Z := loqZ u)
    (mem' := L.mem (loField u).data (3 / 5)) (fuel' := 4 * (9 * 3) + 2)
    ⟨rfl, rfl, fun M hM => by cases hM⟩ (3 / 5) (by show 4 * (9 * 3) + 2 ≤ 110; decide) (by show 4 * (9 * 3) + 2 ≤ _; decide) (loq_contours hu)
  obtain ⟨hX, hY, hZ⟩ := loField_cast u
  have hl : Rat.castHom ℝ (3 / 5) = 3 / 5 := by norm_num
  rw [hX, hY, hZ, hl] at h
  unfold contourList contoursOf
  have hd : 4 * ((loField u).data.cols * (loField u).data.rows) + 2 = 4 * (9 * 3) + 2 := rfl
  rw [hd, h]
  simp [vertsOf, exPts]

theorem loAxis9 : StrictAxis 9 fun c => ([-1 / 4, 1, 2, 13 / 4, 5, 7, 9, 11, 13] : List ℝ).getD c 0 := by
  refine Or.inl fun i j h hj => ?_
  interval_cases j <;> interval_cases i <;> norm_num

theorem loAxis3 : StrictAxis 3 fun r => ([-1 / 4, 1, 9 / 4] : List ℝ).getD r 0 := by
  refine Or.inl fun i j h hj => ?_
  interval_cases j <;> interval_cases i <;> norm_num

theorem mono_of_strict {n : ℕ} {f : ℕ → ℝ} (h : StrictAxis n f) : MonoAxis n f := by
  rcases h with h | h
  · refine Or.inl fun i j hij hj => ?_
    rcases Nat.eq_or_lt_of_le hij with rfl | hij
    · exact le_rfl
    · exact (h i j hij hj).le
  · refine Or.inr fun i j hij hj => ?_
    rcases Nat.eq_or_lt_of_le hij with rfl | hij
    · exact le_rfl
    · exact (h i j hij hj).le

theorem loField_gridRect (u : ℝ) : (loField u).grid.Rect := ⟨_, _, fun _ _ _ _ => ⟨rfl, rfl⟩, loAxis9, loAxis3⟩

theorem loField_rect (u : ℝ) : (loField u).Rectilinear :=
  ⟨_, _, fun _ _ => rfl, fun _ _ => rfl, mono_of_strict loAxis9, mono_of_strict loAxis3⟩

/-- the maps agree around the first four columns -/
theorem loField_agree (u u' : ℝ) : AgreeAround (loField u) (loField u') 0 3 0 4 := by
  refine ⟨rfl, rfl, rfl, rfl, fun j _ i _ h => ?_⟩
  have hi : i < 7 := h.2.2.2
  show some _ = some _
  rw [if_neg (show ¬ 7 ≤ i by omega), if_neg (show ¬ 7 ≤ i by omega)]

theorem loClear : ∀ v ∈ exPts, (loField 0).ClearPixel (meanPt exPts) v (orPixel v) := by
  intro v hv
  rw [exMean]
  simp only [exPts, List.mem_cons, List.not_mem_nil, or_false] at hv
  have key : ∀ p : ℕ × ℕ, (p = (1, 1) ∨ p = (1, 2)) →
      (∀ r < 3, ∀ c < 9, (r, c) ≠ p → ((loField 0).X.get p.1 p.2 - v.1) ^ 2 + ((loField 0).Y.get p.1 p.2 - v.2) ^ 2 <
        ((loField 0).X.get r c - v.1) ^ 2 + ((loField 0).Y.get r c - v.2) ^ 2) → (loField 0).ClearPixel (10 / 7, 13 / 14) v p := by
    intro p hp h
    refine ⟨?_, ?_, ?_, ?_, h⟩
    · show p.1 < 3
      rcases hp with rfl | rfl <;> decide
    · show p.2 < 9
      rcases hp with rfl | rfl <;> decide
    · rcases hp with rfl | rfl <;> simp only [loField] <;> rw [abs_le] <;> norm_num
    · rcases hp with rfl | rfl <;> simp only [loField] <;> rw [abs_le] <;> norm_num
  apply key
  · unfold orPixel
    split_ifs <;> simp
  · rcases hv with rfl | rfl | rfl | rfl | rfl | rfl | rfl <;> unfold orPixel loField <;> norm_num <;>
      intro r hr c hc hne <;> interval_cases r <;> interval_cases c <;>
      first | (exfalso; simp at hne; done) | (clear hne; norm_num)

def loWindow : Window := ⟨0, 0, 3, 6, [(1, 1), (1, 2), (1, 2), (1, 2), (1, 1), (1, 1), (1, 1)]⟩

theorem loGetWindow : getWindow 3 9 (1, 1) [(1, 2), (1, 2), (1, 2), (1, 1), (1, 1), (1, 1)] .auto = loWindow := by
  decide +kernel

theorem loData {L : Libs} (hL : L.Nearest) : ∃ i, dataInContour L (loField 0) exPts = .ok i ∧ i.ext.maxima ≠ 0 := by
  have hin : ((1 : ℤ), (1 : ℤ)) ∈ fillHoles 3 6 loWindow.rel.toFinset := by
    rw [C41_inside_iff]
    exact ⟨by unfold InWindow; decide, Or.inl (by decide)⟩
  obtain ⟨e, he⟩ := (C42_defined 3 6 (cut loWindow (loField 0).data).get
    fun r c => decide (((r : Int), (c : Int)) ∈ fillHoles 3 6 loWindow.rel.toFinset)).1.2
      ⟨1, 1, 1, by norm_num, by norm_num, by simpa using hin, by simp [cut, loWindow, loField]⟩
  have hpos : total 3 6 (cut loWindow (loField 0).data).get
      (fun r c => decide (((r : Int), (c : Int)) ∈ fillHoles 3 6 loWindow.rel.toFinset)) ≠ 0 := by
    have hnn : ∀ r c x, (cut loWindow (loField 0).data).get r c = some x → 0 ≤ x := by
      intro r c x hx
      simp only [cut, loField] at hx
      split_ifs at hx <;> simp at hx <;> subst hx <;> norm_num
    apply ne_of_gt
    unfold total
    refine Finset.sum_pos' (fun r _ => Finset.sum_nonneg fun c _ => ?_) ⟨1, by simp, Finset.sum_pos' (fun c _ => ?_) ⟨1, by simp, ?_⟩⟩
    · split
      · exact le_rfl
      · rename_i x hx
        split
        · exact hnn r c x hx
        · exact le_rfl
    · split
      · exact le_rfl
      · rename_i x hx
        split
        · exact hnn 1 c x hx
        · exact le_rfl
    · have : (((1 : Nat) : Int), ((1 : Nat) : Int)) ∈ fillHoles 3 6 loWindow.rel.toFinset := hin
      simp only [this]
      simp [cut, loField, loWindow]
  refine ⟨⟨loWindow, e⟩, ?_, fun h0 => hpos ((C43_zero_iff _ _ _ _ e he).1 h0)⟩
  rw [dataInContour_nearest hL (loField_rect 0) (by simp [exPts]) fun v hv => clear_nearest (loClear v hv)]
  have hp : (exPts.map fun v => (((orPixel v).1 : Int), ((orPixel v).2 : Int))) = [(1, 1), (1, 2), (1, 2), (1, 2), (1, 1), (1, 1), (1, 1)] := by
    have := congrArg (List.map fun p : ℕ × ℕ => ((p.1 : Int), (p.2 : Int))) orPixels
    rw [List.map_map] at this
    exact this
  rw [hp]
  simp only
  have hw : getWindow ((loField 0).data.rows : Int) ((loField 0).data.cols : Int) (1, 1) [(1, 2), (1, 2), (1, 2), (1, 1), (1, 1), (1, 1)] .auto =
    loWindow := loGetWindow
  rw [hw, if_pos (by
    show (loWindow.rel.all fun q => decide (0 ≤ q.1 ∧ q.1 < ((3 : Nat) : Int) ∧ 0 ≤ q.2 ∧ q.2 < ((6 : Nat) : Int))) = true
    decide)]
  have he' : maskDataInContour (cut loWindow (loField 0).data).rows (cut loWindow (loField 0).data).cols loWindow.rel.toFinset
    (cut loWindow (loField 0).data).get = .ok e := he
  rw [he']
  rfl

theorem loStored : ∃ e, examine exCriteria exLibs (loField 0) (3 / 5) (exPts.map some) = .ok (.stored e) := by
  obtain ⟨v, hv⟩ := exSim
  obtain ⟨i, hi, h0⟩ := loData exLibs_nearest
  have hrd : 0 < approxRD (13 / 14) := by unfold approxRD; positivity
  refine (examine_data (c := exCriteria) rfl exSkips ?_ exFit exFinite ?_ mrEccen hv ?_).2 i hi h0
  · rw [exMean]
    show Real.sqrt (areaPolygon exPts / Real.pi) ≤ Real.sqrt (areaPolygon exPts / Real.pi) / approxRD (13 / 14) * approxRD (13 / 14)
    rw [div_mul_cancel₀ _ hrd.ne']
  · rw [exAreas]
    unfold isclose
    simp only [sub_self, abs_zero, decide_eq_true_eq]
    have : (0 : ℝ) ≤ exCriteria.ellipseFit := zero_le_one
    positivity
  · rintro ⟨u, hu, h1⟩
    subst hu
    exact absurd h1 (not_lt.2 (similarity_unit hv).2)

theorem loInside : LineInside (loField 0).X (loField 0).Y 0 3 0 4 (exPts.map some) := by
  intro p hp
  obtain ⟨P, hP, rfl⟩ := List.mem_map.1 hp
  refine ⟨P, rfl, ?_⟩
  simp only [exPts, List.mem_cons, List.not_mem_nil, or_false] at hP
  unfold InsideBox Cntr.Between loField
  rcases hP with rfl | rfl | rfl | rfl | rfl | rfl | rfl <;> norm_num

theorem loContours0 : contourList exLibs (loField 0) (3 / 5) = [exPts.map some] := by
  have := loField_contours exLibs (Or.inl rfl)
  rwa [Rat.cast_zero] at this

theorem loAgain (u : ℝ) : contoursInside exLibs (loField u) (3 / 5) 0 3 0 4 = contoursInside exLibs (loField 0) (3 / 5) 0 3 0 4 ∧
    ∀ vs ∈ contoursInside exLibs (loField 0) (3 / 5) 0 3 0 4, examine exCriteria exLibs (loField u) (3 / 5) vs =
      examine exCriteria exLibs (loField 0) (3 / 5) vs :=
  C112_outcomes_local (loField_agree 0 u) (loField_ok 0) (loField_gridRect 0) (loField_rect 0) exLibs_nearest
    (by norm_num) (by norm_num) (by show 0 + 3 ≤ 3; norm_num) (by show 0 + 4 ≤ 9; norm_num) exCriteria (3 / 5)

theorem loMem : exPts.map some ∈ contoursInside exLibs (loField 0) (3 / 5) 0 3 0 4 := by
  classical
  unfold contoursInside
  rw [List.mem_filter, loContours0]
  exact ⟨List.mem_singleton.2 rfl, decide_eq_true loInside⟩

/-- the hypotheses of `C112_outcomes_local` hold: whatever the value in the last two columns, the contour in the west is there and gives an eddy -/
theorem loStored_any (u : ℝ) : exPts.map some ∈ contourList exLibs (loField u) (3 / 5) ∧
    ∃ e, examine exCriteria exLibs (loField u) (3 / 5) (exPts.map some) = .ok (.stored e) := by
  obtain ⟨h1, h2⟩ := loAgain u
  have h3 : exPts.map some ∈ contoursInside exLibs (loField u) (3 / 5) 0 3 0 4 := by rw [h1]; exact loMem
  refine ⟨List.mem_of_mem_filter h3, ?_⟩
  rw [h2 _ loMem]
  exact loStored

/-- the hypotheses of `C112_eddies_local` hold for two runs with an eddy each -/
example : ∃ (E : Env Cols ℝ (ℝ × ℝ)) (s s' : LoopState Cols), IsNN E.dist E.nn ∧
    (∀ t ∈ trackTimes 0 none 1, AgreeAround (loField 0) (loField (1 / 2)) 0 3 0 4) ∧ loField 0 ≠ loField (1 / 2) ∧
    (trackFields E exCriteria exLibs (fun _ => loField 0) [3 / 5] 0 none 1 1 true Regs.empty).2 = .ok s ∧
    (trackFields E exCriteria exLibs (fun _ => loField (1 / 2)) [3 / 5] 0 none 1 1 true Regs.empty).2 = .ok s' ∧
    s.table.rows ≠ [] ∧ s'.table.rows ≠ [] := by
  obtain ⟨nn, hnn⟩ := exists_isNN haversine
  obtain ⟨e, he⟩ := loStored
  obtain ⟨e', he'⟩ := (loStored_any (1 / 2)).2
  have hc : contourList exLibs (loField (1 / 2)) (3 / 5) = [exPts.map some] := by
    have := loField_contours exLibs (u := 1 / 2) (Or.inr rfl)
    rwa [show ((1 / 2 : ℚ) : ℝ) = 1 / 2 by norm_num] at this
  obtain ⟨s, h1, h2⟩ := run_single hnn (by norm_num) (loField_ok 0) loContours0 he
  obtain ⟨s', h1', h2'⟩ := run_single hnn (by norm_num) (loField_ok (1 / 2)) hc he'
  refine ⟨colsEnv true nn, s, s', hnn, fun _ _ => loField_agree _ _, ?_, h1, h1', h2.2 ⟨e, rfl⟩, h2'.2 ⟨e', rfl⟩⟩
  intro h
  have := congrArg (fun S => S.data.get 0 8) h
  simp [loField] at this

end Trackeddy
