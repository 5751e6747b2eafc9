import Verif.Proofs.Part

/-!
C113: a part of a map can be analysed alone.
-/
namespace Trackeddy
open Spec
open Cntr (InsideBox LineInside AgreeIn linesInside Item Vertex)

/-- Where the part (rows `J0` to `J0 + NJ - 1` and columns `I0` to `I0 + NI - 1`) and the rectangle in it (`nj` rows from row `jj` of the part,
`ni` columns from column `ii` of the part) lie: the part is in the map, the rectangle in the part, not empty, and away from the ends of the part
that are not ends of the map. -/
structure InnerBox (S : Fields) (J0 NJ I0 NI jj nj ii ni : ℕ) : Prop where
  rows : J0 + NJ ≤ S.data.rows
  cols : I0 + NI ≤ S.data.cols
  hj : 0 < nj
  hi : 0 < ni
  inJ : jj + nj ≤ NJ
  inI : ii + ni ≤ NI
  mj : Margin (reach nj ni) S.data.rows J0 NJ jj nj
  mi : Margin (reach nj ni) S.data.cols I0 NI ii ni

/-- every vertex of a contour of the level inside the rectangle has one nearest grid point among those around the centre of the contour -/
def NoTies (L : Libs) (S : Fields) (l : ℝ) (j0 nj i0 ni : ℕ) : Prop :=
  ∀ pts : List (ℝ × ℝ), pts.map some ∈ contoursInside L S l j0 nj i0 ni → ∀ v ∈ pts, UniqueNear S.grid (centroid pts) v

section
variable {S : Fields} {J0 NJ I0 NI jj nj ii ni : ℕ} {L : Libs}

theorem part_ok : (S.part J0 NJ I0 NI).Ok := ⟨rfl, rfl, by simp⟩

theorem part_gridRect (hR : S.grid.Rect) (hJ : J0 + NJ ≤ S.data.rows) (hI : I0 + NI ≤ S.data.cols) : (S.part J0 NJ I0 NI).grid.Rect := by
  obtain ⟨xs, ys, h1, h2, h3⟩ := hR
  have key : ∀ {n N A : ℕ} {f : ℕ → ℝ}, StrictAxis n f → A + N ≤ n → StrictAxis N fun i => f (A + i) := by
    intro n N A f h hA
    rcases h with h | h
    · exact Or.inl fun i j a b => h _ _ (by omega) (by omega)
    · exact Or.inr fun i j a b => h _ _ (by omega) (by omega)
  refine ⟨fun i => xs (I0 + i), fun j => ys (J0 + j), fun i j hi hj => ?_, key h2 hI, key h3 hJ⟩
  have hi : i < NI := hi
  have hj : j < NJ := hj
  exact h1 (I0 + i) (J0 + j) (by show I0 + i < S.data.cols; omega) (by show J0 + j < S.data.rows; omega)

theorem crop_crop {β : Type} (a : Cntr.NdArr β) : (a.crop J0 NJ I0 NI).crop jj nj ii ni = a.crop (J0 + jj) nj (I0 + ii) ni := by
  unfold Cntr.NdArr.crop
  simp only [Cntr.NdArr.mk.injEq, true_and]
  funext j i
  rw [Nat.add_assoc, Nat.add_assoc]

theorem contoursInside_part (h : S.Ok) (hR : S.grid.Rect) (b : InnerBox S J0 NJ I0 NI jj nj ii ni) (l : ℝ) :
    contoursInside L (S.part J0 NJ I0 NI) l jj nj ii ni = contoursInside L S l (J0 + jj) nj (I0 + ii) ni := by
  obtain ⟨hJ, hI, hj, hi, hjn, hin, _, _⟩ := b
  have hok : (S.part J0 NJ I0 NI).Ok := part_ok
  obtain ⟨cs, _, hr⟩ := Cntr.extract_result h l
  obtain ⟨cs', _, hr'⟩ := Cntr.extract_result hok l
  have hq : (S.part (J0 + jj) nj (I0 + ii) ni).Ok := part_ok
  obtain ⟨cs'', _, hr''⟩ := Cntr.extract_result hq l
  rw [contoursInside_lines (hr _ (L.mem S.data l) le_rfl), contoursInside_lines (hr' _ (L.mem (S.part J0 NJ I0 NI).data l) le_rfl)]
  have e : ∀ segs, linesInside (S.part J0 NJ I0 NI).X (S.part J0 NJ I0 NI).Y jj nj ii ni segs =
      linesInside S.X S.Y (J0 + jj) nj (I0 + ii) ni segs := by
    intro segs
    unfold linesInside
    rw [lineInside_part hj hi]
  have k1 := C110_part_exact h hR hj hi (show J0 + jj + nj ≤ S.data.rows by omega) (show I0 + ii + ni ≤ S.data.cols by omega) le_rfl le_rfl
    (hr _ (L.mem S.data l) le_rfl) (hr'' _ (L.mem S.data l) le_rfl)
  have k2 := C110_part_exact hok (part_gridRect hR hJ hI) hj hi hjn hin (l := l)
    (fuel := Cntr.bound (S.part J0 NJ I0 NI).data)
    (fuel' := Cntr.bound (S.part (J0 + jj) nj (I0 + ii) ni).data) (mem := L.mem (S.part J0 NJ I0 NI).data l) (mem' := L.mem S.data l) le_rfl le_rfl
    (hr' _ _ le_rfl) (by
      have := hr'' (Cntr.bound (S.part (J0 + jj) nj (I0 + ii) ni).data) (L.mem S.data l) le_rfl
      unfold Fields.part at this ⊢
      simp only [crop_crop]
      exact this)
  rw [k2, e, k1]
  rfl

/-- **C113** The contours inside a rectangle of a map are the contours inside this rectangle of a part of the map that contains the rectangle, and
each is skipped, discarded for the same reason or accepted as the same eddy in the part as in the map, if the part extends beyond the rectangle by
half the larger side of the rectangle and at least three rows and columns, or to the end of the map, and no vertex is equally near to several
grid points. -/
theorem C113_outcomes_part (h : S.Ok) (hR : S.grid.Rect) (hrect : S.Rectilinear) (hL : L.Nearest) (b : InnerBox S J0 NJ I0 NI jj nj ii ni)
    (c : Criteria ℝ) (l : ℝ) (hu : NoTies L S l (J0 + jj) nj (I0 + ii) ni) :
    contoursInside L (S.part J0 NJ I0 NI) l jj nj ii ni = contoursInside L S l (J0 + jj) nj (I0 + ii) ni ∧
    ∀ vs ∈ contoursInside L S l (J0 + jj) nj (I0 + ii) ni, examine c L (S.part J0 NJ I0 NI) l vs = examine c L S l vs := by
  classical
  refine ⟨contoursInside_part h hR b l, fun vs hvs => ?_⟩
  have hm := List.mem_filter.1 hvs
  refine examine_part hL hrect hR b.hj b.hi b.rows b.cols b.inJ b.inI b.mj b.mi c l (contourList_ne L h l vs hm.1) (of_decide_eq_true hm.2) ?_
  rintro pts rfl
  exact hu pts hvs

end

/-- **C113** A run with one level over a part of the maps returns at each time, inside the rectangle, the same eddies as the run over the whole
maps, with the same columns, in the same order. -/
theorem C113_eddies_part {Pt : Type} {E : Env Cols ℝ Pt} (hnn : IsNN E.dist E.nn) {c : Criteria ℝ} {L : Libs} (hL : L.Nearest)
    {field : Int → Fields} {levels : List ℝ} {l : ℝ} (hl : levels.filter (· ≠ 0) = [l]) {t0 : Int} {tf : Option Int} {T : Nat}
    {ntimes : Int} {regs regs' : Regs Cols} (hr : StoreEmpty regs) (hr' : StoreEmpty regs') {J0 NJ I0 NI jj nj ii ni : ℕ}
    (h : ∀ t ∈ trackTimes t0 tf T, (field t).Ok ∧ (field t).grid.Rect ∧ (field t).Rectilinear ∧
      InnerBox (field t) J0 NJ I0 NI jj nj ii ni ∧ NoTies L (field t) l (J0 + jj) nj (I0 + ii) ni) {s s' : LoopState Cols}
    (hs : (trackFields E c L field levels t0 tf T ntimes true regs).2 = .ok s)
    (hs' : (trackFields E c L (fun t => (field t).part J0 NJ I0 NI) levels t0 tf T ntimes true regs').2 = .ok s') :
    ∃ (ds ds' : Int → List (EddyData (Option ℝ))) (g g' : Int → Nat → Nat),
      s.table.rows.Perm ((trackTimes t0 tf T).flatMap fun t =>
        ((ds t).mapIdx fun i d => atTime t (eddyRows (g t i) (tableRows d))).flatten) ∧
      s'.table.rows.Perm ((trackTimes t0 tf T).flatMap fun t =>
        ((ds' t).mapIdx fun i d => atTime t (eddyRows (g' t i) (tableRows d))).flatten) ∧
      ∀ t ∈ trackTimes t0 tf T, eddiesInside (field t).X (field t).Y (J0 + jj) nj (I0 + ii) ni (ds' t) =
        eddiesInside (field t).X (field t).Y (J0 + jj) nj (I0 + ii) ni (ds t) := by
  obtain ⟨g, hg⟩ := one_level_rows hnn hl (fun t ht => (h t ht).1) hr hs
  obtain ⟨g', hg'⟩ := one_level_rows hnn hl (fun t _ => part_ok) hr' hs'
  refine ⟨_, _, g, g', hg, hg', fun t ht => ?_⟩
  obtain ⟨h1, h2, h3, hb, hu⟩ := h t ht
  have e := eddiesInside_contours c L ((field t).part J0 NJ I0 NI) l jj nj ii ni
  have e' : ∀ ds, eddiesInside ((field t).part J0 NJ I0 NI).X ((field t).part J0 NJ I0 NI).Y jj nj ii ni ds =
      eddiesInside (field t).X (field t).Y (J0 + jj) nj (I0 + ii) ni ds := by
    intro ds
    have ei : EddyInside ((field t).part J0 NJ I0 NI).X ((field t).part J0 NJ I0 NI).Y jj nj ii ni =
        EddyInside (field t).X (field t).Y (J0 + jj) nj (I0 + ii) ni := by
      funext d
      unfold EddyInside
      simp only [insideBox_part hb.hj hb.hi]
    unfold eddiesInside
    rw [ei]
  rw [e'] at e
  rw [eddiesInside_contours, e]
  obtain ⟨o1, o2⟩ := C113_outcomes_part h1 h2 h3 hL hb c l hu
  rw [o1]
  congr 1
  apply List.filterMap_congr
  intro vs hvs
  unfold storedEddy
  rw [o2 vs hvs]

/-! ### examples -/

/-- the first seven columns of the map with an elevation in the west -/
theorem paBox : InnerBox (loField 0) 0 3 0 7 0 3 0 4 := by
  refine ⟨?_, ?_, by norm_num, by norm_num, by norm_num, by norm_num, ⟨Or.inr rfl, Or.inr rfl⟩, ⟨Or.inr rfl, Or.inl ?_⟩⟩
  · show 0 + 3 ≤ 3; norm_num
  · show 0 + 7 ≤ 9; norm_num
  · unfold reach; norm_num

theorem paNoTies : NoTies exLibs (loField 0) (3 / 5) 0 3 0 4 := by
  intro pts hp v hv
  have hp := List.mem_of_mem_filter hp
  rw [loContours0, List.mem_singleton] at hp
  have : pts = exPts := List.map_injective_iff.2 (Option.some_injective _) hp
  subst this
  have hn := clear_nearest (loClear v hv)
  exact ⟨_, (mask_iff_near _ _ _).1 hn.1, fun q hq hne => hn.2 q ((mask_iff_near _ _ _).2 hq) hne⟩

/-- the part has the contour too, and it gives an eddy -/
theorem paStored : exPts.map some ∈ contoursInside exLibs ((loField 0).part 0 3 0 7) (3 / 5) 0 3 0 4 ∧
    ∃ e, examine exCriteria exLibs ((loField 0).part 0 3 0 7) (3 / 5) (exPts.map some) = .ok (.stored e) := by
  obtain ⟨h1, h2⟩ := C113_outcomes_part (loField_ok 0) (loField_gridRect 0) (loField_rect 0) exLibs_nearest paBox exCriteria (3 / 5) paNoTies
  rw [h1]
  refine ⟨loMem, ?_⟩
  rw [h2 _ loMem]
  exact loStored

theorem paq_contours : Cntr.extractContours (loqX.crop 0 3 0 7) (loqY.crop 0 3 0 7) ((loqZ 0).crop 0 3 0 7) (3 / 5) 86 Cntr.exMem =
    .ok ([[some (1, 1 / 2), some (2, 1 / 2), some (5 / 2, 1), some (2, 3 / 2), some (1, 3 / 2), some (1 / 2, 1),
      some (1, 1 / 2)]].map .points, [.codes [1, 2, 2, 2, 2, 2, 2]]) := by
  decide +kernel

theorem paContours (L : Libs) : contourList L ((loField 0).part 0 3 0 7) (3 / 5) = [exPts.map some] := by
  have hXYZ := loField_cast 0
  rw [Rat.cast_zero] at hXYZ
  obtain ⟨hX, hY, hZ⟩ := hXYZ
  have h1 : (loqX.crop 0 3 0 7).cast (Rat.castHom ℝ) = ((loField 0).part 0 3 0 7).X := by
    show (loqX.cast (Rat.castHom ℝ)).crop 0 3 0 7 = _
    rw [hX]
    rfl
  have h2 : (loqY.crop 0 3 0 7).cast (Rat.castHom ℝ) = ((loField 0).part 0 3 0 7).Y := by
    show (loqY.cast (Rat.castHom ℝ)).crop 0 3 0 7 = _
    rw [hY]
    rfl
  have h3 : ((loqZ 0).crop 0 3 0 7).castO (Rat.castHom ℝ) = ((loField 0).part 0 3 0 7).data := by
    show ((loqZ 0).castO (Rat.castHom ℝ)).crop 0 3 0 7 = _
    rw [hZ]
    rfl
  obtain ⟨cds, h⟩ := Cntr.extract_cast (Rat.castHom ℝ) Rat.cast_strictMono (X := loqX.crop 0 3 0 7) (Y := loqY.crop 0 3 0 7)
    (Z := (loqZ 0).crop 0 3 0 7)
    (mem' := L.mem ((loField 0).part 0 3 0 7).data (3 / 5)) (fuel' := 4 * (7 * 3) + 2)
    ⟨rfl, rfl, fun M hM => by cases hM⟩ (3 / 5) (by show 4 * (7 * 3) + 2 ≤ 86; decide) (by show 4 * (7 * 3) + 2 ≤ _; decide) paq_contours
  have hl : Rat.castHom ℝ (3 / 5) = 3 / 5 := by norm_num
  rw [h1, h2, h3, hl] at h
  unfold contourList contoursOf
  have hd : 4 * (((loField 0).part 0 3 0 7).data.cols * ((loField 0).part 0 3 0 7).data.rows) + 2 = 4 * (7 * 3) + 2 := rfl
  rw [hd, h]
  simp [vertsOf, exPts]

/-- the hypotheses of `C113_eddies_part` hold for two runs with an eddy each -/
example : ∃ (E : Env Cols ℝ (ℝ × ℝ)) (s s' : LoopState Cols), IsNN E.dist E.nn ∧
    InnerBox (loField 0) 0 3 0 7 0 3 0 4 ∧ NoTies exLibs (loField 0) (3 / 5) (0 + 0) 3 (0 + 0) 4 ∧
    (trackFields E exCriteria exLibs (fun _ => loField 0) [3 / 5] 0 none 1 1 true Regs.empty).2 = .ok s ∧
    (trackFields E exCriteria exLibs (fun _ => (loField 0).part 0 3 0 7) [3 / 5] 0 none 1 1 true Regs.empty).2 = .ok s' ∧
    s.table.rows ≠ [] ∧ s'.table.rows ≠ [] := by
  obtain ⟨nn, hnn⟩ := exists_isNN haversine
  obtain ⟨e, he⟩ := loStored
  obtain ⟨e', he'⟩ := paStored.2
  obtain ⟨s, h1, h2⟩ := run_single hnn (by norm_num) (loField_ok 0) loContours0 he
  obtain ⟨s', h1', h2'⟩ := run_single hnn (by norm_num) part_ok (paContours exLibs) he'
  exact ⟨colsEnv true nn, s, s', hnn, paBox, paNoTies, h1, h1', h2.2 ⟨e, rfl⟩, h2'.2 ⟨e', rfl⟩⟩

end Trackeddy
