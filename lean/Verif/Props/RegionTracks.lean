import Verif.Props.Relax
import Verif.Props.Region

/-!
C124: the tracks of the eddies inside a rectangle, from the whole map and from a region (trackeddy/trackeddy.py:57-95, 120-224).
-/
namespace Trackeddy
open Spec Tbl

/-- eddies inside the rectangle, as a property of the first rows of a table -/
def InsideRow (c : Criteria ℝ) (L : Libs) (field : Int → Fields) (l : ℝ) (X Y : Cntr.NdArr ℝ) (j0 nj i0 ni : ℕ) (t : Int) (w : Cols) : Prop :=
  ∃ e ∈ foundIn c L (field t) l, EddyInside X Y j0 nj i0 ni e.data ∧ (tableRows e.data).head? = some w

/-- two runs with the same eddies inside a rectangle -/
theorem inside_tracks {c : Criteria ℝ} {L : Libs} {field field' : Int → Fields} {levels : List ℝ} {t0 : Int} {T : Nat} {ntimes ntimes' : Int}
    {regs regs' : Regs Cols} {prunes : Bool} {nn : List (ℝ × ℝ) → ℝ × ℝ → Nat} (hnn : IsNN haversine nn) {l : ℝ}
    (hl : levels.filter (· ≠ 0) = [l]) {f : Int} (h0 : 0 ≤ t0) (hf : f ≠ 0) (h : ∀ t, (field t).Ok) (h' : ∀ t, (field' t).Ok)
    (hr : StoreEmpty regs) (hr' : StoreEmpty regs') {s s' : LoopState Cols}
    (hs : (trackFields (colsEnv prunes nn) c L field levels t0 (some f) T ntimes true regs).2 = .ok s)
    (hs' : (trackFields (colsEnv prunes nn) c L field' levels t0 (some f) T ntimes' true regs').2 = .ok s')
    {X Y : Cntr.NdArr ℝ} {j0 nj i0 ni : ℕ} (hin : ∀ t, t0 ≤ t → t < f → eddiesInside X Y j0 nj i0 ni ((foundIn c L (field' t) l).map EddyObj.data) =
      eddiesInside X Y j0 nj i0 ni ((foundIn c L (field t) l).map EddyObj.data))
    (hd : ∀ t, t0 ≤ t → t < f → (foundIn c L (field t) l).Pairwise fun e e' =>
      e.radius + e'.radius ≤ centralAngle e.place.1 e.place.2 e'.place.1 e'.place.2 * 6371)
    (hd' : ∀ t, t0 ≤ t → t < f → (foundIn c L (field' t) l).Pairwise fun e e' =>
      e.radius + e'.radius ≤ centralAngle e.place.1 e.place.2 e'.place.1 e'.place.2 * 6371)
    (hpos : ∀ r ∈ s.table.rows, r.idx = 0 → 0 < column "radius_eddy" r.val.2)
    (hpos' : ∀ r ∈ s'.table.rows, r.idx = 0 → 0 < column "radius_eddy" r.val.2)
    (hfar : OutOfReach angleBetween extremumOf (column "radius_eddy") (InsideRow c L field l X Y j0 nj i0 ni) s.table.rows)
    (hfar' : OutOfReach angleBetween extremumOf (column "radius_eddy") (InsideRow c L field l X Y j0 nj i0 ni) s'.table.rows)
    (htie : NoEqualDistances angleBetween extremumOf (column "radius_eddy") (InsideRow c L field l X Y j0 nj i0 ni) s.table.rows) :
    Share (InsideRow c L field l X Y j0 nj i0 ni) s.table.rows s'.table.rows ∧
    SameTracks (InsideRow c L field l X Y j0 nj i0 ni) s.table.rows s'.table.rows := by
  classical
  have hm : ∀ {t : Int} {T : Nat}, t ∈ trackTimes t0 (some f) T → t0 ≤ t ∧ t < f := fun {t T} => (mem_trackTimes_some hf).1
  have k1 := first_rows_found (E := colsEnv prunes nn) hnn hl (fun t _ => h t) hr hs
  have k2 := first_rows_found (E := colsEnv prunes nn) hnn hl (fun t _ => h' t) hr' hs'
  have hsh : Share (InsideRow c L field l X Y j0 nj i0 ni) s.table.rows s'.table.rows := by
    apply share_of
    · rintro r hrow r0 ⟨e, he, hi, hv⟩
      have ht := ((k1 r.val.1 r.val.2).1 ⟨r, hrow, r0, rfl⟩).1
      refine (k2 r.val.1 r.val.2).2 ⟨ht, ?_⟩
      have hmem : e.data ∈ eddiesInside X Y j0 nj i0 ni ((foundIn c L (field r.val.1) l).map EddyObj.data) := by
        unfold eddiesInside
        rw [List.mem_filter]
        exact ⟨List.mem_map_of_mem he, decide_eq_true hi⟩
      rw [← hin _ (hm ht).1 (hm ht).2] at hmem
      unfold eddiesInside at hmem
      obtain ⟨e', he', hee⟩ := List.mem_map.1 (List.mem_filter.1 hmem).1
      exact ⟨e', he', by rw [hee]; exact hv⟩
    · rintro r hrow r0 ⟨e, he, hi, hv⟩
      have ht := ((k2 r.val.1 r.val.2).1 ⟨r, hrow, r0, rfl⟩).1
      exact (k1 r.val.1 r.val.2).2 ⟨ht, e, he, hv⟩
  exact ⟨hsh, (C123_partial_from_data hnn hl hl h0 hf (fun t _ _ => h t) (fun t _ _ => h' t) hr hr' hs hs').2 hd hd' hpos hpos' _ hsh hfar hfar' htie⟩

section
variable {D D' : Dataset} {name name' : String} {O O' : Series} {v v' : Variable} {tn yn xn tn' yn' xn' : String}

/-- **C124** A dataset that consists of a region of another one is analysed over the same times with the same settings and one level. The
rectangle keeps the distance of C116 from the ends of the region. In both runs the eddies do not overlap and have positive radii, and the
eddies inside the rectangle are out of reach of all others and not equally far from each other. Then the tables have the same eddies inside
the rectangle, grouped into the same tracks. -/
theorem C124_region {J0 NJ I0 NI jj nj ii ni : ℕ} (hD : Holds D name O v tn yn xn)
    (hD' : Holds D' name' (O.part J0 NJ I0 NI) v' tn' yn' xn') (hx : Ordered O.lon) (hy : Ordered O.lat) {nan nan' : Bool} {o o' : Tracker}
    (ho : newTracker D name nan = .ok o) (ho' : newTracker D' name' nan' = .ok o') {s : SpaceFilter} {h : ℕ} (hs : LocalFilter s h)
    (c : Criteria ℝ) {prunes : Bool} {nn : List (ℝ × ℝ) → ℝ × ℝ → Nat} (hnn : IsNN haversine nn) {L : Libs} (hL : L.Nearest) (hP : L.Proper)
    {levels : List ℝ} {l : ℝ} (hl : levels.filter (· ≠ 0) = [l]) {t0 f : Int} {ntimes : Int} {regs regs' : Regs Cols} (h0 : 0 ≤ t0)
    (hf : f ≠ 0) (hfT : f ≤ O.T) (hr : StoreEmpty regs) (hr' : StoreEmpty regs') (b : InRegion O (reach nj ni + h) J0 NJ I0 NI jj nj ii ni)
    (hu : ∀ t < O.T, NoTies L (O.seen s t) l (J0 + jj) nj (I0 + ii) ni) {st st' : LoopState Cols}
    (hst : ({ o with criteria := c, setup := s }.timeTracking (colsEnv prunes nn) L t0 (some f) (.array levels) ntimes true regs).2 = .ok st)
    (hst' : ({ o' with criteria := c, setup := s }.timeTracking (colsEnv prunes nn) L t0 (some f) (.array levels) ntimes true regs').2 = .ok st')
    (hd : ∀ t : ℕ, t0 ≤ t → t < f → (foundIn c L (O.seen s t) l).Pairwise fun e e' =>
      e.radius + e'.radius ≤ centralAngle e.place.1 e.place.2 e'.place.1 e'.place.2 * 6371)
    (hd' : ∀ t : ℕ, t0 ≤ t → t < f → (foundIn c L ((O.part J0 NJ I0 NI).seen s t) l).Pairwise fun e e' =>
      e.radius + e'.radius ≤ centralAngle e.place.1 e.place.2 e'.place.1 e'.place.2 * 6371)
    (hpos : ∀ r ∈ st.table.rows, r.idx = 0 → 0 < column "radius_eddy" r.val.2)
    (hpos' : ∀ r ∈ st'.table.rows, r.idx = 0 → 0 < column "radius_eddy" r.val.2) :
    (∀ t : ℕ, Found c L (O.seen s t) l (foundIn c L (O.seen s t) l) ∧
      Found c L ((O.part J0 NJ I0 NI).seen s t) l (foundIn c L ((O.part J0 NJ I0 NI).seen s t) l)) ∧
    ∀ P, P = InsideRow c L (fun t => O.seen s t.toNat) l o.X o.Y (J0 + jj) nj (I0 + ii) ni →
      OutOfReach angleBetween extremumOf (column "radius_eddy") P st.table.rows →
      OutOfReach angleBetween extremumOf (column "radius_eddy") P st'.table.rows →
      NoEqualDistances angleBetween extremumOf (column "radius_eddy") P st.table.rows →
      Share P st.table.rows st'.table.rows ∧ SameTracks P st.table.rows st'.table.rows := by
  refine ⟨fun t => ⟨foundIn_found (fields_ok O _) l, foundIn_found (fields_ok (O.part J0 NJ I0 NI) _) l⟩, ?_⟩
  rintro P rfl hfar hfar' htie
  have hin : InSeries O t0 (some f) := .inr (.inr ⟨h0, f, rfl, hfT⟩)
  rw [hD.new nan] at ho
  injection ho with ho
  subst ho
  rw [hD'.new nan'] at ho'
  injection ho' with ho'
  subst ho'
  rw [hD.run_in (o := { freshTracker D v O nan with criteria := c, setup := s }) ⟨rfl, rfl, rfl, rfl⟩ rfl (localFilter_valid hs) (colsEnv prunes nn) L hin] at hst
  rw [hD'.run_in (o := { freshTracker D' v' (O.part J0 NJ I0 NI) nan' with criteria := c, setup := s }) ⟨rfl, rfl, rfl, rfl⟩ rfl (localFilter_valid hs)
    (colsEnv prunes nn) L (show InSeries (O.part J0 NJ I0 NI) t0 (some f) from hin)] at hst'
  refine inside_tracks hnn hl h0 hf (fun t => fields_ok O _) (fun t => fields_ok (O.part J0 NJ I0 NI) _) hr hr' hst hst' ?_ ?_ ?_ hpos hpos' hfar hfar' htie
  · intro t h1 h2
    exact region_eddies hx hy hs c hL hP b t.toNat (hu t.toNat (by omega))
  · intro t h1 h2
    exact hd t.toNat (by omega) (by omega)
  · intro t h1 h2
    exact hd' t.toNat (by omega) (by omega)

/-- **C124** The same for two datasets on the same grids whose data agree in the rectangle and around it, as in C116. -/
theorem C124_local (hD : Holds D name O v tn yn xn) (hD' : Holds D' name' O' v' tn' yn' xn') (hx : Ordered O.lon) (hy : Ordered O.lat)
    (hT : O'.T = O.T) (hlat : O'.lat = O.lat) (hlon : O'.lon = O.lon) {nan nan' : Bool} {o o' : Tracker} (ho : newTracker D name nan = .ok o)
    (ho' : newTracker D' name' nan' = .ok o') {s : SpaceFilter} {h : ℕ} (hs : LocalFilter s h) (c : Criteria ℝ)
    {prunes : Bool} {nn : List (ℝ × ℝ) → ℝ × ℝ → Nat} (hnn : IsNN haversine nn) {L : Libs} (hL : L.Nearest) {levels : List ℝ} {l : ℝ}
    (hl : levels.filter (· ≠ 0) = [l]) {t0 f : Int} {ntimes : Int} {regs regs' : Regs Cols} (h0 : 0 ≤ t0) (hf : f ≠ 0) (hfT : f ≤ O.T)
    (hr : StoreEmpty regs) (hr' : StoreEmpty regs') {j0 nj i0 ni : ℕ} (hj : 0 < nj) (hi : 0 < ni) (hjn : j0 + nj ≤ O.ny) (hni : i0 + ni ≤ O.nx)
    (hz : ∀ t < O.T, ∀ r < O.ny, ∀ c < O.nx, Within (reach nj ni + h) j0 nj i0 ni r c → O'.z t r c = O.z t r c) {st st' : LoopState Cols}
    (hst : ({ o with criteria := c, setup := s }.timeTracking (colsEnv prunes nn) L t0 (some f) (.array levels) ntimes true regs).2 = .ok st)
    (hst' : ({ o' with criteria := c, setup := s }.timeTracking (colsEnv prunes nn) L t0 (some f) (.array levels) ntimes true regs').2 = .ok st')
    (hd : ∀ t : ℕ, t0 ≤ t → t < f → (foundIn c L (O.seen s t) l).Pairwise fun e e' =>
      e.radius + e'.radius ≤ centralAngle e.place.1 e.place.2 e'.place.1 e'.place.2 * 6371)
    (hd' : ∀ t : ℕ, t0 ≤ t → t < f → (foundIn c L (O'.seen s t) l).Pairwise fun e e' =>
      e.radius + e'.radius ≤ centralAngle e.place.1 e.place.2 e'.place.1 e'.place.2 * 6371)
    (hpos : ∀ r ∈ st.table.rows, r.idx = 0 → 0 < column "radius_eddy" r.val.2)
    (hpos' : ∀ r ∈ st'.table.rows, r.idx = 0 → 0 < column "radius_eddy" r.val.2) :
    (∀ t : ℕ, Found c L (O.seen s t) l (foundIn c L (O.seen s t) l) ∧ Found c L (O'.seen s t) l (foundIn c L (O'.seen s t) l)) ∧
    ∀ P, P = InsideRow c L (fun t => O.seen s t.toNat) l o.X o.Y j0 nj i0 ni →
      OutOfReach angleBetween extremumOf (column "radius_eddy") P st.table.rows →
      OutOfReach angleBetween extremumOf (column "radius_eddy") P st'.table.rows →
      NoEqualDistances angleBetween extremumOf (column "radius_eddy") P st.table.rows →
      Share P st.table.rows st'.table.rows ∧ SameTracks P st.table.rows st'.table.rows := by
  refine ⟨fun t => ⟨foundIn_found (fields_ok O _) l, foundIn_found (fields_ok O' _) l⟩, ?_⟩
  rintro P rfl hfar hfar' htie
  have hin : InSeries O t0 (some f) := .inr (.inr ⟨h0, f, rfl, hfT⟩)
  have hin' : InSeries O' t0 (some f) := by unfold InSeries; rw [hT]; exact hin
  rw [hD.new nan] at ho
  injection ho with ho
  subst ho
  rw [hD'.new nan'] at ho'
  injection ho' with ho'
  subst ho'
  rw [hD.run_in (o := { freshTracker D v O nan with criteria := c, setup := s }) ⟨rfl, rfl, rfl, rfl⟩ rfl (localFilter_valid hs) (colsEnv prunes nn) L hin] at hst
  rw [hD'.run_in (o := { freshTracker D' v' O' nan' with criteria := c, setup := s }) ⟨rfl, rfl, rfl, rfl⟩ rfl (localFilter_valid hs)
    (colsEnv prunes nn) L hin', hT] at hst'
  refine inside_tracks hnn hl h0 hf (fun t => fields_ok O _) (fun t => fields_ok O' _) hr hr' hst hst' ?_ ?_ ?_ hpos hpos' hfar hfar' htie
  · intro t h1 h2
    have htt : t.toNat < O.T := by omega
    have hA := seen_agree hs hlat hlon (hz t.toNat htt)
    obtain ⟨o1, o2⟩ := C112_outcomes_local hA (fields_ok O _) (fields_gridRect hx hy _) (fields_rectilinear hx hy _) hL hj hi hjn hni c l
    show eddiesInside (O.seen s t.toNat).X (O.seen s t.toNat).Y j0 nj i0 ni _ = _
    have e := eddiesInside_contours c L (O'.seen s t.toNat) l j0 nj i0 ni
    rw [hA.X, hA.Y] at e
    refine e.trans ((?_ : _ = _).trans (eddiesInside_contours c L (O.seen s t.toNat) l j0 nj i0 ni).symm)
    rw [o1]
    congr 1
    apply List.filterMap_congr
    intro vs hvs
    unfold storedEddy
    rw [o2 vs hvs]
  · intro t h1 h2
    exact hd t.toNat (by omega) (by omega)
  · intro t h1 h2
    exact hd' t.toNat (by omega) (by omega)

end

/-! ### a case -/

/-- the series of C116 with three times -/
noncomputable def reLong : Series := { reSeries 0 with T := 3 }

theorem reLongIn : InRegion reLong (reach 3 4 + 1) 0 3 0 8 0 3 0 4 := by
  refine ⟨?_, ?_, by norm_num, by norm_num, by norm_num, by norm_num, ⟨Or.inr rfl, Or.inr rfl⟩, ⟨Or.inr rfl, Or.inl ?_⟩⟩
  · show 0 + 3 ≤ 3; norm_num
  · show 0 + 8 ≤ 9; norm_num
  · unfold reach; norm_num

/-- a run over three times of a series that does not change and has one contour, that of the worked example -/
theorem run_rest {O : Series} (hT : O.T = 3) (hy : O.ny ≠ 1) (hx : O.nx ≠ 1) {s : SpaceFilter} (hs : ValidSetup s) {nn : List (ℝ × ℝ) → ℝ × ℝ → Nat}
    (hnn : IsNN haversine nn) {c : Criteria ℝ} {L : Libs} {l : ℝ} (hl0 : l ≠ 0) (hconst : ∀ t, O.seen s t = O.seen s 0)
    (hcl : contourList L (O.seen s 0) l = [exPts.map some]) (he : ∃ e, examine c L (O.seen s 0) l (exPts.map some) = .ok (.stored e)) :
    ∃ (o : Tracker) (st : LoopState Cols) (e : EddyObj), newTracker (storeSeries O) "sla" false = .ok o ∧
      ({ o with criteria := c, setup := s }.timeTracking (colsEnv true nn) L 0 (some 3) (.array [l]) 1 true Regs.empty).2 = .ok st ∧
      (∃ r ∈ st.table.rows, r.idx = 0) ∧ (∀ t, foundIn c L (O.seen s t) l = [e]) ∧ 0 < e.radius ∧
      ∀ r ∈ st.table.rows, r.idx = 0 → (tableRows e.data).head? = some r.val.2 := by
  obtain ⟨e, he⟩ := he
  have hf : ∀ t, foundIn c L (O.seen s t) l = [e] := by
    intro t
    rw [hconst]
    unfold foundIn
    rw [hcl]
    simp only [List.filterMap_cons, List.filterMap_nil, storedEddy, he]
  have hD := storeSeries_holds O hy hx
  have hin : InSeries O 0 (some 3) := .inr (.inr ⟨le_rfl, 3, rfl, by rw [hT]; norm_num⟩)
  have hlf : ([l] : List ℝ).filter (· ≠ 0) = [l] := by simp [hl0]
  have hrun : ∃ st, (trackFields (colsEnv true nn) c L (fun t : Int => O.seen s t.toNat) [l] 0 (some 3) 3 1 true Regs.empty).2 = .ok st := by
    refine ((C06_partial_from_data (E := colsEnv true nn) (c := c) (L := L) (field := fun t : Int => O.seen s t.toNat)
      (levels := [l]) (l := l) (t0 := 0) (T := 3) (ntimes := 1) (regs := Regs.empty) (f := 3) hnn hlf le_rfl
      (by norm_num) (fun t _ _ => ⟨fields_ok O _, ?_⟩) ⟨rfl, rfl⟩).2.1).2 fun t _ _ _ _ w hw => ⟨by omega, ?_⟩
    · refine ((detectLevel_total (fields_ok O _) l Regs.empty).1).2 ?_
      intro vs hvs
      have e1 : contourList L (O.seen s t.toNat) l = [exPts.map some] := by rw [hconst]; exact hcl
      rw [show O.fields (anomaly s O.ny O.nx (O.z t.toNat)) = O.seen s t.toNat from rfl, e1, List.mem_singleton] at hvs
      subst hvs
      rw [show O.fields (anomaly s O.ny O.nx (O.z t.toNat)) = O.seen s t.toNat from rfl, hconst]
      exact ⟨_, he⟩
    · rw [hf]
      exact List.cons_ne_nil _ _
  obtain ⟨st, hst⟩ := hrun
  have k := first_rows_found (E := colsEnv true nn) hnn hlf (fun t _ => fields_ok O _) ⟨rfl, rfl⟩ hst
  have hrows : ∀ r ∈ st.table.rows, r.idx = 0 → (tableRows e.data).head? = some r.val.2 := by
    intro r hr r0
    obtain ⟨-, e', he', hh⟩ := (k r.val.1 r.val.2).1 ⟨r, hr, r0, rfl⟩
    rw [hf, List.mem_singleton] at he'
    rw [← he']
    exact hh
  have hne : tableRows e.data ≠ [] := foundIn_ne (c := c) (L := L) (fields_ok O (anomaly s O.ny O.nx (O.z 0))) l e (by
    rw [show O.fields (anomaly s O.ny O.nx (O.z 0)) = O.seen s 0 from rfl, hf]
    exact List.mem_singleton_self e)
  refine ⟨_, st, e, hD.new false, ?_, ?_, hf, ?_, hrows⟩
  · rw [hD.run_in (o := { freshTracker (storeSeries O) _ O false with criteria := c, setup := s }) ⟨rfl, rfl, rfl, rfl⟩ rfl hs _ _ hin, hT]
    exact hst
  · obtain ⟨w, hw⟩ := Option.isSome_iff_exists.1 (List.isSome_head?.2 hne)
    obtain ⟨r, hr, r0, -⟩ := (k 0 w).2 ⟨by decide, e, by rw [hf]; exact List.mem_singleton_self e, hw⟩
    exact ⟨r, hr, r0⟩
  · obtain ⟨-, h2, curve, i, k⟩ := examine_stored.1 he
    have h3 : exPts = e.contour := (List.map_injective_iff.2 (Option.some_injective _)) h2
    rw [k.radius, ← h3]
    exact Real.sqrt_pos.2 (div_pos exPts_area Real.pi_pos)

/-- eddies at rest at one place are not out of reach, but all inside or all outside -/
theorem rest_outOfReach {rows : List (Row (Int × Cols))} {e : EddyObj} {P : Int → Cols → Prop} (hP : ∀ t t' w, P t w ↔ P t' w)
    (h : ∀ r ∈ rows, r.idx = 0 → (tableRows e.data).head? = some r.val.2) :
    OutOfReach angleBetween extremumOf (column "radius_eddy") P rows ∧
    NoEqualDistances angleBetween extremumOf (column "radius_eddy") P rows := by
  refine ⟨fun r hr q hq r0 q0 _ hn => ?_, fun r hr q hq g hg r0 q0 g0 _ _ _ _ _ _ _ => ?_⟩
  · have : r.val.2 = q.val.2 := Option.some_injective _ ((h r hr r0).symm.trans (h q hq q0))
    rw [this] at hn
    exact absurd (hP _ _ _) hn
  · have : q.val.2 = g.val.2 := Option.some_injective _ ((h q hq q0).symm.trans (h g hg g0))
    rw [this]
    unfold angleBetween
    rw [← C83_great_circle]
    exact haversine_self _

/-- C124: the hypotheses are met by the first eight of nine columns of a map, over three times -/
example : ∃ (nn : List (ℝ × ℝ) → ℝ × ℝ → Nat) (o o' : Tracker) (st st' : LoopState Cols), IsNN haversine nn ∧
    newTracker (storeSeries reLong) "sla" false = .ok o ∧ newTracker (storeSeries (reLong.part 0 3 0 8)) "sla" false = .ok o' ∧
    ({ o with criteria := exCriteria, setup := .convolution .uniform 2 }.timeTracking (colsEnv true nn) exLibs 0 (some 3) (.array [3 / 5]) 1 true
      Regs.empty).2 = .ok st ∧
    ({ o' with criteria := exCriteria, setup := .convolution .uniform 2 }.timeTracking (colsEnv true nn) exLibs 0 (some 3) (.array [3 / 5]) 1 true
      Regs.empty).2 = .ok st' ∧ st'.table.rows ≠ [] ∧
    (∃ r ∈ st.table.rows, r.idx = 0 ∧
      InsideRow exCriteria exLibs (fun t => reLong.seen (.convolution .uniform 2) t.toNat) (3 / 5) o.X o.Y (0 + 0) 3 (0 + 0) 4 r.val.1 r.val.2) ∧
    SameTracks (InsideRow exCriteria exLibs (fun t => reLong.seen (.convolution .uniform 2) t.toNat) (3 / 5) o.X o.Y (0 + 0) 3 (0 + 0) 4)
      st.table.rows st'.table.rows := by
  obtain ⟨nn, hnn⟩ := exists_isNN haversine
  have c0 := reContours exLibs (u := 0) (Or.inl rfl) 0
  norm_num only [Rat.cast_zero] at c0
  have ey : (reLong.part 0 3 0 8).ny = 3 := part_ny (O := reLong) (show 0 + 3 ≤ 3 by norm_num)
  have ex : (reLong.part 0 3 0 8).nx = 8 := part_nx (O := reLong) (show 0 + 8 ≤ 9 by norm_num)
  obtain ⟨o, st, e, h1, h2, h3, h4, h5, h6⟩ := run_rest (O := reLong) rfl (by decide) (by decide) (localFilter_valid (.uniform 2)) hnn
    (l := 3 / 5) (by norm_num) (fun _ => rfl) c0 (reStored0 0)
  obtain ⟨o', st', e', h1', h2', h3', h4', h5', h6'⟩ := run_rest (O := reLong.part 0 3 0 8) rfl (by rw [ey]; decide) (by rw [ex]; decide)
    (localFilter_valid (.uniform 2)) hnn (l := 3 / 5) (by norm_num) (fun _ => rfl) (reContoursPart exLibs 0) (reStoredPart 0)
  have hD := storeSeries_holds reLong (by decide) (by decide)
  have hD' := storeSeries_holds (reLong.part 0 3 0 8) (by rw [ey]; decide) (by rw [ex]; decide)
  have hP : ∀ t t' w, InsideRow exCriteria exLibs (fun t => reLong.seen (.convolution .uniform 2) t.toNat) (3 / 5) o.X o.Y (0 + 0) 3 (0 + 0) 4 t w ↔
      InsideRow exCriteria exLibs (fun t => reLong.seen (.convolution .uniform 2) t.toNat) (3 / 5) o.X o.Y (0 + 0) 3 (0 + 0) 4 t' w :=
    fun _ _ _ => Iff.rfl
  refine ⟨nn, o, o', st, st', hnn, h1, h1', h2, h2', ?_, ?_, ((C124_region hD hD' (reOrdered 0).1 (reOrdered 0).2 h1 h1' (.uniform 2) exCriteria hnn
    exLibs_nearest exLibs_proper (l := 3 / 5) (by norm_num) le_rfl (by norm_num) (show (3 : Int) ≤ ((3 : ℕ) : Int) by norm_num) ⟨rfl, rfl⟩ ⟨rfl, rfl⟩
    reLongIn (fun t _ => reNoTies t) h2 h2' ?_ ?_ ?_ ?_).2 _ rfl (rest_outOfReach hP h6).1
    (rest_outOfReach hP h6').1 (rest_outOfReach hP h6).2).2⟩
  · obtain ⟨r, hr, -⟩ := h3'
    exact List.ne_nil_of_mem hr
  · obtain ⟨r, hr, r0⟩ := h3
    refine ⟨r, hr, r0, e, ?_, ?_, h6 r hr r0⟩
    · rw [h4]
      exact List.mem_singleton_self e
    · classical
      obtain ⟨e₁, he₁⟩ := reStored0 0
      have hs : storedEddy exCriteria exLibs (reLong.seen (.convolution .uniform 2) 0) (3 / 5) (exPts.map some) = some e₁ := by
        unfold storedEddy
        rw [show reLong.seen (.convolution .uniform 2) 0 = (reSeries 0).seen (.convolution .uniform 2) 0 from rfl, he₁]
      have hfi := h4 0
      unfold foundIn at hfi
      rw [show contourList exLibs (reLong.seen (.convolution .uniform 2) 0) (3 / 5) = [exPts.map some] from c0] at hfi
      simp only [List.filterMap_cons, List.filterMap_nil, hs, List.cons.injEq, and_true] at hfi
      subst hfi
      have hin := reMem 0
      unfold contoursInside at hin
      rw [hD.new false] at h1
      injection h1 with h1
      subst h1
      have hin := (List.mem_filter.1 hin).2
      rw [decide_eq_true_eq] at hin
      exact (eddyInside_iff hs).2 hin
  · intro t _ _
    rw [h4]
    exact List.pairwise_singleton _ _
  · intro t _ _
    rw [h4']
    exact List.pairwise_singleton _ _
  · intro r hr r0
    rw [(columns_read (List.mem_of_head? (h6 r hr r0))).2.2.1]
    exact h5
  · intro r hr r0
    rw [(columns_read (List.mem_of_head? (h6' r hr r0))).2.2.1]
    exact h5'

end Trackeddy
