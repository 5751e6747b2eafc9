import Verif.Proofs.Region
import Verif.Props.ApiFilter

/-!
C116: what is found in a part of a dataset depends only on the data in and around it, and a region can be cut out of a dataset.
-/
namespace Trackeddy
open Spec
open Cntr (InsideBox LineInside Vertex)

/-- the maps of a series as the detection sees them -/
noncomputable abbrev Spec.Series.seen (O : Series) (s : SpaceFilter) (t : ℕ) : Fields := O.fields (anomaly s O.ny O.nx (O.z t))

section
variable {O O' : Series} {s : SpaceFilter} {h j0 nj i0 ni : ℕ}

/-- two series agree around a rectangle, so do their anomalies -/
theorem seen_agree (hs : LocalFilter s h) (hlat : O'.lat = O.lat) (hlon : O'.lon = O.lon) {t : ℕ}
    (hz : ∀ r < O.ny, ∀ c < O.nx, Within (reach nj ni + h) j0 nj i0 ni r c → O'.z t r c = O.z t r c) :
    AgreeAround (O.seen s t) (O'.seen s t) j0 nj i0 ni := by
  have ey : O'.ny = O.ny := by unfold Spec.Series.ny; rw [hlat]
  have ex : O'.nx = O.nx := by unfold Spec.Series.nx; rw [hlon]
  refine ⟨?_, ?_, ey, ex, fun j hj i hi hw => ?_⟩
  · unfold Spec.Series.seen Spec.Series.fields
    simp only [ex, ey, hlon]
  · unfold Spec.Series.seen Spec.Series.fields
    simp only [ex, ey, hlat]
  · have hj : j < O.ny := hj
    have hi : i < O.nx := hi
    obtain ⟨w1, w2, w3, w4⟩ := hw
    rw [fields_get _ (ey ▸ hj) (ex ▸ hi), fields_get _ hj hi, ex, ey]
    exact anomaly_local hs hj hi fun r' hr c' hc a b c d => hz r' hr c' hc ⟨by omega, by omega, by omega, by omega⟩

/-- Where a region (latitudes `J0` to `J0 + NJ - 1` and longitudes `I0` to `I0 + NI - 1`) and the rectangle in it (`nj` rows from row `jj` of the
region, `ni` columns from column `ii` of the region) lie: the region is in the map, the rectangle in the region, not empty, and `m` rows and
columns away from the ends of the region that are not ends of the map. -/
structure InRegion (O : Series) (m J0 NJ I0 NI jj nj ii ni : ℕ) : Prop where
  rows : J0 + NJ ≤ O.ny
  cols : I0 + NI ≤ O.nx
  hj : 0 < nj
  hi : 0 < ni
  inJ : jj + nj ≤ NJ
  inI : ii + ni ≤ NI
  mj : Margin m O.ny J0 NJ jj nj
  mi : Margin m O.nx I0 NI ii ni

variable {J0 NJ I0 NI jj ii : ℕ}

theorem InRegion.inner (b : InRegion O (reach nj ni + h) J0 NJ I0 NI jj nj ii ni) (w : ℕ → ℕ → Option ℝ) :
    InnerBox (O.fields w) J0 NJ I0 NI jj nj ii ni := by
  obtain ⟨b1, b2, b3, b4, b5, b6, ⟨b7, b8⟩, ⟨b9, b10⟩⟩ := b
  exact ⟨b1, b2, b3, b4, b5, b6, ⟨b7.imp_left fun h => by omega, b8.imp_left fun h => by omega⟩,
    ⟨b9.imp_left fun h => by omega, b10.imp_left fun h => by omega⟩⟩

/-- the region on the coordinates of the part of the map -/
theorem region_agree (hs : LocalFilter s h) (b : InRegion O (reach nj ni + h) J0 NJ I0 NI jj nj ii ni) (t : ℕ) :
    AgreeAround ((O.seen s t).part J0 NJ I0 NI)
      ⟨((O.seen s t).part J0 NJ I0 NI).X, ((O.seen s t).part J0 NJ I0 NI).Y, ((O.part J0 NJ I0 NI).seen s t).data⟩ jj nj ii ni := by
  have ey : (O.part J0 NJ I0 NI).ny = NJ := part_ny b.rows
  have ex : (O.part J0 NJ I0 NI).nx = NI := part_nx b.cols
  refine ⟨rfl, rfl, ey, ex, fun j hj i hi hw => ?_⟩
  have hj : j < NJ := hj
  have hi : i < NI := hi
  obtain ⟨w1, w2, w3, w4⟩ := hw
  obtain ⟨b1, b2, b3, b4, b5, b6, ⟨b7, b8⟩, ⟨b9, b10⟩⟩ := b
  show ((O.part J0 NJ I0 NI).seen s t).data.get j i = (O.seen s t).data.get (J0 + j) (I0 + i)
  rw [fields_get _ (ey.symm ▸ hj) (ex.symm ▸ hi), fields_get _ (by omega) (by omega), ex, ey]
  exact anomaly_part hs (O.z t) b1 b2 hj hi ⟨by omega, by omega⟩ ⟨by omega, by omega⟩

theorem region_same (b : InRegion O (reach nj ni + h) J0 NJ I0 NI jj nj ii ni) (t : ℕ) :
    SameMap ⟨((O.seen s t).part J0 NJ I0 NI).X, ((O.seen s t).part J0 NJ I0 NI).Y, ((O.part J0 NJ I0 NI).seen s t).data⟩
      ((O.part J0 NJ I0 NI).seen s t) := by
  have ey : (O.part J0 NJ I0 NI).ny = NJ := part_ny b.rows
  have ex : (O.part J0 NJ I0 NI).nx = NI := part_nx b.cols
  refine ⟨⟨ey, ex, fun r hr c hc => ?_⟩, ⟨ey, ex, fun r hr c hc => ?_⟩, SameArr.refl _⟩
  · have hc : c < NI := hc
    exact getD_part O.lon hc
  · have hr : r < NJ := hr
    exact getD_part O.lat hr

/-- **C116** The contours of a region inside a rectangle are those of the whole map, and each is skipped, discarded for the same reason or accepted
as the same eddy. -/
theorem C116_outcomes_region {L : Libs} (hL : L.Nearest) (hP : L.Proper) (hx : Ordered O.lon) (hy : Ordered O.lat) (hs : LocalFilter s h)
    (b : InRegion O (reach nj ni + h) J0 NJ I0 NI jj nj ii ni) (c : Criteria ℝ) (t : ℕ) (l : ℝ)
    (hu : NoTies L (O.seen s t) l (J0 + jj) nj (I0 + ii) ni) :
    contoursInside L ((O.part J0 NJ I0 NI).seen s t) l jj nj ii ni = contoursInside L (O.seen s t) l (J0 + jj) nj (I0 + ii) ni ∧
    ∀ vs ∈ contoursInside L (O.seen s t) l (J0 + jj) nj (I0 + ii) ni,
      examine c L ((O.part J0 NJ I0 NI).seen s t) l vs = examine c L (O.seen s t) l vs := by
  have hR := fields_gridRect hx hy (anomaly s O.ny O.nx (O.z t))
  have hrect := fields_rectilinear hx hy (anomaly s O.ny O.nx (O.z t))
  have hb := b.inner (anomaly s O.ny O.nx (O.z t))
  obtain ⟨p1, p2⟩ := C113_outcomes_part (fields_ok O _) hR hrect hL hb c l hu
  have hA := region_agree hs b t
  obtain ⟨a1, a2⟩ := C112_outcomes_local hA part_ok (part_gridRect hR hb.rows hb.cols) (part_rectilinear hrect hb.rows hb.cols) hL b.hj b.hi
    (show jj + nj ≤ NJ from b.inJ) (show ii + ni ≤ NI from b.inI) c l
  have hsm := region_same (s := s) b t
  have hok : (⟨((O.seen s t).part J0 NJ I0 NI).X, ((O.seen s t).part J0 NJ I0 NI).Y, ((O.part J0 NJ I0 NI).seen s t).data⟩ : Fields).Ok := by
    have ey : (O.part J0 NJ I0 NI).ny = NJ := part_ny b.rows
    have ex : (O.part J0 NJ I0 NI).nx = NI := part_nx b.cols
    refine ⟨?_, ?_, by simp⟩
    · show (NJ, NI) = ((O.part J0 NJ I0 NI).ny, (O.part J0 NJ I0 NI).nx)
      rw [ex, ey]
    · show (NJ, NI) = ((O.part J0 NJ I0 NI).ny, (O.part J0 NJ I0 NI).nx)
      rw [ex, ey]
  have e1 := contoursInside_same (L := L) hsm hok b.hj b.hi (j0 := jj) (i0 := ii) (show jj + nj ≤ (O.part J0 NJ I0 NI).ny from (part_ny b.rows).symm ▸ b.inJ)
    (show ii + ni ≤ (O.part J0 NJ I0 NI).nx from (part_nx b.cols).symm ▸ b.inI) l
  refine ⟨by rw [e1, a1, p1], fun vs hvs => ?_⟩
  rw [examine_same hP hsm hok, a2 vs (by rw [p1]; exact hvs), p2 vs hvs]

end

section
variable {D D' : Dataset} {name name' : String} {O O' : Series} {v v' : Variable} {tn yn xn tn' yn' xn' : String}

/-- **C116** Two datasets with the same times, latitudes and longitudes whose data agree in a rectangle and around it (half the larger side of the
rectangle further, at least three rows and columns, and half the width of the filter more) give, for one level, the same eddies inside the
rectangle at each time, with the same columns, in the same order. -/
theorem C116_local (hD : Holds D name O v tn yn xn) (hD' : Holds D' name' O' v' tn' yn' xn') (hx : Ordered O.lon) (hy : Ordered O.lat)
    (hT : O'.T = O.T) (hlat : O'.lat = O.lat) (hlon : O'.lon = O.lon) {nan nan' : Bool} {o o' : Tracker} (ho : newTracker D name nan = .ok o)
    (ho' : newTracker D' name' nan' = .ok o') {s : SpaceFilter} {h : ℕ} (hs : LocalFilter s h) (c : Criteria ℝ)
    {Pt : Type} {E : Env Cols ℝ Pt} (hnn : IsNN E.dist E.nn) {L : Libs} (hL : L.Nearest) {levels : List ℝ} {l : ℝ}
    (hl : levels.filter (· ≠ 0) = [l]) {t0 : Int} {tf : Option Int} {ntimes : Int} {regs regs' : Regs Cols} (hin : InSeries O t0 tf)
    (hr : StoreEmpty regs) (hr' : StoreEmpty regs') {j0 nj i0 ni : ℕ} (hj : 0 < nj) (hi : 0 < ni) (hjn : j0 + nj ≤ O.ny) (hni : i0 + ni ≤ O.nx)
    (hz : ∀ t < O.T, ∀ r < O.ny, ∀ c < O.nx, Within (reach nj ni + h) j0 nj i0 ni r c → O'.z t r c = O.z t r c) {st st' : LoopState Cols}
    (hst : ({ o with criteria := c, setup := s }.timeTracking E L t0 tf (.array levels) ntimes true regs).2 = .ok st)
    (hst' : ({ o' with criteria := c, setup := s }.timeTracking E L t0 tf (.array levels) ntimes true regs').2 = .ok st') :
    ∃ (ds ds' : Int → List (EddyData (Option ℝ))) (g g' : Int → Nat → Nat),
      st.table.rows.Perm ((trackTimes t0 tf O.T).flatMap fun t =>
        ((ds t).mapIdx fun i d => atTime t (eddyRows (g t i) (tableRows d))).flatten) ∧
      st'.table.rows.Perm ((trackTimes t0 tf O.T).flatMap fun t =>
        ((ds' t).mapIdx fun i d => atTime t (eddyRows (g' t i) (tableRows d))).flatten) ∧
      ∀ t ∈ trackTimes t0 tf O.T, eddiesInside o.X o.Y j0 nj i0 ni (ds' t) = eddiesInside o.X o.Y j0 nj i0 ni (ds t) := by
  rw [hD.new nan] at ho
  injection ho with ho
  subst ho
  rw [hD'.new nan'] at ho'
  injection ho' with ho'
  subst ho'
  rw [hD.run_in (o := { freshTracker D v O nan with criteria := c, setup := s }) ⟨rfl, rfl, rfl, rfl⟩ rfl (localFilter_valid hs) E L hin] at hst
  have hin' : InSeries O' t0 tf := by unfold InSeries; rw [hT]; exact hin
  rw [hD'.run_in (o := { freshTracker D' v' O' nan' with criteria := c, setup := s }) ⟨rfl, rfl, rfl, rfl⟩ rfl (localFilter_valid hs) E L hin', hT] at hst'
  exact C112_eddies_local hnn hL hl hr hr' hj hi (fun t ht => ⟨fields_ok O _, fields_gridRect hx hy _, fields_rectilinear hx hy _, hjn, hni,
    seen_agree hs hlat hlon (hz t.toNat (by have := hin.range t ht; omega))⟩) hst hst'

/-- the eddies of the map of a region that are inside a rectangle -/
theorem region_eddies {J0 NJ I0 NI jj nj ii ni : ℕ} (hx : Ordered O.lon) (hy : Ordered O.lat) {s : SpaceFilter} {h : ℕ} (hs : LocalFilter s h)
    (c : Criteria ℝ) {L : Libs} (hL : L.Nearest) (hP : L.Proper) {l : ℝ} (b : InRegion O (reach nj ni + h) J0 NJ I0 NI jj nj ii ni) (t : ℕ)
    (hu : NoTies L (O.seen s t) l (J0 + jj) nj (I0 + ii) ni) :
    eddiesInside (O.seen s t).X (O.seen s t).Y (J0 + jj) nj (I0 + ii) ni
      (((contourList L ((O.part J0 NJ I0 NI).seen s t) l).filterMap (storedEddy c L ((O.part J0 NJ I0 NI).seen s t) l)).map EddyObj.data) =
    eddiesInside (O.seen s t).X (O.seen s t).Y (J0 + jj) nj (I0 + ii) ni
      (((contourList L (O.seen s t) l).filterMap (storedEddy c L (O.seen s t) l)).map EddyObj.data) := by
  obtain ⟨o1, o2⟩ := C116_outcomes_region hL hP hx hy hs b c t l hu
  have e := eddiesInside_contours c L ((O.part J0 NJ I0 NI).seen s t) l jj nj ii ni
  have e' : ∀ ds, eddiesInside ((O.part J0 NJ I0 NI).seen s t).X ((O.part J0 NJ I0 NI).seen s t).Y jj nj ii ni ds =
      eddiesInside (O.seen s t).X (O.seen s t).Y (J0 + jj) nj (I0 + ii) ni ds := by
    intro ds
    have ei : EddyInside ((O.part J0 NJ I0 NI).seen s t).X ((O.part J0 NJ I0 NI).seen s t).Y jj nj ii ni =
        EddyInside (O.seen s t).X (O.seen s t).Y (J0 + jj) nj (I0 + ii) ni := by
      have hb : InsideBox ((O.part J0 NJ I0 NI).seen s t).X ((O.part J0 NJ I0 NI).seen s t).Y jj nj ii ni =
          InsideBox (O.seen s t).X (O.seen s t).Y (J0 + jj) nj (I0 + ii) ni := by
        have b3 := b.hj
        have b4 := b.hi
        have b5 := b.inJ
        have b6 := b.inI
        funext p
        unfold InsideBox
        show (Cntr.Between (((O.lon.drop I0).take NI).getD ii 0) (((O.lon.drop I0).take NI).getD (ii + ni - 1) 0) p.1 ∧
          Cntr.Between (((O.lat.drop J0).take NJ).getD jj 0) (((O.lat.drop J0).take NJ).getD (jj + nj - 1) 0) p.2) =
          (Cntr.Between (O.lon.getD (I0 + ii) 0) (O.lon.getD (I0 + ii + ni - 1) 0) p.1 ∧
          Cntr.Between (O.lat.getD (J0 + jj) 0) (O.lat.getD (J0 + jj + nj - 1) 0) p.2)
        rw [getD_part _ (by omega), getD_part _ (by omega), getD_part _ (by omega), getD_part _ (by omega),
          show I0 + (ii + ni - 1) = I0 + ii + ni - 1 by omega, show J0 + (jj + nj - 1) = J0 + jj + nj - 1 by omega]
      funext d
      unfold EddyInside
      rw [hb]
    unfold eddiesInside
    rw [ei]
  rw [e'] at e
  rw [eddiesInside_contours]
  refine e.trans ?_
  rw [o1]
  congr 1
  apply List.filterMap_congr
  intro vs hvs
  unfold storedEddy
  show (match examine c L ((O.part J0 NJ I0 NI).seen s t) l vs with | .ok (.stored e) => some e | _ => none) =
    match examine c L (O.seen s t) l vs with | .ok (.stored e) => some e | _ => none
  rw [o2 vs hvs]

/-- **C116** A dataset that consists of a region of another one gives, for one level, the same eddies inside a rectangle at each time, with the same
columns, in the same order, if the rectangle keeps the distance of `C116_local` from the ends of the region (except where these are the ends of the
map) and no vertex is equally near to several grid points. -/
theorem C116_region {J0 NJ I0 NI jj nj ii ni : ℕ} (hD : Holds D name O v tn yn xn)
    (hD' : Holds D' name' (O.part J0 NJ I0 NI) v' tn' yn' xn') (hx : Ordered O.lon) (hy : Ordered O.lat) {nan nan' : Bool} {o o' : Tracker}
    (ho : newTracker D name nan = .ok o) (ho' : newTracker D' name' nan' = .ok o') {s : SpaceFilter} {h : ℕ} (hs : LocalFilter s h)
    (c : Criteria ℝ) {Pt : Type} {E : Env Cols ℝ Pt} (hnn : IsNN E.dist E.nn) {L : Libs} (hL : L.Nearest) (hP : L.Proper) {levels : List ℝ} {l : ℝ}
    (hl : levels.filter (· ≠ 0) = [l]) {t0 : Int} {tf : Option Int} {ntimes : Int} {regs regs' : Regs Cols} (hin : InSeries O t0 tf)
    (hr : StoreEmpty regs) (hr' : StoreEmpty regs') (b : InRegion O (reach nj ni + h) J0 NJ I0 NI jj nj ii ni)
    (hu : ∀ t < O.T, NoTies L (O.seen s t) l (J0 + jj) nj (I0 + ii) ni) {st st' : LoopState Cols}
    (hst : ({ o with criteria := c, setup := s }.timeTracking E L t0 tf (.array levels) ntimes true regs).2 = .ok st)
    (hst' : ({ o' with criteria := c, setup := s }.timeTracking E L t0 tf (.array levels) ntimes true regs').2 = .ok st') :
    ∃ (ds ds' : Int → List (EddyData (Option ℝ))) (g g' : Int → Nat → Nat),
      st.table.rows.Perm ((trackTimes t0 tf O.T).flatMap fun t =>
        ((ds t).mapIdx fun i d => atTime t (eddyRows (g t i) (tableRows d))).flatten) ∧
      st'.table.rows.Perm ((trackTimes t0 tf O.T).flatMap fun t =>
        ((ds' t).mapIdx fun i d => atTime t (eddyRows (g' t i) (tableRows d))).flatten) ∧
      ∀ t ∈ trackTimes t0 tf O.T, eddiesInside o.X o.Y (J0 + jj) nj (I0 + ii) ni (ds' t) =
        eddiesInside o.X o.Y (J0 + jj) nj (I0 + ii) ni (ds t) := by
  rw [hD.new nan] at ho
  injection ho with ho
  subst ho
  rw [hD'.new nan'] at ho'
  injection ho' with ho'
  subst ho'
  rw [hD.run_in (o := { freshTracker D v O nan with criteria := c, setup := s }) ⟨rfl, rfl, rfl, rfl⟩ rfl (localFilter_valid hs) E L hin] at hst
  rw [hD'.run_in (o := { freshTracker D' v' (O.part J0 NJ I0 NI) nan' with criteria := c, setup := s }) ⟨rfl, rfl, rfl, rfl⟩ rfl (localFilter_valid hs) E L
    (show InSeries (O.part J0 NJ I0 NI) t0 tf from hin)] at hst'
  obtain ⟨g, hg⟩ := one_level_rows hnn hl (fun t _ => fields_ok O _) hr hst
  obtain ⟨g', hg'⟩ := one_level_rows hnn hl (fun t _ => fields_ok (O.part J0 NJ I0 NI) _) hr' hst'
  refine ⟨_, _, g, g', hg, hg', fun t ht => ?_⟩
  have htt : t.toNat < O.T := by have := hin.range t ht; omega
  exact region_eddies hx hy hs c hL hP b t.toNat (hu t.toNat htt)

end

/-! ### examples -/

open Classical in
/-- the choice made in `exBallTree` -/
noncomputable def exChoice (B : ℕ → Prop) (k0 : ℕ) : ℕ := if B k0 then k0 else if h : ∃ k, B k then h.choose else 0

theorem exLibs_proper : exLibs.Proper := by
  refine ⟨fun g g' h pt v => ?_, fun _ _ _ _ _ _ _ => rfl⟩
  have hm : masked g'.ny g'.nx (g'.mask pt) = masked g.ny g.nx (g.mask pt) := by
    rw [h.ny, h.nx]
    refine masked_same fun r hr c hc => ?_
    unfold Grid.mask
    rw [h.X r hr c hc, h.Y r hr c hc]
  have hB : (fun k => g'.BallTreeAnswer pt v k) = fun k => g.BallTreeAnswer pt v k := by
    funext k
    unfold Grid.BallTreeAnswer
    rw [hm]
    have hd : ∀ q ∈ masked g.ny g.nx (g.mask pt), g'.dist2 v q = g.dist2 v q := by
      intro q hq
      obtain ⟨q1, q2, _⟩ := mem_masked.1 hq
      unfold Grid.dist2
      rw [h.X _ q1 _ q2, h.Y _ q1 _ q2]
    apply propext
    constructor
    · rintro ⟨p, h1, h2⟩
      refine ⟨p, h1, fun q hq => ?_⟩
      rw [← hd p (List.mem_of_getElem? h1), ← hd q hq]
      exact h2 q hq
    · rintro ⟨p, h1, h2⟩
      refine ⟨p, h1, fun q hq => ?_⟩
      rw [hd p (List.mem_of_getElem? h1), hd q hq]
      exact h2 q hq
  exact congrArg (fun B => exChoice B (if v.1 < 3 / 2 then 5 else 6)) hB

/-- the mean over a square without missing values -/
theorem squareMean_full {ny nx h : ℕ} {z : ℕ → ℕ → Option ℝ} {f : ℕ → ℕ → ℝ} (hz : ∀ r < ny, ∀ c < nx, z r c = some (f r c)) (r c : ℕ) :
    squareMean ny nx h z r c = (∑ i ∈ Finset.range ny, ∑ j ∈ Finset.range nx,
      if r ≤ i + h ∧ i ≤ r + h ∧ c ≤ j + h ∧ j ≤ c + h then f i j else 0) / (2 * (h : ℝ) + 1) ^ 2 := by
  have hn : ((square ny nx h r c).filter fun p => z p.1 p.2 = none) = ∅ := by
    rw [Finset.filter_false_of_mem]
    intro p hp
    unfold square at hp
    simp only [Finset.mem_filter, Finset.mem_product, Finset.mem_range] at hp
    rw [hz _ hp.1.1 _ hp.1.2]
    exact Option.some_ne_none _
  unfold squareMean
  rw [hn, Finset.card_empty, Nat.cast_zero, sub_zero, ← Finset.sum_product', ← Finset.sum_filter]
  congr 1
  refine Finset.sum_congr rfl fun p hp => ?_
  unfold square at hp
  simp only [Finset.mem_filter, Finset.mem_product, Finset.mem_range] at hp
  rw [hz _ hp.1.1 _ hp.1.2]
  rfl

noncomputable def reZ (u : ℝ) (r c : ℕ) : ℝ :=
  (if r = 1 then ([185788646676 / 379406503849, 22636829511 / 12238919479, 712931685057 / 379406503849, 7338274623 / 12238919479, 51494823 / 189798151, 1442286900 / 12238919479, 19409241303 / 379406503849, 265137777 / 12238919479, 3013027263 / 379406503849] : List ℝ)
    else [284403131289 / 758813007698, 8067166569 / 12238919479, 515987393787 / 758813007698, 5538951558 / 12238919479, 72346113 / 379596302, 1020531060 / 12238919479, 27446953113 / 758813007698, 187482042 / 12238919479, 4261060413 / 758813007698]).getD c 0 + if c = 8 then u else 0

/-- a series whose anomaly with a filter of three by three points is the map of Local.lean; `u` is added in the last column -/
noncomputable def reSeries (u : ℝ) : Series where
  T := 1
  lon := [-1 / 4, 1, 2, 13 / 4, 5, 7, 9, 11, 13]
  lat := [-1 / 4, 1, 9 / 4]
  z _ r c := some (reZ u r c)

noncomputable def reAnomaly (u : ℝ) (r c : ℕ) : ℝ :=
  if r = 1 ∧ (c = 1 ∨ c = 2) then 1 else if c = 7 then - (if r = 1 then 3 else 2) * u / 9
    else if c = 8 then (if r = 1 then 6 else 7) * u / 9 else 0

theorem reSeries_anomaly (u : ℝ) (t : ℕ) : ∀ r < 3, ∀ c < 9,
    anomaly (.convolution .uniform 2) 3 9 ((reSeries u).z t) r c = some (reAnomaly u r c) := by
  intro r hr c hc
  show (some (reZ u r c)).map (· - squareMean 3 9 (2 / 2) ((reSeries u).z t) r c) = _
  rw [squareMean_full (z := (reSeries u).z t) (f := reZ u) (fun _ _ _ _ => rfl), Option.map_some, Option.some.injEq]
  simp only [Finset.sum_range_succ, Finset.sum_range_zero]
  interval_cases r <;> interval_cases c <;> norm_num [reZ, reAnomaly] <;> ring

/-- contours of a map that has the entries of a map of rational numbers -/
theorem contourList_rat {X Y : Cntr.NdArr ℚ} {Z : Cntr.NdArr (Option ℚ)} (h : Cntr.SameShape X Y Z none) {S : Fields}
    (hS : SameMap ⟨X.cast (Rat.castHom ℝ), Y.cast (Rat.castHom ℝ), Z.castO (Rat.castHom ℝ)⟩ S) (l : ℚ) {fuel : ℕ} {mem : Cntr.Memory}
    (hf : Cntr.bound Z ≤ fuel) {vss : List (List (Vertex ℚ))} {cds : List (Cntr.Item ℚ)}
    (he : Cntr.extractContours X Y Z l fuel mem = .ok (vss.map .points, cds)) (L : Libs) :
    contourList L S (l : ℝ) = vss.map fun vs => vs.map (Option.map fun p => ((p.1 : ℝ), (p.2 : ℝ))) := by
  have hok : (⟨X.cast (Rat.castHom ℝ), Y.cast (Rat.castHom ℝ), Z.castO (Rat.castHom ℝ)⟩ : Fields).Ok := ⟨h.1, h.2.1, fun M hM => by cases hM⟩
  rw [contourList_same hS hok]
  obtain ⟨cds', h2⟩ := Cntr.extract_cast (Rat.castHom ℝ) Rat.cast_strictMono h l (fuel' := 4 * (Z.cols * Z.rows) + 2)
    (mem' := L.mem (Z.castO (Rat.castHom ℝ)) l) hf (le_refl (Cntr.bound Z)) he
  unfold contourList contoursOf
  have h3 : Cntr.extractContours (X.cast (Rat.castHom ℝ)) (Y.cast (Rat.castHom ℝ)) (Z.castO (Rat.castHom ℝ)) ((l : ℚ) : ℝ)
      (4 * ((Z.castO (Rat.castHom ℝ)).cols * (Z.castO (Rat.castHom ℝ)).rows) + 2) (L.mem (Z.castO (Rat.castHom ℝ)) l) = _ := h2
  simp only
  rw [h3]
  simp [vertsOf, Function.comp_def]

/-- the map as the detection sees it -/
theorem reSeen_get (u : ℝ) (t : ℕ) : ∀ r < 3, ∀ c < 9,
    ((reSeries u).seen (.convolution .uniform 2) t).data.get r c = some (reAnomaly u r c) := by
  intro r hr c hc
  rw [fields_get _ (show r < (reSeries u).ny from hr) (show c < (reSeries u).nx from hc)]
  exact reSeries_anomaly u t r hr c hc

def reqZ (u : ℚ) : Cntr.NdArr (Option ℚ) := ⟨3, 9, fun r c => some (
  if r = 1 ∧ (c = 1 ∨ c = 2) then 1 else if c = 7 then - (if r = 1 then 3 else 2) * u / 9
    else if c = 8 then (if r = 1 then 6 else 7) * u / 9 else 0)⟩

theorem req_contours {u : ℚ} (hu : u = 0 ∨ u = 9 / 20) : Cntr.extractContours loqX loqY (reqZ u) (3 / 5) 110 Cntr.exMem =
    .ok ([[some (1, 1 / 2), some (2, 1 / 2), some (5 / 2, 1), some (2, 3 / 2), some (1, 3 / 2), some (1 / 2, 1),
      some (1, 1 / 2)]].map .points, [.codes [1, 2, 2, 2, 2, 2, 2]]) := by
  rcases hu with rfl | rfl <;> decide +kernel

theorem reSame (u : ℚ) (t : ℕ) : SameMap ⟨loqX.cast (Rat.castHom ℝ), loqY.cast (Rat.castHom ℝ), (reqZ u).castO (Rat.castHom ℝ)⟩
    ((reSeries u).seen (.convolution .uniform 2) t) := by
  obtain ⟨hX, hY, _⟩ := loField_cast u
  refine ⟨?_, ?_, rfl, rfl, fun r hr c hc => ?_⟩
  · rw [hX]; exact SameArr.refl _
  · rw [hY]; exact SameArr.refl _
  · rw [reSeen_get (u : ℝ) t r hr c hc]
    simp only [Cntr.NdArr.castO, reqZ, reAnomaly, Option.map_some]
    split_ifs <;> simp

theorem rePts : ([[some (1, 1 / 2), some (2, 1 / 2), some (5 / 2, 1), some (2, 3 / 2), some (1, 3 / 2), some (1 / 2, 1),
      some (1, 1 / 2)]] : List (List (Vertex ℚ))).map (fun vs => vs.map (Option.map fun p => ((p.1 : ℝ), (p.2 : ℝ)))) = [exPts.map some] := by
  simp [exPts]

theorem reContours (L : Libs) {u : ℚ} (hu : u = 0 ∨ u = 9 / 20) (t : ℕ) :
    contourList L ((reSeries u).seen (.convolution .uniform 2) t) (3 / 5) = [exPts.map some] := by
  have := contourList_rat (X := loqX) (Y := loqY) (Z := reqZ u) ⟨rfl, rfl, fun M hM => by cases hM⟩ (reSame u t) (3 / 5)
    (by show 4 * (9 * 3) + 2 ≤ 110; decide) (req_contours hu) L
  rw [rePts] at this
  rw [← this]
  norm_num

theorem reSame0 (t : ℕ) : SameMap (loField 0) ((reSeries 0).seen (.convolution .uniform 2) t) := by
  refine ⟨SameArr.refl _, SameArr.refl _, rfl, rfl, fun r hr c hc => ?_⟩
  rw [reSeen_get 0 t r hr c hc]
  simp only [loField, reAnomaly]
  split_ifs <;> simp

theorem reStored0 (t : ℕ) : ∃ e, examine exCriteria exLibs ((reSeries 0).seen (.convolution .uniform 2) t) (3 / 5) (exPts.map some) = .ok (.stored e) := by
  rw [examine_same exLibs_proper (reSame0 t) (loField_ok 0)]
  exact loStored

theorem reOrdered (u : ℝ) : Ordered (reSeries u).lon ∧ Ordered (reSeries u).lat := by
  constructor <;> left <;> simp only [reSeries] <;> norm_num

theorem reMem (t : ℕ) : exPts.map some ∈ contoursInside exLibs ((reSeries 0).seen (.convolution .uniform 2) t) (3 / 5) 0 3 0 4 := by
  rw [contoursInside_same (reSame0 t) (loField_ok 0) (by norm_num) (by norm_num) (show 0 + 3 ≤ 3 by norm_num) (show 0 + 4 ≤ 9 by norm_num)]
  exact loMem

/-- the maps agree except in the last column -/
theorem reAgree (u : ℝ) : ∀ t < (reSeries 0).T, ∀ r < (reSeries 0).ny, ∀ c < (reSeries 0).nx, Within (reach 3 4 + 1) 0 3 0 4 r c →
    (reSeries u).z t r c = (reSeries 0).z t r c := by
  intro t _ r _ c _ hw
  have hc : c < 8 := by
    have := hw.2.2.2
    unfold reach at this
    omega
  simp only [reSeries, reZ, if_neg (show c ≠ 8 by omega)]

theorem reStored (u : ℝ) (t : ℕ) (ht : t < 1) :
    ∃ e, examine exCriteria exLibs ((reSeries u).seen (.convolution .uniform 2) t) (3 / 5) (exPts.map some) = .ok (.stored e) := by
  have hA : AgreeAround ((reSeries 0).seen (.convolution .uniform 2) t) ((reSeries u).seen (.convolution .uniform 2) t) 0 3 0 4 :=
    seen_agree (O := reSeries 0) (O' := reSeries u) (.uniform 2) rfl rfl (reAgree u t ht)
  rw [(C112_outcomes_local hA (fields_ok _ _) (fields_gridRect (reOrdered 0).1 (reOrdered 0).2 _)
    (fields_rectilinear (reOrdered 0).1 (reOrdered 0).2 _) exLibs_nearest (by norm_num) (by norm_num) (show 0 + 3 ≤ 3 by norm_num)
    (show 0 + 4 ≤ 9 by norm_num) exCriteria (3 / 5)).2 _ (reMem t)]
  exact reStored0 t

/-- a run over a series of one map with one contour that gives an eddy -/
theorem run_series {O : Series} (hT : O.T = 1) (hy : O.ny ≠ 1) (hx : O.nx ≠ 1) {s : SpaceFilter} (hs : ValidSetup s) {nn : List (ℝ × ℝ) → ℝ × ℝ → Nat}
    (hnn : IsNN haversine nn) {c : Criteria ℝ} {L : Libs} {l : ℝ} (hl0 : l ≠ 0) {vs : List (Vertex ℝ)}
    (hcl : contourList L (O.seen s 0) l = [vs]) (he : ∃ e, examine c L (O.seen s 0) l vs = .ok (.stored e)) :
    ∃ (o : Tracker) (st : LoopState Cols), newTracker (storeSeries O) "sla" false = .ok o ∧ InSeries O 0 none ∧
      ({ o with criteria := c, setup := s }.timeTracking (colsEnv true nn) L 0 none (.array [l]) 1 true Regs.empty).2 = .ok st ∧
      st.table.rows ≠ [] := by
  obtain ⟨e, he⟩ := he
  obtain ⟨st, h1, h2⟩ := run_single hnn hl0 (fields_ok O _) hcl he
  have hD := storeSeries_holds O hy hx
  have hin : InSeries O 0 none := Or.inl rfl
  refine ⟨_, st, hD.new false, hin, ?_, h2.2 ⟨e, rfl⟩⟩
  rw [hD.run_in (o := { freshTracker (storeSeries O) _ O false with criteria := c, setup := s }) ⟨rfl, rfl, rfl, rfl⟩ rfl hs _ _ hin, hT]
  have hts : trackTimes 0 none 1 = [0] := by decide
  have : (trackFields (colsEnv true nn) c L (fun t : Int => O.seen s t.toNat) [l] 0 none 1 1 true Regs.empty).2 = .ok st := by
    rw [← h1]
    unfold trackFields
    simp only [hts, List.foldl_cons, List.foldl_nil, Int.toNat_zero]
  exact this

theorem reNoTies (t : ℕ) : NoTies exLibs ((reSeries 0).seen (.convolution .uniform 2) t) (3 / 5) (0 + 0) 3 (0 + 0) 4 := by
  intro pts hp
  rw [contoursInside_same (reSame0 t) (loField_ok 0) (by norm_num) (by norm_num) (show 0 + 3 ≤ 3 by norm_num) (show 0 + 4 ≤ 9 by norm_num)] at hp
  exact paNoTies pts hp

theorem reIn : InRegion (reSeries 0) (reach 3 4 + 1) 0 3 0 8 0 3 0 4 := by
  refine ⟨?_, ?_, by norm_num, by norm_num, by norm_num, by norm_num, ⟨Or.inr rfl, Or.inr rfl⟩, ⟨Or.inr rfl, Or.inl ?_⟩⟩
  · show 0 + 3 ≤ 3; norm_num
  · show 0 + 8 ≤ 9; norm_num
  · unfold reach; norm_num

theorem reStoredPart (t : ℕ) : ∃ e, examine exCriteria exLibs (((reSeries 0).part 0 3 0 8).seen (.convolution .uniform 2) t) (3 / 5) (exPts.map some) =
    .ok (.stored e) := by
  rw [(C116_outcomes_region exLibs_nearest exLibs_proper (reOrdered 0).1 (reOrdered 0).2 (.uniform 2) reIn exCriteria t (3 / 5) (reNoTies t)).2 _ (reMem t)]
  exact reStored0 t

/-- the anomaly of the first eight columns: the filter has less to average over in the last one -/
def repZ : Cntr.NdArr (Option ℚ) := ⟨3, 8, fun r c => some (
  if r = 1 ∧ (c = 1 ∨ c = 2) then 1 else if c = 7 then (if r = 1 then 808231964 / 379406503849 else 1143012771 / 758813007698) else 0)⟩

theorem rePart_anomaly (t : ℕ) : ∀ r < 3, ∀ c < 8,
    anomaly (.convolution .uniform 2) 3 8 (((reSeries 0).part 0 3 0 8).z t) r c = (repZ.castO (Rat.castHom ℝ)).get r c := by
  intro r hr c hc
  show (some (reZ 0 (0 + r) (0 + c))).map (· - squareMean 3 8 (2 / 2) (((reSeries 0).part 0 3 0 8).z t) r c) = some _
  rw [squareMean_full (z := ((reSeries 0).part 0 3 0 8).z t) (f := reZ 0) (fun r _ c _ => by simp [Spec.Series.part, reSeries]), Option.map_some,
    Option.some.injEq]
  simp only [Finset.sum_range_succ, Finset.sum_range_zero]
  interval_cases r <;> interval_cases c <;> norm_num [reZ]

theorem rep_contours : Cntr.extractContours (loqX.crop 0 3 0 8) (loqY.crop 0 3 0 8) repZ (3 / 5) 98 Cntr.exMem =
    .ok ([[some (1, 1 / 2), some (2, 1 / 2), some (5 / 2, 1), some (2, 3 / 2), some (1, 3 / 2), some (1 / 2, 1),
      some (1, 1 / 2)]].map .points, [.codes [1, 2, 2, 2, 2, 2, 2]]) := by
  decide +kernel

theorem reSamePart (t : ℕ) : SameMap ⟨(loqX.crop 0 3 0 8).cast (Rat.castHom ℝ), (loqY.crop 0 3 0 8).cast (Rat.castHom ℝ), repZ.castO (Rat.castHom ℝ)⟩
    (((reSeries 0).part 0 3 0 8).seen (.convolution .uniform 2) t) := by
  obtain ⟨hX, hY, _⟩ := loField_cast 0
  have ey : ((reSeries 0).part 0 3 0 8).ny = 3 := part_ny reIn.rows
  have ex : ((reSeries 0).part 0 3 0 8).nx = 8 := part_nx reIn.cols
  refine ⟨⟨ey, ex, fun r hr c hc => ?_⟩, ⟨ey, ex, fun r hr c hc => ?_⟩, ey, ex, fun r hr c hc => ?_⟩
  · show ((reSeries 0).part 0 3 0 8).lon.getD c 0 = (loqX.cast (Rat.castHom ℝ)).get (0 + r) (0 + c)
    rw [hX]
    exact getD_part _ hc
  · show ((reSeries 0).part 0 3 0 8).lat.getD r 0 = (loqY.cast (Rat.castHom ℝ)).get (0 + r) (0 + c)
    rw [hY]
    exact getD_part _ hr
  · rw [fields_get _ (ey.symm ▸ hr) (ex.symm ▸ hc), ex, ey]
    exact rePart_anomaly t r hr c hc

theorem reContoursPart (L : Libs) (t : ℕ) :
    contourList L (((reSeries 0).part 0 3 0 8).seen (.convolution .uniform 2) t) (3 / 5) = [exPts.map some] := by
  have := contourList_rat (X := loqX.crop 0 3 0 8) (Y := loqY.crop 0 3 0 8) (Z := repZ) ⟨rfl, rfl, fun M hM => by cases hM⟩ (reSamePart t) (3 / 5)
    (by show 4 * (8 * 3) + 2 ≤ 98; decide) rep_contours L
  rw [rePts] at this
  rw [← this]
  norm_num

/-- `C116_local` is not vacuous: the data differ in the last column, the anomalies in the last two, and both runs find the eddy -/
example : ∃ (nn : List (ℝ × ℝ) → ℝ × ℝ → Nat) (o o' : Tracker) (st st' : LoopState Cols), IsNN haversine nn ∧
    newTracker (storeSeries (reSeries 0)) "sla" false = .ok o ∧ newTracker (storeSeries (reSeries (9 / 20))) "sla" false = .ok o' ∧
    (∀ t < (reSeries 0).T, ∀ r < (reSeries 0).ny, ∀ c < (reSeries 0).nx, Within (reach 3 4 + 1) 0 3 0 4 r c →
      (reSeries (9 / 20)).z t r c = (reSeries 0).z t r c) ∧
    (reSeries (9 / 20)).z 0 0 8 ≠ (reSeries 0).z 0 0 8 ∧
    ({ o with criteria := exCriteria, setup := .convolution .uniform 2 }.timeTracking (colsEnv true nn) exLibs 0 none (.array [3 / 5]) 1 true Regs.empty).2 = .ok st ∧
    ({ o' with criteria := exCriteria, setup := .convolution .uniform 2 }.timeTracking (colsEnv true nn) exLibs 0 none (.array [3 / 5]) 1 true Regs.empty).2 = .ok st' ∧
    st.table.rows ≠ [] ∧ st'.table.rows ≠ [] := by
  obtain ⟨nn, hnn⟩ := exists_isNN haversine
  have c0 := reContours exLibs (u := 0) (Or.inl rfl) 0
  have c1 := reContours exLibs (u := 9 / 20) (Or.inr rfl) 0
  norm_num only [Rat.cast_zero, Rat.cast_div, Rat.cast_ofNat] at c0 c1
  obtain ⟨o, st, h1, -, h2, h3⟩ := run_series (O := reSeries 0) rfl (by decide) (by decide) (localFilter_valid (.uniform 2)) hnn (by norm_num) c0 (reStored0 0)
  obtain ⟨o', st', h1', -, h2', h3'⟩ := run_series (O := reSeries (9 / 20)) rfl (by decide) (by decide) (localFilter_valid (.uniform 2)) hnn (by norm_num) c1
    (reStored (9 / 20) 0 one_pos)
  refine ⟨nn, o, o', st, st', hnn, h1, h1', reAgree _, ?_, h2, h2', h3, h3'⟩
  simp only [reSeries, reZ, ne_eq, Option.some.injEq]
  norm_num

/-- `C116_region` is not vacuous: the first eight of nine columns; the anomaly in the eighth column differs from that of the whole map -/
example : ∃ (nn : List (ℝ × ℝ) → ℝ × ℝ → Nat) (o o' : Tracker) (st st' : LoopState Cols), IsNN haversine nn ∧
    newTracker (storeSeries (reSeries 0)) "sla" false = .ok o ∧ newTracker (storeSeries ((reSeries 0).part 0 3 0 8)) "sla" false = .ok o' ∧
    InRegion (reSeries 0) (reach 3 4 + 1) 0 3 0 8 0 3 0 4 ∧
    (∀ t < (reSeries 0).T, NoTies exLibs ((reSeries 0).seen (.convolution .uniform 2) t) (3 / 5) (0 + 0) 3 (0 + 0) 4) ∧
    ({ o with criteria := exCriteria, setup := .convolution .uniform 2 }.timeTracking (colsEnv true nn) exLibs 0 none (.array [3 / 5]) 1 true Regs.empty).2 = .ok st ∧
    ({ o' with criteria := exCriteria, setup := .convolution .uniform 2 }.timeTracking (colsEnv true nn) exLibs 0 none (.array [3 / 5]) 1 true Regs.empty).2 = .ok st' ∧
    st.table.rows ≠ [] ∧ st'.table.rows ≠ [] := by
  obtain ⟨nn, hnn⟩ := exists_isNN haversine
  have c0 := reContours exLibs (u := 0) (Or.inl rfl) 0
  norm_num only [Rat.cast_zero] at c0
  have ey : ((reSeries 0).part 0 3 0 8).ny = 3 := part_ny reIn.rows
  have ex : ((reSeries 0).part 0 3 0 8).nx = 8 := part_nx reIn.cols
  obtain ⟨o, st, h1, -, h2, h3⟩ := run_series (O := reSeries 0) rfl (by decide) (by decide) (localFilter_valid (.uniform 2)) hnn (by norm_num) c0 (reStored0 0)
  obtain ⟨o', st', h1', -, h2', h3'⟩ := run_series (O := (reSeries 0).part 0 3 0 8) rfl (by rw [ey]; decide) (by rw [ex]; decide)
    (localFilter_valid (.uniform 2)) hnn (by norm_num) (reContoursPart exLibs 0) (reStoredPart 0)
  exact ⟨nn, o, o', st, st', hnn, h1, h1', reIn, fun t _ => reNoTies t, h2, h2', h3, h3'⟩

end Trackeddy
