import Verif.Props.NegatedRun
import Verif.Props.Flip

/-!
C126, C105, C125 and C106 for calls on datasets.
-/
namespace Trackeddy
open Spec
open Cntr (Vertex)

variable {D D' : Dataset} {name name' : String} {O O' : Series} {v v' : Variable} {tn yn xn tn' yn' xn' : String}

/-- the series on the other side of the equator -/
def Spec.Series.acrossEquator (O : Series) : Series := { O with lat := O.lat.map fun y => -y }

/-- the series with the longitudes counted `k` turns further -/
def Spec.Series.turned (O : Series) (k : ℤ) : Series := { O with lon := O.lon.map fun x => x + 360 * (k : ℝ) }

/-- **C126** for calls: two datasets with series of the same length, any valid filter and any levels. If the maps after the filter have
contours that are treated alike, with corresponding eddies, then the two calls return tables with the same identifiers, times and
numbers of rows, the rows corresponding; or both raise the same exception. -/
theorem C126_dataset (h : Holds D name O v tn yn xn) (h' : Holds D' name' O' v' tn' yn' xn') (hT : O'.T = O.T) (nan nan' : Bool) :
    ∃ o o', newTracker D name nan = .ok o ∧ newTracker D' name' nan' = .ok o' ∧
      ∀ (s : SpaceFilter) (c : Criteria ℝ) (prunes : Bool) (nn : List (ℝ × ℝ) → ℝ × ℝ → Nat) (L : Libs) (t0 : Int) (tf : Option Int)
        (levels : List ℝ) (f : ℝ → ℝ) (ntimes : Int) (online : Bool) (regs regs' : Regs Cols) (Q : EddyObj → EddyObj → Prop),
        ValidSetup s → ByDistance nn → Congruent Q → (∀ l, f l = 0 ↔ l = 0) → InSeries O t0 tf → StoreEmpty regs → StoreEmpty regs' →
        (∀ t ∈ trackTimes t0 tf O.T, ∀ l ∈ levels, l ≠ 0 → List.Forall₂ (Corresponding Q)
          ((contourList L (O.seen s t.toNat) l).map (examine c L (O.seen s t.toNat) l))
          ((contourList L (O'.seen s t.toNat) (f l)).map (examine c L (O'.seen s t.toNat) (f l)))) →
        ResRel (RunRel (SameRowOf Q))
          ({ o with setup := s, criteria := c }.timeTracking (colsEnv prunes nn) L t0 tf (.array levels) ntimes online regs).2
          ({ o' with setup := s, criteria := c }.timeTracking (colsEnv prunes nn) L t0 tf (.array (levels.map f)) ntimes online regs').2 := by
  refine ⟨_, _, h.new nan, h'.new nan', fun s c prunes nn L t0 tf levels f ntimes online regs regs' Q hs hnn hQ hf hin hr hr' hc => ?_⟩
  have hin' : InSeries O' t0 tf := by
    unfold InSeries at hin ⊢
    rw [hT]
    exact hin
  have e1 := h.run_in (o := { freshTracker D v O nan with setup := s, criteria := c }) ⟨rfl, rfl, rfl, rfl⟩ rfl hs (colsEnv prunes nn) L
    hin levels ntimes online regs
  have e2 := h'.run_in (o := { freshTracker D' v' O' nan' with setup := s, criteria := c }) ⟨rfl, rfl, rfl, rfl⟩ rfl hs
    (colsEnv prunes nn) L hin' (levels.map f) ntimes online regs'
  rw [e1, e2, hT]
  exact C126_distances_and_radii hnn hQ (fun t _ => fields_ok _ _) (fun t _ => fields_ok _ _) hf hc ntimes online hr hr'

/-! ### opposite sign -/

theorem seen_negated (O : Series) (s : SpaceFilter) (t : ℕ) : (O.times (-1)).seen s t = (O.seen s t).negated := by
  have e : (O.times (-1)).seen s t = O.fields fun r c => (anomaly s O.ny O.nx (O.z t) r c).map (-1 * ·) := by
    show O.fields _ = _
    apply fields_congr
    intro r _ c _
    exact anomaly_times (-1) s O.ny O.nx (O.z t) r c
  rw [e]
  unfold Spec.Series.seen Spec.Series.fields Fields.negated fldArr toFld
  congr 2
  funext r c
  simp only [neg_one_mul]
  split_ifs <;> rfl

/-- the data meet the conditions of `C105_partial_from_data` -/
def OppositeReady (L : Libs) (S : Fields) (l : ℝ) : Prop := Cntr.NoTies S.data l ∧ ∀ vs ∈ contourList L S l,
  vs.head? = vs.getLast? ∧ ∀ pts : List (ℝ × ℝ), vs = pts.map some → pts.IsChain NotOpposite

theorem corresponding_negated {c : Criteria ℝ} (hc : c.skipGauss = true) (h1 : 1 ≤ c.ellipseFit) {L : Libs} {S : Fields} (hS : S.Ok)
    (hR : S.grid.Rect) {l : ℝ} (hv : OppositeReady L S l) : List.Forall₂ (Corresponding OppositeNoGauss)
      ((contourList L S l).map (examine c L S l)) ((contourList L S.negated (-l)).map (examine c L S.negated (-l))) := by
  have hres := (C105_partial_from_data hc h1 L hS hR hv.1 hv.2).1
  rw [List.forall₂_iff_get] at hres ⊢
  refine ⟨hres.1, fun i g1 g2 => ?_⟩
  have he := hres.2 i g1 g2
  have hg : ∀ e, ((contourList L S l).map (examine c L S l)).get ⟨i, g1⟩ = .ok (.stored e) → e.gaussError = some 0 := by
    intro e he
    rw [List.get_eq_getElem, List.getElem_map] at he
    exact stored_noGauss hc he
  revert he hg
  generalize ((contourList L S l).map (examine c L S l)).get ⟨i, g1⟩ = x
  generalize ((contourList L S.negated (-l)).map (examine c L S.negated (-l))).get ⟨i, g2⟩ = y
  intro he hg
  cases x with
  | error a => cases y <;> exact he
  | ok o =>
    cases y with
    | error b => cases o <;> exact he
    | ok o' =>
      cases o <;> cases o'
      all_goals first | exact ⟨he, hg _ rfl⟩ | exact he

/-- **C105** for calls, partial: a dataset and one with the data of opposite sign, with the opposite levels. The conditions are those of
`C105_partial_run`, on the maps after the filter. -/
theorem C105_partial_dataset (h : Holds D name O v tn yn xn) (h' : Holds D' name' (O.times (-1)) v' tn' yn' xn') (hx : Ordered O.lon)
    (hy : Ordered O.lat) (nan nan' : Bool) :
    ∃ o o', newTracker D name nan = .ok o ∧ newTracker D' name' nan' = .ok o' ∧
      ∀ (s : SpaceFilter) (c : Criteria ℝ) (prunes : Bool) (nn : List (ℝ × ℝ) → ℝ × ℝ → Nat) (L : Libs) (t0 : Int) (tf : Option Int)
        (levels : List ℝ) (ntimes : Int) (online : Bool) (regs regs' : Regs Cols),
        ValidSetup s → ByDistance nn → c.skipGauss = true → 1 ≤ c.ellipseFit → InSeries O t0 tf → StoreEmpty regs → StoreEmpty regs' →
        (∀ t ∈ trackTimes t0 tf O.T, ∀ l ∈ levels, l ≠ 0 → OppositeReady L (O.seen s t.toNat) l) →
        ResRel (RunRel (SameRowOf OppositeEddy))
          ({ o with setup := s, criteria := c }.timeTracking (colsEnv prunes nn) L t0 tf (.array levels) ntimes online regs).2
          ({ o' with setup := s, criteria := c }.timeTracking (colsEnv prunes nn) L t0 tf (.array (levels.map fun l => -l)) ntimes online
            regs').2 := by
  obtain ⟨o, o', g1, g2, g3⟩ := C126_dataset h h' rfl nan nan'
  refine ⟨o, o', g1, g2, fun s c prunes nn L t0 tf levels ntimes online regs regs' hs hnn hc h1 hin hr hr' hv => ?_⟩
  refine ResRel.mono (fun _ _ => RunRel.mono fun _ _ => SameRowOf.mono fun _ _ h => h.1) (g3 s c prunes nn L t0 tf levels (fun l => -l)
    ntimes online regs regs' OppositeNoGauss hs hnn opposite_congruent (fun l => neg_eq_zero) hin hr hr' fun t ht l hl h0 => ?_)
  rw [seen_negated]
  exact corresponding_negated hc h1 (fields_ok _ _) (fields_gridRect hx hy _) (hv t ht l hl h0)

/-! ### the hemispheres -/

theorem seen_mirrored (O : Series) (s : SpaceFilter) (t : ℕ) : O.acrossEquator.seen s t = (O.seen s t).mirrored := by
  have hn : O.acrossEquator.ny = O.ny := by simp [Spec.Series.acrossEquator, Spec.Series.ny]
  have hx : O.acrossEquator.nx = O.nx := rfl
  unfold Spec.Series.seen Spec.Series.fields Fields.mirrored
  rw [hn, hx]
  congr 2
  funext r c
  show (O.lat.map fun y => -y).getD r 0 = -(O.lat.getD r 0)
  rw [List.getD_eq_getElem?_getD, List.getD_eq_getElem?_getD, List.getElem?_map]
  cases O.lat[r]? <;> simp

/-- **C125** for calls, partial: a dataset and one with latitudes of opposite sign. The conditions are those of `C125_partial_run`, on the
maps after the filter. -/
theorem C125_partial_dataset (h : Holds D name O v tn yn xn) (h' : Holds D' name' O.acrossEquator v' tn' yn' xn') (hx : Ordered O.lon)
    (hy : Ordered O.lat) (nan nan' : Bool) :
    ∃ o o', newTracker D name nan = .ok o ∧ newTracker D' name' nan' = .ok o' ∧
      ∀ (s : SpaceFilter) (c : Criteria ℝ) (prunes : Bool) (nn : List (ℝ × ℝ) → ℝ × ℝ → Nat) (L : Libs) (t0 : Int) (tf : Option Int)
        (levels : List ℝ) (ntimes : Int) (online : Bool) (regs regs' : Regs Cols),
        ValidSetup s → ByDistance nn → c.skipGauss = true → 1 ≤ c.ellipseFit → L.Nearest → InSeries O t0 tf → StoreEmpty regs →
        StoreEmpty regs' →
        (∀ t ∈ trackTimes t0 tf O.T, ∀ l ∈ levels, l ≠ 0 → ∀ vs ∈ contourList L (O.seen s t.toNat) l, ∀ pts : List (ℝ × ℝ),
          vs = pts.map some → MirrorReady (O.seen s t.toNat) pts) →
        ResRel (RunRel (SameRowOf MirroredEddy))
          ({ o with setup := s, criteria := c }.timeTracking (colsEnv prunes nn) L t0 tf (.array levels) ntimes online regs).2
          ({ o' with setup := s, criteria := c }.timeTracking (colsEnv prunes nn) L t0 tf (.array levels) ntimes online regs').2 := by
  refine ⟨_, _, h.new nan, h'.new nan', fun s c prunes nn L t0 tf levels ntimes online regs regs' hs hnn hc h1 hL hin hr hr' hv => ?_⟩
  have e1 := h.run_in (o := { freshTracker D v O nan with setup := s, criteria := c }) ⟨rfl, rfl, rfl, rfl⟩ rfl hs (colsEnv prunes nn) L
    hin levels ntimes online regs
  have e2 := h'.run_in (o := { freshTracker D' v' O.acrossEquator nan' with setup := s, criteria := c }) ⟨rfl, rfl, rfl, rfl⟩ rfl hs
    (colsEnv prunes nn) L (show InSeries O.acrossEquator t0 tf from hin) levels ntimes online regs'
  rw [e1, e2]
  show ResRel _ _ (trackFields (colsEnv prunes nn) c L (fun t => O.acrossEquator.seen s t.toNat) levels t0 tf O.T ntimes online regs').2
  simp only [seen_mirrored]
  exact C125_partial_run hnn hc h1 hL (fun t _ => ⟨fields_ok _ _, fields_rectilinear hx hy _⟩) hv ntimes online hr hr'

/-! ### the origin of the longitudes -/

theorem seen_around (O : Series) (s : SpaceFilter) (t : ℕ) (k : ℤ) : SameMap ((O.seen s t).around k) ((O.turned k).seen s t) := by
  have hn : (O.turned k).ny = O.ny := rfl
  have hx : (O.turned k).nx = O.nx := by simp [Spec.Series.turned, Spec.Series.nx]
  refine ⟨⟨hn, hx, fun r hr c hc => ?_⟩, ⟨hn, hx, fun r hr c hc => rfl⟩, ?_⟩
  · have hc : c < O.lon.length := hc
    show (O.lon.map fun x => x + 360 * (k : ℝ)).getD c 0 = O.lon.getD c 0 + 360 * (k : ℝ)
    rw [List.getD_eq_getElem?_getD, List.getD_eq_getElem?_getD, List.getElem?_map, List.getElem?_eq_getElem hc]
    rfl
  · unfold Spec.Series.seen Spec.Series.fields Fields.around
    rw [hn, hx]
    exact SameArr.refl _

/-- **C106** for calls, partial: a dataset and one with longitudes counted `k` turns further. The conditions are those of
`C106_partial_run`, on the maps after the filter. -/
theorem C106_partial_dataset (k : ℤ) (h : Holds D name O v tn yn xn) (h' : Holds D' name' (O.turned k) v' tn' yn' xn') (hx : Ordered O.lon)
    (hy : Ordered O.lat) (nan nan' : Bool) :
    ∃ o o', newTracker D name nan = .ok o ∧ newTracker D' name' nan' = .ok o' ∧
      ∀ (s : SpaceFilter) (c : Criteria ℝ) (prunes : Bool) (nn : List (ℝ × ℝ) → ℝ × ℝ → Nat) (L : Libs) (t0 : Int) (tf : Option Int)
        (levels : List ℝ) (ntimes : Int) (online : Bool) (regs regs' : Regs Cols),
        ValidSetup s → ByDistance nn → c.skipGauss = true → L.Nearest → L.Proper → InSeries O t0 tf → StoreEmpty regs → StoreEmpty regs' →
        (∀ t ∈ trackTimes t0 tf O.T, ∀ l ∈ levels, l ≠ 0 → ∀ vs ∈ contourList L (O.seen s t.toNat) l,
          Cntr.skipsContour (vs.map (Option.map fun p => (p.1 + 360 * (k : ℝ), p.2))) = Cntr.skipsContour vs ∧
          ∀ pts : List (ℝ × ℝ), vs = pts.map some → ∀ v ∈ pts, ∃ p, (O.seen s t.toNat).ClearPixel (meanPt pts) v p) →
        ResRel (RunRel (SameRowOf (SameEddyAround k)))
          ({ o with setup := s, criteria := c }.timeTracking (colsEnv prunes nn) L t0 tf (.array levels) ntimes online regs).2
          ({ o' with setup := s, criteria := c }.timeTracking (colsEnv prunes nn) L t0 tf (.array levels) ntimes online regs').2 := by
  obtain ⟨o, o', g1, g2, g3⟩ := C126_dataset h h' rfl nan nan'
  refine ⟨o, o', g1, g2, fun s c prunes nn L t0 tf levels ntimes online regs regs' hs hnn hc hL hP hin hr hr' hv => ?_⟩
  have := g3 s c prunes nn L t0 tf levels id ntimes online regs regs' (SameEddyAround k) hs hnn (around_congruent k) (fun l => Iff.rfl) hin
    hr hr' fun t ht l hl h0 => ?_
  · rw [List.map_id] at this
    exact this
  · have hok : (O.seen s t.toNat).Ok := fields_ok _ _
    have hex : examine c L ((O.turned k).seen s t.toNat) (id l) = examine c L ((O.seen s t.toNat).around k) l :=
      funext fun vs => examine_same hP (seen_around O s t.toNat k) (Fields.around_ok hok k) c l vs
    rw [hex, show contourList L ((O.turned k).seen s t.toNat) (id l) = _ from contourList_same (seen_around O s t.toNat k) (Fields.around_ok hok k) l]
    refine (C106_partial hc hL hok (fields_rectilinear hx hy _) l k (hv t ht l hl h0)).2.1.imp fun o o' h => ?_
    cases o with
    | error a => cases o' <;> exact h
    | ok o =>
      cases o' with
      | error b => cases o <;> exact h
      | ok o' => cases o <;> cases o' <;> exact h

/-! ### the hypotheses can be met -/

/-- the map of Origin.lean, at `T` times -/
noncomputable def orSeries (T : ℕ) : Series where
  T := T
  lon := [-1 / 4, 1, 2, 13 / 4]
  lat := [-1 / 4, 1, 9 / 4]
  z _ r c := some (if r = 1 ∧ (c = 1 ∨ c = 2) then 1 else 0)

theorem orSeries_seen (T t : ℕ) : (orSeries T).seen flFilter t = orField := by
  unfold Spec.Series.seen Spec.Series.fields orField
  congr 1

theorem flSeries_seen (t : ℕ) : flSeries.seen flFilter t = mrField := by
  unfold Spec.Series.seen Spec.Series.fields mrField
  congr 1

/-- C125_partial_dataset and C106_partial_dataset: four times the map of Origin.lean; the first map alone gives rows -/
example : ∃ (nn : List (ℝ × ℝ) → ℝ × ℝ → Nat) (o o' o'' : Tracker),
    newTracker (storeSeries (orSeries 4)) "sla" false = .ok o ∧ newTracker (storeSeries (orSeries 4).acrossEquator) "sla" false = .ok o' ∧
    newTracker (storeSeries ((orSeries 4).turned 1)) "sla" false = .ok o'' ∧
    (∀ ntimes online, ResRel (RunRel (SameRowOf MirroredEddy))
      ({ o with setup := flFilter, criteria := exCriteria }.timeTracking (colsEnv true nn) exLibs 0 none (.array [3 / 5]) ntimes online Regs.empty).2
      ({ o' with setup := flFilter, criteria := exCriteria }.timeTracking (colsEnv true nn) exLibs 0 none (.array [3 / 5]) ntimes online Regs.empty).2) ∧
    (∀ ntimes online, ResRel (RunRel (SameRowOf (SameEddyAround 1)))
      ({ o with setup := flFilter, criteria := exCriteria }.timeTracking (colsEnv true nn) exLibs 0 none (.array [3 / 5]) ntimes online Regs.empty).2
      ({ o'' with setup := flFilter, criteria := exCriteria }.timeTracking (colsEnv true nn) exLibs 0 none (.array [3 / 5]) ntimes online Regs.empty).2) ∧
    ∃ (o1 : Tracker) (st : LoopState Cols), newTracker (storeSeries (orSeries 1)) "sla" false = .ok o1 ∧
      ({ o1 with criteria := exCriteria, setup := flFilter }.timeTracking (colsEnv true nn) exLibs 0 none (.array [3 / 5]) 1 true Regs.empty).2 = .ok st ∧
      st.table.rows ≠ [] := by
  obtain ⟨nn, h1, h2⟩ := exists_byDistance
  have hx : Ordered (orSeries 4).lon := Or.inl (by simp only [orSeries]; norm_num)
  have hy : Ordered (orSeries 4).lat := Or.inl (by simp only [orSeries]; norm_num)
  have hD := storeSeries_holds (orSeries 4) (by simp [orSeries, Spec.Series.ny]) (by simp [orSeries, Spec.Series.nx])
  have hD' := storeSeries_holds (orSeries 4).acrossEquator (by simp [orSeries, Spec.Series.acrossEquator, Spec.Series.ny])
    (by simp [orSeries, Spec.Series.acrossEquator, Spec.Series.nx])
  have hD'' := storeSeries_holds ((orSeries 4).turned 1) (by simp [orSeries, Spec.Series.turned, Spec.Series.ny])
    (by simp [orSeries, Spec.Series.turned, Spec.Series.nx])
  obtain ⟨o, o', g1, g2, g3⟩ := C125_partial_dataset hD hD' hx hy false false
  obtain ⟨p, o'', k1, k2, k3⟩ := C106_partial_dataset 1 hD hD'' hx hy false false
  obtain rfl : o = p := by rw [g1] at k1; injection k1
  refine ⟨nn, o, o', o'', g1, g2, k2, fun ntimes online => ?_, fun ntimes online => ?_, ?_⟩
  · refine g3 flFilter exCriteria true nn exLibs 0 none [3 / 5] ntimes online Regs.empty Regs.empty trivial h2 rfl le_rfl exLibs_nearest (Or.inl rfl)
      ⟨rfl, rfl⟩ ⟨rfl, rfl⟩ fun t _ l hl _ => ?_
    rw [List.mem_singleton] at hl
    subst hl
    rw [orSeries_seen]
    exact orReady
  · refine k3 flFilter exCriteria true nn exLibs 0 none [3 / 5] ntimes online Regs.empty Regs.empty trivial h2 rfl exLibs_nearest exLibs_proper (Or.inl rfl)
      ⟨rfl, rfl⟩ ⟨rfl, rfl⟩ fun t _ l hl _ => ?_
    rw [List.mem_singleton] at hl
    subst hl
    rw [orSeries_seen, orField_contours]
    intro vs hvs
    rw [List.mem_singleton] at hvs
    subst hvs
    refine ⟨orSkips.trans exSkips.symm, fun pts h => ?_⟩
    have : exPts = pts := List.map_injective_iff.2 (Option.some_injective _) h
    subst this
    exact fun v hv => ⟨_, orClear v hv⟩
  · obtain ⟨e, he⟩ := orStored
    obtain ⟨o1, st, q1, q2, q3⟩ := run_series_iff (O := orSeries 1) (s := flFilter) (c := exCriteria) (L := exLibs) (l := 3 / 5) rfl
      (by simp [orSeries, Spec.Series.ny]) (by simp [orSeries, Spec.Series.nx]) trivial h1 (by norm_num)
      (by rw [orSeries_seen]; exact orField_contours exLibs) (by rw [orSeries_seen]; exact he)
    exact ⟨o1, st, q1, q2, q3.2 ⟨e, rfl⟩⟩

/-- C105_partial_dataset: the map of Flip.lean, whose run gives rows -/
example : ∃ (nn : List (ℝ × ℝ) → ℝ × ℝ → Nat) (o o' : Tracker) (st st' : LoopState Cols),
    newTracker (storeSeries flSeries) "sla" false = .ok o ∧ newTracker (storeSeries (flSeries.times (-1))) "sla" false = .ok o' ∧
    ({ o with setup := flFilter, criteria := flCriteria 1 }.timeTracking (colsEnv true nn) mrLibs 0 none (.array [1 / 2]) 1 true Regs.empty).2 = .ok st ∧
    ({ o' with setup := flFilter, criteria := flCriteria 1 }.timeTracking (colsEnv true nn) mrLibs 0 none (.array ([1 / 2].map fun l => -l)) 1 true
      Regs.empty).2 = .ok st' ∧ st.table.rows ≠ [] ∧ RunRel (SameRowOf OppositeEddy) st st' := by
  obtain ⟨nn, h1, h2⟩ := exists_byDistance
  have hx : Ordered flSeries.lon := Or.inr (by simp only [flSeries]; norm_num)
  have hy : Ordered flSeries.lat := Or.inl (by simp only [flSeries]; norm_num)
  have hD := storeSeries_holds flSeries (by simp [flSeries, Spec.Series.ny]) (by simp [flSeries, Spec.Series.nx])
  have hD' := storeSeries_holds (flSeries.times (-1)) (by simp [flSeries, Spec.Series.times, Spec.Series.ny])
    (by simp [flSeries, Spec.Series.times, Spec.Series.nx])
  obtain ⟨o, o', g1, g2, g3⟩ := C105_partial_dataset hD hD' hx hy false false
  obtain ⟨e, he, -⟩ := flStoredUp (f := 1) (by norm_num)
  obtain ⟨o1, st, q1, q2, q3⟩ := run_series_iff (O := flSeries) (s := flFilter) (c := flCriteria 1) (L := mrLibs) (l := 1 / 2) rfl
    (by decide) (by decide) trivial h1 (by norm_num) (by rw [flSeries_seen]; exact mrField_contours mrLibs) (by rw [flSeries_seen]; exact he)
  obtain rfl : o = o1 := by rw [g1] at q1; injection q1
  have hr := g3 flFilter (flCriteria 1) true nn mrLibs 0 none [1 / 2] 1 true Regs.empty Regs.empty trivial h2 rfl le_rfl (Or.inl rfl)
      ⟨rfl, rfl⟩ ⟨rfl, rfl⟩ fun t _ l hl _ => by
    rw [List.mem_singleton] at hl
    subst hl
    rw [flSeries_seen]
    refine ⟨mrField_noTies, ?_⟩
    rw [mrField_contours]
    intro vs hvs
    rw [List.mem_singleton] at hvs
    subst hvs
    refine ⟨by simp [mrPts], fun pts h => ?_⟩
    have : mrPts = pts := List.map_injective_iff.2 (Option.some_injective _) h
    exact this ▸ mrChain
  rw [q2] at hr
  revert hr
  cases hst : ({ o' with setup := flFilter, criteria := flCriteria 1 }.timeTracking (colsEnv true nn) mrLibs 0 none (.array ([1 / 2].map fun l => -l)) 1 true
      Regs.empty).2 with
  | error a => exact fun h => h.elim
  | ok st' => exact fun h => ⟨nn, o, o', st, st', g1, g2, q2, hst, q3.2 ⟨e, rfl⟩, h⟩

end Trackeddy
