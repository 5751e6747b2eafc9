import Verif.Props.ApiMap
import Verif.Props.Closed

/-!
C114: what the package accepts with its default settings. C115: data that are not maps are refused.
-/
namespace Trackeddy
open Spec

variable {D : Dataset} {name : String} {O : Series} {v : Variable} {tn yn xn : String}

/-- **C114** A call with the settings of a new object (the Gaussian fit may be left out) on a dataset that stores a series of maps: each eddy of
the table at time `t` is a contour line of the data of this time minus their mean over squares of 11 by 11 grid points; its radius is at most `2π`
times the deformation radius at its centre; its ellipse has an eccentricity of at most 0.85 and an area within 8.5 % of that of the contour; the
score of the ellipse is at most 0.85; the score of the Gaussian, unless it is left out, is at least 0.8. -/
theorem C114_defaults (h : Holds D name O v tn yn xn) {nan : Bool} {o : Tracker} (ho : newTracker D name nan = .ok o) (skip : Bool)
    {Pt : Type} {E : Env Cols ℝ Pt} (hnn : IsNN E.dist E.nn) {L : Libs} {levels : List ℝ} {t0 : Int} {tf : Option Int} {ntimes : Int}
    {regs : Regs Cols} {st : LoopState Cols} (hin : InSeries O t0 tf) (hr : StoreEmpty regs)
    (hst : ({ o with criteria := { o.criteria with skipGauss := skip } }.timeTracking E L t0 tf (.array levels) ntimes true regs).2 = .ok st) :
    MadeOfT (fun t rows => ∃ d pts, rows = tableRows d ∧ HasContour d pts ∧
      OnContour (O.grid fun r c => (O.z t.toNat r c).map (· - squareMean O.ny O.nx 5 (O.z t.toNat) r c)) levels d ∧
      (∃ r, d.radius = some r ∧ r ≤ 2 * Real.pi * approxRD (centroid pts).2) ∧
      (∀ e, d.eccentricity = some e → e ≤ 0.85) ∧
      (∃ curve prm, fitEllipse pts = .ok (curve, prm) ∧
        |areaPolygon pts - areaPolygon curve| ≤ 1 / 10 ^ 8 + 0.085 * areaPolygon curve) ∧
      (∀ s, d.ellipseError = some s → s ≤ 0.85) ∧
      (skip = false → ∀ s, d.gaussError = some s → 0.8 ≤ s)) st.table.rows := by
  rw [h.new nan] at ho
  injection ho with ho
  subst ho
  rw [h.run_in (o := { freshTracker D v O nan with criteria := { (freshTracker D v O nan).criteria with skipGauss := skip } })
    ⟨rfl, rfl, rfl, rfl⟩ rfl trivial E L hin] at hst
  have hok : ∀ t ∈ trackTimes t0 tf O.T, (O.fields (anomaly defaultSetup O.ny O.nx (O.z t.toNat))).Ok := fun t _ => fields_ok _ _
  refine (trackFields_made hnn hok hr hst).mono ?_
  rintro t rows ⟨l, hl, hl0, vs, hvs, e, he, hre, ht⟩
  have hoc := stored_onContour (hok t ht) hl hl0 hvs he
  rw [fields_grid] at hoc
  have hne := contourList_ne L (hok t ht) l vs hvs
  obtain ⟨_, rfl, _⟩ := examine_stored.1 he
  have ha := stored_accepted (by simpa using hne) he
  obtain ⟨A, r, s1, s2, s3, s4, s5, s6⟩ := ha.size
  obtain ⟨a, b, curve, f1, f2, f3, f4, f5, f6, f7, f8, f9, f10⟩ := ha.ellipse
  have c1 : (freshTracker D v O nan).criteria.ellipseFit = 85 / 100 := rfl
  have c2 : (freshTracker D v O nan).criteria.eccen = 85 / 100 := rfl
  have c3 : (freshTracker D v O nan).criteria.gaussFit = 8 / 10 := rfl
  have c4 : (freshTracker D v O nan).criteria.maxArea = 2 * Real.pi := rfl
  simp only [c1, c2, c3, c4] at s6 f7 f8 f9
  refine ⟨e.data, e.contour, hre, rfl, hoc, ⟨r, s3, s6⟩, fun ec hec => ?_, ⟨curve, _, f1, ?_⟩, fun s hs => ?_, fun hsk s hs => ?_⟩
  · rcases (f4.trans f5).eq_or_lt with h0 | h0
    · rw [f6 h0.symm] at hec
      cases hec
    · obtain ⟨e', h1, _, _, _, h2⟩ := f7 h0
      rw [h1] at hec
      injection hec with hec
      subst hec
      norm_num at h2 ⊢
      linarith
  · refine f8.trans (le_of_eq ?_)
    norm_num
  · have := (f9 s hs).2.2
    norm_num at this ⊢
    linarith
  · have := ((ha.gauss.2 hsk).2 s hs).2.2
    simp only [c3] at this
    norm_num at this ⊢
    linarith

/-! ### C115 -/

/-- what the filters make of data that are not two-dimensional -/
theorem filtered_flat {o : Tracker} {u : Variable} (hu : u.dims.length ≠ 2) :
    (∃ e, o.filtered u = .error e) ∨ o.filtered u = .ok .flat ∨ o.filtered u = .ok .absent := by
  unfold Tracker.filtered
  split
  · rename_i hd
    rw [hd] at hu
    exact absurd rfl hu
  · split
    · exact Or.inr (Or.inl rfl)
    · exact Or.inr (Or.inr rfl)
    · cases spaceFilterFlat o.coords (u.dims.map Prod.fst) o.setup with
      | error e => exact Or.inl ⟨e, rfl⟩
      | ok x => exact Or.inr (Or.inl rfl)
    · cases spaceFilterFlat o.coords (u.dims.map Prod.fst) o.setup with
      | error e => exact Or.inl ⟨e, rfl⟩
      | ok x => exact Or.inr (Or.inr rfl)

/-- **C115** If at one of the times of the call the data, without the dimensions of size one, do not have two dimensions, `time_tracking` raises an
exception, whatever the settings of the object, for all levels that contain one other than zero. -/
theorem C115_not_a_map (o : Tracker) {Pt : Type} (E : Env Cols ℝ Pt) (L : Libs) {t0 : Int} {tf : Option Int} {ts : List Int}
    (hts : o.times t0 tf = .ok ts) {t : Int} (ht : t ∈ ts) {u : Variable} (hsn : o.snapshot t = .ok u) (hu : u.dims.length ≠ 2)
    {levels : List ℝ} (hl : ∃ l ∈ levels, l ≠ 0) (ntimes : Int) (online : Bool) (regs : Regs Cols) :
    ∃ e, (o.timeTracking E L t0 tf (.array levels) ntimes online regs).2 = .error e := by
  refine run_error hts ht fun r => ?_
  unfold Tracker.detect Levels.select
  simp only [hsn, Except.bind]
  obtain ⟨l, hl, hl0⟩ := hl
  cases hf : levels.filter fun x => decide (x ≠ 0) with
  | nil =>
    have : l ∈ levels.filter fun x => decide (x ≠ 0) := List.mem_filter.2 ⟨hl, decide_eq_true hl0⟩
    rw [hf] at this
    cases this
  | cons x xs =>
    rcases filtered_flat (o := o) hu with ⟨e, he⟩ | he | he <;> rw [he] <;> exact ⟨_, rfl⟩

/-- **C115** With the settings of a new object the exception is raised for all levels, also without any, and by the filter. -/
theorem C115_default_filter {nan : Bool} {o : Tracker} (ho : newTracker D name nan = .ok o) {Pt : Type} (E : Env Cols ℝ Pt) (L : Libs)
    {t0 : Int} {tf : Option Int} {ts : List Int} (hts : o.times t0 tf = .ok ts) {t : Int} (ht : t ∈ ts) {u : Variable}
    (hsn : o.snapshot t = .ok u) (hu : u.dims.length ≠ 2) (levels : Levels) (ntimes : Int) (online : Bool) (regs : Regs Cols) :
    ∃ e, (o.timeTracking E L t0 tf levels ntimes online regs).2 = .error e := by
  have hset : o.filter = .space ∧ o.setup = defaultSetup := by
    unfold newTracker lookup at ho
    simp only [bind, Except.bind, pure, Except.pure] at ho
    split at ho
    · cases ho
    · split at ho
      · cases ho
      · split at ho
        · cases ho
        · split at ho
          · cases ho
          · split at ho
            · cases ho
            · injection ho with ho
              subst ho
              exact ⟨rfl, rfl⟩
  refine run_error hts ht fun r => ?_
  have hfe : o.filtered u = .error .exception := by
    unfold Tracker.filtered
    split
    · rename_i hd
      rw [hd] at hu
      exact absurd rfl hu
    · rw [hset.1, hset.2]
      rfl
  unfold Tracker.detect
  rw [hsn]
  cases levels.select with
  | error e => exact ⟨_, rfl⟩
  | ok ls =>
    simp only [Except.bind, hfe]
    exact ⟨_, rfl⟩

/-! ### examples -/

/-- the maps: the example of Closed.lean plus a constant, which the default filter takes away -/
noncomputable def deSeries : Series where
  T := 1
  lon := [87, 90, 93]
  lat := [0, 3 / 5, 3]
  z _ r c := if r < 3 ∧ c < 3 then some ((if c = 1 then [3 / 4, 6 / 7].getD r 0 else 0) + 45 / 3136) else none

noncomputable def deVar : Variable where
  dims := [("time", 1), ("lat", 3), ("lon", 3)]
  get ix := deSeries.z (ix "time") (ix "lat") (ix "lon")

noncomputable def deDataset : Dataset where
  keys := ["ssh"]
  var n := if n = "ssh" then some deVar else none
  coord n := if n = "lon" then some (.d1 [87, 90, 93]) else if n = "lat" then some (.d1 [0, 3 / 5, 3]) else none

theorem deHolds : Holds deDataset "ssh" deSeries deVar "time" "lat" "lon" where
  var := rfl
  nodup := by simp [deVar]
  time := by simp [deVar, deSeries]
  rest := by simp [deVar, deSeries, Spec.Series.ny, Spec.Series.nx]
  roles := by decide +kernel
  unique := by
    intro p hp
    simp only [deVar, List.mem_cons, List.not_mem_nil, or_false] at hp
    rcases hp with rfl | rfl | rfl <;> simp only <;> decide +kernel
  keys := by
    left
    show ∀ k ∈ ["ssh"], _
    decide +kernel
  lon := rfl
  lat := rfl
  values := fun ix _ => rfl

theorem deAnomaly (t : ℕ) : deSeries.fields (anomaly defaultSetup 3 3 (deSeries.z t)) = opField := by
  have hm : ∀ r < 3, ∀ c < 3, squareMean 3 3 5 (deSeries.z t) r c = 45 / 3136 := by
    intro r hr c hc
    have hs : square 3 3 5 r c = Finset.range 3 ×ˢ Finset.range 3 := by
      unfold square
      rw [Finset.filter_true_of_mem]
      intro p hp
      simp only [Finset.mem_product, Finset.mem_range] at hp
      omega
    have hn : ((square 3 3 5 r c).filter fun p => deSeries.z t p.1 p.2 = none) = ∅ := by
      rw [hs, Finset.filter_false_of_mem]
      intro p hp
      simp only [Finset.mem_product, Finset.mem_range] at hp
      simp [deSeries, hp]
    unfold squareMean
    rw [hn, hs, Finset.sum_product]
    simp only [Finset.sum_range_succ, Finset.sum_range_zero, deSeries]
    norm_num
  unfold Spec.Series.fields opField fldArr toFld
  congr 2
  funext r c
  by_cases h : r < 3 ∧ c < 3
  · have h' : r < deSeries.ny ∧ c < deSeries.nx := h
    rw [dif_pos h', if_pos h]
    show (deSeries.z t r c).map (· - squareMean 3 3 5 (deSeries.z t) r c) = _
    rw [hm r h.1 c h.2]
    simp only [deSeries, if_pos h, Option.map_some, Option.some.injEq]
    ring
  · have h' : ¬ (r < deSeries.ny ∧ c < deSeries.nx) := h
    rw [dif_neg h', if_neg h]

/-- the hypotheses of `C114_defaults` hold for a dataset in which an eddy is found, without the Gaussian fit -/
example : ∃ (o : Tracker) (nn : List (ℝ × ℝ) → ℝ × ℝ → Nat) (st : LoopState Cols), newTracker deDataset "ssh" false = .ok o ∧
    IsNN (colsEnv true nn).dist (colsEnv true nn).nn ∧ InSeries deSeries 0 none ∧
    ({ o with criteria := { o.criteria with skipGauss := true } }.timeTracking (colsEnv true nn) exLibs 0 none (.array [1 / 2]) 1 true
      Regs.empty).2 = .ok st ∧ st.table.rows ≠ [] := by
  obtain ⟨nn, hnn⟩ := exists_isNN haversine
  obtain ⟨e, he⟩ := opStored
  obtain ⟨s, h1, h2⟩ := run_single hnn (by norm_num) opField_ok (opField_contours exLibs) he
  have hin : InSeries deSeries 0 none := Or.inl rfl
  refine ⟨_, nn, s, deHolds.new false, hnn, hin, ?_, h2.2 ⟨e, rfl⟩⟩
  rw [deHolds.run_in (o := { freshTracker deDataset deVar deSeries false with
    criteria := { (freshTracker deDataset deVar deSeries false).criteria with skipGauss := true } }) ⟨rfl, rfl, rfl, rfl⟩ rfl trivial _ _ hin]
  have e1 : (fun t : Int => deSeries.fields (anomaly defaultSetup deSeries.ny deSeries.nx (deSeries.z t.toNat))) = fun _ => opField :=
    funext fun t => deAnomaly t.toNat
  show (trackFields _ _ _ (fun t : Int => deSeries.fields (anomaly defaultSetup deSeries.ny deSeries.nx (deSeries.z t.toNat))) _ _ _ _ _ _ _).2 = _
  rw [e1]
  exact h1

/-- a variable with a depth -/
noncomputable def dpVar : Variable where
  dims := [("time", 1), ("depth", 2), ("lat", 3), ("lon", 3)]
  get ix := deSeries.z (ix "time") (ix "lat") (ix "lon")

noncomputable def dpDataset : Dataset := { deDataset with var := fun n => if n = "temp" then some dpVar else none }

/-- the constructor accepts the variable, and the hypotheses of `C115_not_a_map` and `C115_default_filter` hold -/
example : ∃ o u, newTracker dpDataset "temp" false = .ok o ∧ o.times 0 none = .ok [0] ∧ o.snapshot 0 = .ok u ∧ u.dims.length ≠ 2 := by
  have hc : identifyCoords (dpVar.dims.map Prod.fst) dpDataset.keys = ⟨"time", "lon", "lat", none, none⟩ := by
    show identifyCoords ["time", "depth", "lat", "lon"] ["ssh"] = _
    decide +kernel
  have hn : ∃ X Y, newTracker dpDataset "temp" false =
      .ok ⟨dpVar, false, .space, ⟨"time", "lon", "lat", none, none⟩, X, Y, defaultCriteria, defaultSetup⟩ := by
    have hv : lookup dpDataset.var "temp" = .ok dpVar := by simp [lookup, dpDataset]
    have hx : lookup dpDataset.coord "lon" = .ok (.d1 [87, 90, 93]) := by simp [lookup, dpDataset, deDataset]
    have hy : lookup dpDataset.coord "lat" = .ok (.d1 [0, 3 / 5, 3]) := by simp [lookup, dpDataset, deDataset]
    have hch : chooseCoords ⟨"time", "lon", "lat", none, none⟩ = .ok ("lon", "lat") := by decide +kernel
    unfold newTracker
    simp only [hv, hc, hch, hx, hy, bind, Except.bind, pure, Except.pure, coordArrays]
    exact ⟨_, _, rfl⟩
  obtain ⟨X, Y, hn⟩ := hn
  refine ⟨_, (⟨dpVar.dims.filter fun p => p.1 ≠ "time", fun ix => dpVar.get fun d => if d = "time" then 0 else ix d⟩ : Variable).squeeze, hn, ?_, ?_, ?_⟩
  · have ht : trackTimes 0 none 1 = [0] := by decide
    simp [Tracker.times, dpVar, ht]
  · simp only [Tracker.snapshot, Variable.isel, dpVar]
    simp [Except.map]
  · simp [Variable.squeeze, dpVar]

end Trackeddy
