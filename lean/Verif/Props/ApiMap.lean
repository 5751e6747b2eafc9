import Verif.Props.ApiExample

/-!
C96 (datasets without time) and C98 (the documented filters can be used).
-/
namespace Trackeddy
open Spec
open Cntr (Vertex SameShape arrGrid Full)

variable {D : Dataset} {name : String} {O : Series} {v : Variable} {tn yn xn : String}

/-! ### C96 -/

/-- The dataset stores a single map, the first of the series, without a dimension for the time. -/
structure HoldsMap (D : Dataset) (name : String) (O : Series) (v : Variable) (yn xn : String) : Prop where
  var : D.var name = some v
  nodup : (v.dims.map Prod.fst).Nodup
  rest : v.dims.filter (fun p => p.2 ≠ 1) = [(yn, O.ny), (xn, O.nx)]
  roles : IsDim .lat yn ∧ IsDim .lon xn
  unique : ∀ p ∈ v.dims, ¬ IsDim .time p.1 ∧ (IsDim .lat p.1 → p.1 = yn) ∧ (IsDim .lon p.1 → p.1 = xn)
  keys : (∀ k ∈ D.keys, ¬ IsVar .lon k) ∨ ∀ k ∈ D.keys, ¬ IsVar .lat k
  lon : D.coord xn = some (.d1 O.lon)
  lat : D.coord yn = some (.d1 O.lat)
  values : ∀ ix : String → ℕ, (∀ p ∈ v.dims, ix p.1 < p.2) → v.get ix = O.z 0 (ix yn) (ix xn)

theorem HoldsMap.dims_mem (h : HoldsMap D name O v yn xn) : (yn, O.ny) ∈ v.dims ∧ (xn, O.nx) ∈ v.dims ∧ yn ≠ xn ∧
    O.ny ≠ 1 ∧ O.nx ≠ 1 := by
  have h1 : (yn, O.ny) ∈ v.dims.filter (fun p => p.2 ≠ 1) := by rw [h.rest]; simp
  have h2 : (xn, O.nx) ∈ v.dims.filter (fun p => p.2 ≠ 1) := by rw [h.rest]; simp
  have h3 : ((v.dims.filter (fun p => p.2 ≠ 1)).map Prod.fst).Nodup := h.nodup.sublist (List.filter_sublist.map _)
  rw [h.rest] at h3
  simp only [List.map_cons, List.map_nil, List.nodup_cons, List.mem_singleton] at h3
  simp only [List.mem_filter, decide_eq_true_eq] at h1 h2
  exact ⟨h1.1, h2.1, h3.1, h1.2, h2.2⟩

theorem HoldsMap.coords (h : HoldsMap D name O v yn xn) :
    (identifyCoords (v.dims.map Prod.fst) D.keys).time = "" ∧ (identifyCoords (v.dims.map Prod.fst) D.keys).x = xn ∧
    (identifyCoords (v.dims.map Prod.fst) D.keys).y = yn ∧
    chooseCoords (identifyCoords (v.dims.map Prod.fst) D.keys) = .ok (xn, yn) := by
  obtain ⟨h1, h2, -⟩ := h.dims_mem
  have m2 : yn ∈ v.dims.map Prod.fst := List.mem_map.2 ⟨_, h1, rfl⟩
  have m3 : xn ∈ v.dims.map Prod.fst := List.mem_map.2 ⟨_, h2, rfl⟩
  have u : ∀ d ∈ v.dims.map Prod.fst, ¬ IsDim .time d ∧ (IsDim .lat d → d = yn) ∧ (IsDim .lon d → d = xn) := by
    intro d hd
    obtain ⟨p, hp, rfl⟩ := List.mem_map.1 hd
    exact h.unique p hp
  refine ⟨C44_absent _ _ .time fun d hd => (u d hd).1, C44_unique _ _ .lon xn m3 h.roles.2 fun d hd => (u d hd).2.2,
    C44_unique _ _ .lat yn m2 h.roles.1 fun d hd => (u d hd).2.1,
    C44_grid_names _ _ xn yn m3 m2 h.roles.2 h.roles.1 (fun d hd => (u d hd).2.2) (fun d hd => (u d hd).2.1) h.keys⟩

theorem HoldsMap.new (h : HoldsMap D name O v yn xn) (nan : Bool) : newTracker D name nan = .ok (freshTracker D v O nan) := by
  unfold newTracker lookup
  simp only [h.var, bind, Except.bind, pure, Except.pure, h.coords.2.2.2, h.lon, h.lat, coordArrays]
  rfl

/-- the map is selected whatever the time -/
theorem HoldsMap.filtered_eq (h : HoldsMap D name O v yn xn) {o : Tracker} (ho : o.raw = v)
    (hc : o.coords = identifyCoords (v.dims.map Prod.fst) D.keys) (t : Int) :
    (o.snapshot t).bind o.filtered =
      (filterData o.nanTreatment o.setup o.filter (toFld O.ny O.nx (O.z 0))).map trackedOf := by
  obtain ⟨d1, d2, n3, n4, n5⟩ := h.dims_mem
  obtain ⟨c0, c1, c2, -⟩ := h.coords
  have uniq : ∀ {n : String} {a b : ℕ}, (n, a) ∈ v.dims → (n, b) ∈ v.dims → a = b := by
    intro n a b ha hb
    have := (find_dim h.nodup ha).symm.trans (find_dim h.nodup hb)
    simpa using this
  have hsnap : o.snapshot t = .ok v.squeeze := by
    unfold Tracker.snapshot
    rw [hc, c0, if_neg (by simp), ho]
  have hdims : v.squeeze.dims = [(yn, O.ny), (xn, O.nx)] := h.rest
  have hfld : v.squeeze.fld yn xn O.ny O.nx = toFld O.ny O.nx (O.z 0) := by
    funext r c
    unfold Variable.fld Variable.squeeze toFld
    simp only
    rw [h.values]
    · have a2 : (yn, 1) ∉ v.dims := fun hm => n4 (uniq d1 hm)
      have a3 : (xn, 1) ∉ v.dims := fun hm => n5 (uniq d2 hm)
      rw [if_neg a2, if_neg a3, if_pos rfl, if_neg (Ne.symm n3), if_pos rfl]
    · intro p hp
      by_cases e2 : (p.1, 1) ∈ v.dims
      · rw [if_pos e2]
        have : p.2 = 1 := uniq (show (p.1, p.2) ∈ v.dims from hp) e2
        omega
      · rw [if_neg e2]
        have e3 : p.2 ≠ 1 := by
          intro e
          apply e2
          rw [← e]
          exact hp
        have e4 : p ∈ v.dims.filter (fun p => p.2 ≠ 1) := by
          rw [List.mem_filter]
          exact ⟨hp, by simp [e3]⟩
        rw [h.rest] at e4
        simp only [List.mem_cons, List.not_mem_nil, or_false] at e4
        rcases e4 with rfl | rfl
        · simp
        · simp [Ne.symm n3]
  have hax : alongAxis o.coords yn xn o.setup = .ok o.setup := by
    unfold alongAxis
    rw [hc, c1, c2]
    cases o.setup <;> simp
  rw [hsnap]
  simp only [Except.bind]
  unfold Tracker.filtered
  rw [hdims]
  simp only [hfld, hax, Except.bind]
  cases o.filter <;> rfl

/-- **C96** is false: on a dataset without a time dimension, which the constructor accepts, `time_tracking` with the default `tf`
raises `KeyError`, whatever the other arguments and settings. -/
theorem C96_refuted (h : HoldsMap D name O v yn xn) (nan : Bool) :
    ∃ o, newTracker D name nan = .ok o ∧
      ∀ (f : FilterName) (s : SpaceFilter) (c : Criteria ℝ) {Pt : Type} (E : Env Cols ℝ Pt) (L : Libs) (t0 : Int) (tf : Option Int)
        (levels : Levels) (ntimes : Int) (online : Bool) (regs : Regs Cols), tf = none ∨ tf = some 0 →
        { o with filter := f, setup := s, criteria := c }.timeTracking E L t0 tf levels ntimes online regs =
          (regs, .error .keyError) := by
  refine ⟨_, h.new nan, fun f s c Pt E L t0 tf levels ntimes online regs htf => ?_⟩
  unfold Tracker.timeTracking Tracker.times
  rw [if_pos htf]
  have hc : (freshTracker D v O nan).coords.time = "" := h.coords.1
  have : ((freshTracker D v O nan).raw.dims.find? fun p => p.1 = (freshTracker D v O nan).coords.time ∧
      (freshTracker D v O nan).coords.time ≠ "") = none := by
    rw [hc]
    simp
  simp only [this]

/-- **C96** (partial) With `tf` given, the map is analysed: the result, or the exception, is that for a dataset that stores the map
with a time dimension of size one. Missing: the default `tf`. -/
theorem C96_partial (h : HoldsMap D name O v yn xn) {D' : Dataset} {name' : String} {v' : Variable} {tn' yn' xn' : String}
    (h' : Holds D' name' O v' tn' yn' xn') (hT : O.T = 1) (nan : Bool) :
    ∃ o o', newTracker D name nan = .ok o ∧ newTracker D' name' nan = .ok o' ∧
      ∀ (f : FilterName) (s : SpaceFilter) (c : Criteria ℝ) {Pt : Type} (E : Env Cols ℝ Pt) (L : Libs) (levels : Levels) (ntimes : Int)
        (online : Bool) (regs : Regs Cols),
        { o with filter := f, setup := s, criteria := c }.timeTracking E L 0 (some 1) levels ntimes online regs =
          { o' with filter := f, setup := s, criteria := c }.timeTracking E L 0 (some 1) levels ntimes online regs := by
  refine ⟨_, _, h.new nan, h'.new nan, fun f s c Pt E L levels ntimes online regs => ?_⟩
  have hd : { freshTracker D v O nan with filter := f, setup := s, criteria := c }.detect E L levels 0 =
      { freshTracker D' v' O nan with filter := f, setup := s, criteria := c }.detect E L levels 0 := by
    funext r
    have e1 := h.filtered_eq (o := { freshTracker D v O nan with filter := f, setup := s, criteria := c }) rfl rfl 0
    have e2 := h'.filtered_eq (o := { freshTracker D' v' O nan with filter := f, setup := s, criteria := c }) rfl rfl 0
    rw [if_pos (by rw [hT]; norm_num)] at e2
    unfold Tracker.detect
    rw [e1, e2]
    rfl
  have ht : ∀ o : Tracker, o.times 0 (some 1) = .ok [0] := by
    intro o
    unfold Tracker.times
    rw [if_neg (by simp)]
    rfl
  unfold Tracker.timeTracking
  simp only [ht, List.foldl_cons, List.foldl_nil, hd]

/-- **C96** continued: with a larger `tf` the same map is analysed at each time. -/
theorem C96_repeated (h : HoldsMap D name O v yn xn) {nan : Bool} {o : Tracker} (ho : newTracker D name nan = .ok o) {s : SpaceFilter}
    {c : Criteria ℝ} (hs : ValidSetup s) {Pt : Type} (E : Env Cols ℝ Pt) (L : Libs) (t0 tf : Int) (hz : tf ≠ 0) (levels : List ℝ)
    (ntimes : Int) (online : Bool) (regs : Regs Cols) :
    { o with setup := s, criteria := c }.timeTracking E L t0 (some tf) (.array levels) ntimes online regs =
      trackFields E c L (fun _ => O.fields (anomaly s O.ny O.nx (O.z 0))) levels t0 (some tf) O.T ntimes online regs := by
  rw [h.new nan] at ho
  injection ho with ho
  subst ho
  refine timeTracking_eq (o := { freshTracker D v O nan with setup := s, criteria := c }) ?_ fun t hm r => ?_
  · unfold Tracker.times
    rw [if_neg (by simp [hz]), trackTimes_some hz, trackTimes_some hz]
  · have := h.filtered_eq (o := { freshTracker D v O nan with setup := s, criteria := c }) rfl rfl t
    have hf : (filterData nan s (freshTracker D v O nan).filter (toFld O.ny O.nx (O.z 0))).map trackedOf = _ :=
      filterData_space hs nan O.ny O.nx (O.z 0)
    exact (detect_field (o := { freshTracker D v O nan with setup := s, criteria := c }) E L levels (this.trans hf) r).trans rfl

/-- a dataset with a single map -/
noncomputable def exMapVar : Variable where
  dims := [("latitude", 3), ("depth", 1), ("longitude", 4)]
  get ix := (exSeries 1).z 0 (ix "latitude") (ix "longitude")

noncomputable def exMapDataset : Dataset where
  keys := ["sla"]
  var n := if n = "sla" then some exMapVar else none
  coord n := if n = "longitude" then some (.d1 [0, 1, 2, 3]) else if n = "latitude" then some (.d1 [0, 1, 2]) else none

theorem exMap_holds : HoldsMap exMapDataset "sla" (exSeries 1) exMapVar "latitude" "longitude" where
  var := rfl
  nodup := by simp [exMapVar]
  rest := by simp [exMapVar, exSeries, Spec.Series.ny, Spec.Series.nx]
  roles := by decide +kernel
  unique := by
    intro p hp
    simp only [exMapVar, List.mem_cons, List.not_mem_nil, or_false] at hp
    rcases hp with rfl | rfl | rfl <;> simp only <;> decide +kernel
  keys := by
    left
    show ∀ k ∈ ["sla"], _
    decide +kernel
  lon := rfl
  lat := rfl
  values := fun ix _ => rfl

/-- C96: the eddy is found with `tf=1`, and not with the default -/
example : ∃ (nn : List (ℝ × ℝ) → ℝ × ℝ → Nat) (o : Tracker) (s : LoopState Cols), newTracker exMapDataset "sla" false = .ok o ∧
    ({ o with criteria := exCriteria }.timeTracking (colsEnv true nn) exLibs 0 (some 1) (.array [1 / 2]) 1 true Regs.empty).2 = .ok s ∧
    s.table.rows ≠ [] ∧
    ({ o with criteria := exCriteria }.timeTracking (colsEnv true nn) exLibs 0 none (.array [1 / 2]) 1 true Regs.empty).2 =
      .error .keyError := by
  obtain ⟨nn, hnn⟩ := exists_isNN haversine
  obtain ⟨s, hs⟩ := exLongRun hnn (f := 1) (by norm_num) 1 1
  refine ⟨nn, _, s, exMap_holds.new false, ?_, exLongRun_ne hnn (by norm_num) hs, ?_⟩
  · have := C96_repeated exMap_holds (exMap_holds.new false) (s := defaultSetup) (c := exCriteria) trivial (colsEnv true nn) exLibs 0 1
      one_ne_zero [1 / 2] 1 true Regs.empty
    rw [show ((exSeries 1).fields (anomaly defaultSetup (exSeries 1).ny (exSeries 1).nx ((exSeries 1).z 0))) = exField from
      exAnomaly 1 0] at this
    exact (congrArg Prod.snd this).trans hs
  · obtain ⟨o, ho, h⟩ := C96_refuted exMap_holds false
    rw [exMap_holds.new] at ho
    injection ho with ho
    subst ho
    exact congrArg Prod.snd (h .space defaultSetup exCriteria (colsEnv true nn) exLibs 0 none (.array [1 / 2]) 1 true Regs.empty
      (Or.inl rfl))

/-! ### C98 -/

theorem squeeze_dims (v : Variable) : ∀ p ∈ v.squeeze.dims, p ∈ v.dims := fun p hp => (List.mem_filter.1 hp).1

theorem isel_dims {v u : Variable} {n : String} {t : Int} (h : v.isel n t = .ok u) : ∀ p ∈ u.dims, p ∈ v.dims := by
  unfold Variable.isel at h
  split at h
  · cases h
  · split at h
    · injection h with h
      subst h
      exact fun p hp => (List.mem_filter.1 hp).1
    · cases h

theorem snapshot_dims {o : Tracker} {t : Int} {u : Variable} (h : o.snapshot t = .ok u) : ∀ p ∈ u.dims, p ∈ o.raw.dims := by
  unfold Tracker.snapshot at h
  split_ifs at h
  · cases hi : o.raw.isel o.coords.time t with
    | error e => rw [hi] at h; cases h
    | ok w =>
      rw [hi] at h
      injection h with h
      subst h
      exact fun p hp => isel_dims hi p (squeeze_dims w p hp)
  · injection h with h
    subst h
    exact squeeze_dims _

/-- a filter along a dimension that the variable does not have raises an exception -/
theorem filtered_no_dim {o : Tracker} (hf : o.filter = .space ∨ o.filter = .both) {u : Variable}
    (h : o.setup = .meridional ∧ (∀ p ∈ u.dims, p.1 ≠ o.coords.x) ∨ o.setup = .zonal ∧ ∀ p ∈ u.dims, p.1 ≠ o.coords.y) :
    o.filtered u = .error .valueError := by
  unfold Tracker.filtered
  split
  · rename_i d1 ny d2 nx hd
    have hax : alongAxis o.coords d1 d2 o.setup = .error .valueError := by
      rw [hd] at h
      unfold alongAxis
      rcases h with ⟨hs, hn⟩ | ⟨hs, hn⟩
      · have a := hn (d1, ny) (by simp)
        have b := hn (d2, nx) (by simp)
        rw [hs]
        simp only
        rw [if_neg (Ne.symm b), if_neg (Ne.symm a)]
      · have a := hn (d1, ny) (by simp)
        have b := hn (d2, nx) (by simp)
        rw [hs]
        simp only
        rw [if_neg (Ne.symm a), if_neg (Ne.symm b)]
    rcases hf with hf | hf <;> rw [hf, hax] <;> rfl
  · have hfl : spaceFilterFlat o.coords (u.dims.map Prod.fst) o.setup = .error .valueError := by
      unfold spaceFilterFlat
      rcases h with ⟨hs, hn⟩ | ⟨hs, hn⟩
      · rw [hs]
        simp only
        rw [if_neg]
        intro hm
        obtain ⟨p, hp, he⟩ := List.mem_map.1 hm
        exact hn p hp he
      · rw [hs]
        simp only
        rw [if_neg]
        intro hm
        obtain ⟨p, hp, he⟩ := List.mem_map.1 hm
        exact hn p hp he
    rcases hf with hf | hf <;> rw [hf] <;> simp only [hfl] <;> rfl

/-- **C98** is false: if no dimension of the variable is recognised as longitude, every call with the filter `meridional` raises an
exception; the same for latitude and `zonal`. The constructor accepts such datasets if longitude and latitude are variables. -/
theorem C98_refuted {nan : Bool} {o : Tracker} (ho : newTracker D name nan = .ok o) (hv : D.var name = some v)
    (hne : ∀ p ∈ v.dims, p.1 ≠ "") {s : SpaceFilter}
    (hs : s = .meridional ∧ (∀ p ∈ v.dims, ¬ IsDim .lon p.1) ∨ s = .zonal ∧ ∀ p ∈ v.dims, ¬ IsDim .lat p.1)
    (c : Criteria ℝ) {Pt : Type} (E : Env Cols ℝ Pt) (L : Libs) (t0 : Int) (tf : Option Int) (levels : Levels) (ntimes : Int)
    (online : Bool) (regs : Regs Cols) (t : Int) (ts : List Int) (hts : o.times t0 tf = .ok (t :: ts)) :
    ∃ e, ({ o with setup := s, criteria := c }.timeTracking E L t0 tf levels ntimes online regs).2 = .error e := by
  have hts' : { o with setup := s, criteria := c }.times t0 tf = .ok (t :: ts) := hts
  refine run_error hts' List.mem_cons_self fun r => ?_
  have hraw : o.raw = v ∧ o.filter = .space ∧ o.coords = identifyCoords (v.dims.map Prod.fst) D.keys := by
    unfold newTracker lookup at ho
    rw [hv] at ho
    simp only [bind, Except.bind, pure, Except.pure] at ho
    split at ho
    · cases ho
    · split at ho
      · cases ho
      · split at ho
        · cases ho
        · split at ho
          · cases ho
          · injection ho with ho
            subst ho
            exact ⟨rfl, rfl, rfl⟩
  have key : ∃ e, ({ o with setup := s, criteria := c }.snapshot t).bind { o with setup := s, criteria := c }.filtered = .error e := by
    cases hu : { o with setup := s, criteria := c }.snapshot t with
    | error e => exact ⟨e, rfl⟩
    | ok u =>
      refine ⟨.valueError, filtered_no_dim (o := { o with setup := s, criteria := c }) (u := u) (Or.inl hraw.2.1) ?_⟩
      have hd := snapshot_dims hu
      rcases hs with ⟨rfl, hs⟩ | ⟨rfl, hs⟩
      · left
        refine ⟨rfl, fun p hp => ?_⟩
        have hp' : p ∈ v.dims := hraw.1 ▸ hd p hp
        have : o.coords.x = "" := by
          rw [hraw.2.2]
          refine C44_absent _ _ .lon fun d hd' => ?_
          obtain ⟨q, hq, rfl⟩ := List.mem_map.1 hd'
          exact hs q hq
        show p.1 ≠ o.coords.x
        rw [this]
        exact hne p hp'
      · right
        refine ⟨rfl, fun p hp => ?_⟩
        have hp' : p ∈ v.dims := hraw.1 ▸ hd p hp
        have : o.coords.y = "" := by
          rw [hraw.2.2]
          refine C44_absent _ _ .lat fun d hd' => ?_
          obtain ⟨q, hq, rfl⟩ := List.mem_map.1 hd'
          exact hs q hq
        show p.1 ≠ o.coords.y
        rw [this]
        exact hne p hp'
  obtain ⟨e, he⟩ := key
  unfold Tracker.detect
  rw [he]
  cases levels.select with
  | error e => exact ⟨_, rfl⟩
  | ok ls => exact ⟨_, rfl⟩

/-- **C98** (partial) For a dataset that stores a series with dimensions recognised as latitude and longitude, the filters `uniform`,
`meridional` and `zonal` never raise an exception: each call is the detection and tracking on the anomalies. The mode `gaussian` and
other names of filters always raise one. Missing: datasets without these dimensions. -/
theorem C98_partial (h : Holds D name O v tn yn xn) {nan : Bool} {o : Tracker} (ho : newTracker D name nan = .ok o) (s : SpaceFilter)
    (c : Criteria ℝ) {Pt : Type} (E : Env Cols ℝ Pt) (L : Libs) {t0 : Int} {tf : Option Int} (ht : InSeries O t0 tf)
    (levels : List ℝ) (ntimes : Int) (online : Bool) (regs : Regs Cols) :
    (ValidSetup s → { o with setup := s, criteria := c }.timeTracking E L t0 tf (.array levels) ntimes online regs =
      trackFields E c L (fun t => O.fields (anomaly s O.ny O.nx (O.z t.toNat))) levels t0 tf O.T ntimes online regs) ∧
    (¬ ValidSetup s → trackTimes t0 tf O.T ≠ [] →
      ∃ e, ({ o with setup := s, criteria := c }.timeTracking E L t0 tf (.array levels) ntimes online regs).2 = .error e) := by
  rw [h.new nan] at ho
  injection ho with ho
  subst ho
  refine ⟨fun hs => h.run_in ⟨rfl, rfl, rfl, rfl⟩ rfl hs E L ht levels ntimes online regs, fun hs hne => ?_⟩
  obtain ⟨t, hm⟩ := List.exists_mem_of_ne_nil _ hne
  refine run_error (h.times (o := { freshTracker D v O nan with setup := s, criteria := c }) rfl rfl t0 tf) hm fun r => ?_
  have hr := ht.range t hm
  have hf := h.filtered_eq (o := { freshTracker D v O nan with setup := s, criteria := c }) rfl rfl t
  rw [if_pos ⟨by omega, hr.2⟩] at hf
  obtain ⟨e, he⟩ := (spaceFilter_anomaly s O.ny O.nx (O.z (timeIndex O.T t))).2 hs
  have hsp : (filterData nan s (freshTracker D v O nan).filter (toFld O.ny O.nx (O.z (timeIndex O.T t)))).map trackedOf = .error e := by
    show (filterData nan s .space (toFld O.ny O.nx (O.z (timeIndex O.T t)))).map trackedOf = .error e
    simp only [filterData, filterFunc, he, Except.map]
  replace hf := hf.trans hsp
  unfold Tracker.detect Levels.select
  rw [hf]
  exact ⟨_, rfl⟩

/-- longitude and latitude as data variables on other dimensions -/
noncomputable def exCurvi : Dataset where
  keys := ["sla", "nav_lon", "nav_lat"]
  var n := if n = "sla" then some ⟨[("time", 1), ("j", 2), ("i", 2)], fun _ => some 0⟩ else none
  coord n := if n = "nav_lon" then some (.d2 [[0, 1], [0, 1]]) else if n = "nav_lat" then some (.d2 [[0, 0], [1, 1]]) else none

/-- C98_refuted: the hypotheses hold for a curvilinear grid -/
example : ∃ o, newTracker exCurvi "sla" false = .ok o ∧ o.times 0 none = .ok [0] ∧
    (∀ p ∈ [("time", 1), ("j", 2), ("i", 2)], p.1 ≠ "") ∧ (∀ p ∈ [("time", 1), ("j", 2), ("i", 2)], ¬ IsDim .lon p.1) := by
  have hc : identifyCoords ["time", "j", "i"] ["sla", "nav_lon", "nav_lat"] = ⟨"time", "", "", some "nav_lon", some "nav_lat"⟩ := by
    decide +kernel
  have hn : newTracker exCurvi "sla" false = .ok ⟨⟨[("time", 1), ("j", 2), ("i", 2)], fun _ => some 0⟩, false, .space,
      identifyCoords ["time", "j", "i"] ["sla", "nav_lon", "nav_lat"], rowsArr [[0, 1], [0, 1]], rowsArr [[0, 0], [1, 1]],
      defaultCriteria, defaultSetup⟩ := by
    unfold newTracker lookup exCurvi
    simp only [bind, Except.bind, pure, Except.pure, if_true, List.map_cons, List.map_nil, hc, chooseCoords, coordArrays]
    rfl
  refine ⟨_, hn, ?_, by decide, by decide +kernel⟩
  rw [hc]
  unfold Tracker.times
  rw [if_pos (Or.inl rfl)]
  simp
  decide

/-- C44: longitude and latitude as data variables -/
example : chooseCoords (identifyCoords ["time", "lat", "lon"] ["nav_lat", "sla", "nav_lon"]) = .ok ("nav_lon", "nav_lat") :=
  C44_grid_variables _ _ "nav_lon" "nav_lat" (by decide) (by decide) (by decide +kernel) (by decide +kernel) (by decide +kernel)
    (by decide +kernel)

end Trackeddy
