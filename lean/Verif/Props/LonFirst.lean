import Verif.Props.ApiMap

/-!
C104: data stored with the longitude before the latitude.
-/
namespace Trackeddy
open Spec

variable {D : Dataset} {name : String} {O : Series} {v : Variable} {tn yn xn : String}

/-- The dataset stores the series like `Holds`, with the longitudes before the latitudes. -/
structure HoldsLonFirst (D : Dataset) (name : String) (O : Series) (v : Variable) (tn yn xn : String) : Prop where
  var : D.var name = some v
  nodup : (v.dims.map Prod.fst).Nodup
  time : (tn, O.T) ∈ v.dims
  rest : v.dims.filter (fun p => p.1 ≠ tn ∧ p.2 ≠ 1) = [(xn, O.nx), (yn, O.ny)]
  roles : IsDim .time tn ∧ IsDim .lat yn ∧ IsDim .lon xn
  unique : ∀ p ∈ v.dims, (IsDim .time p.1 → p.1 = tn) ∧ (IsDim .lat p.1 → p.1 = yn) ∧ (IsDim .lon p.1 → p.1 = xn)
  keys : (∀ k ∈ D.keys, ¬ IsVar .lon k) ∨ ∀ k ∈ D.keys, ¬ IsVar .lat k
  lon : D.coord xn = some (.d1 O.lon)
  lat : D.coord yn = some (.d1 O.lat)
  values : ∀ ix : String → ℕ, (∀ p ∈ v.dims, ix p.1 < p.2) → v.get ix = O.z (ix tn) (ix yn) (ix xn)

theorem HoldsLonFirst.dims_mem (h : HoldsLonFirst D name O v tn yn xn) : (yn, O.ny) ∈ v.dims ∧ (xn, O.nx) ∈ v.dims ∧ yn ≠ tn ∧
    xn ≠ tn ∧ xn ≠ yn ∧ O.ny ≠ 1 ∧ O.nx ≠ 1 := by
  have h1 : (yn, O.ny) ∈ v.dims.filter (fun p => p.1 ≠ tn ∧ p.2 ≠ 1) := by rw [h.rest]; simp
  have h2 : (xn, O.nx) ∈ v.dims.filter (fun p => p.1 ≠ tn ∧ p.2 ≠ 1) := by rw [h.rest]; simp
  have h3 : ((v.dims.filter (fun p => p.1 ≠ tn ∧ p.2 ≠ 1)).map Prod.fst).Nodup :=
    h.nodup.sublist (List.filter_sublist.map _)
  rw [h.rest] at h3
  simp only [List.map_cons, List.map_nil, List.nodup_cons, List.mem_singleton] at h3
  simp only [List.mem_filter, decide_eq_true_eq] at h1 h2
  exact ⟨h1.1, h2.1, h1.2.1, h2.2.1, h3.1, h1.2.2, h2.2.2⟩

theorem HoldsLonFirst.coords (h : HoldsLonFirst D name O v tn yn xn) :
    (identifyCoords (v.dims.map Prod.fst) D.keys).time = tn ∧ (identifyCoords (v.dims.map Prod.fst) D.keys).x = xn ∧
    (identifyCoords (v.dims.map Prod.fst) D.keys).y = yn ∧
    chooseCoords (identifyCoords (v.dims.map Prod.fst) D.keys) = .ok (xn, yn) := by
  obtain ⟨h1, h2, -⟩ := h.dims_mem
  have m1 : tn ∈ v.dims.map Prod.fst := List.mem_map.2 ⟨_, h.time, rfl⟩
  have m2 : yn ∈ v.dims.map Prod.fst := List.mem_map.2 ⟨_, h1, rfl⟩
  have m3 : xn ∈ v.dims.map Prod.fst := List.mem_map.2 ⟨_, h2, rfl⟩
  have u : ∀ d ∈ v.dims.map Prod.fst, (IsDim .time d → d = tn) ∧ (IsDim .lat d → d = yn) ∧ (IsDim .lon d → d = xn) := by
    intro d hd
    obtain ⟨p, hp, rfl⟩ := List.mem_map.1 hd
    exact h.unique p hp
  exact ⟨C44_unique _ _ .time tn m1 h.roles.1 fun d hd => (u d hd).1, C44_unique _ _ .lon xn m3 h.roles.2.2 fun d hd => (u d hd).2.2,
    C44_unique _ _ .lat yn m2 h.roles.2.1 fun d hd => (u d hd).2.1,
    C44_grid_names _ _ xn yn m3 m2 h.roles.2.2 h.roles.2.1 (fun d hd => (u d hd).2.2) (fun d hd => (u d hd).2.1) h.keys⟩

theorem HoldsLonFirst.new (h : HoldsLonFirst D name O v tn yn xn) (nan : Bool) :
    newTracker D name nan = .ok (freshTracker D v O nan) := by
  unfold newTracker lookup
  simp only [h.var, bind, Except.bind, pure, Except.pure, h.coords.2.2.2, h.lon, h.lat, coordArrays]
  rfl

/-- the snapshot: rows are longitudes -/
theorem HoldsLonFirst.snapshot (h : HoldsLonFirst D name O v tn yn xn) {o : Tracker} (ho : o.raw = v)
    (hc : o.coords = identifyCoords (v.dims.map Prod.fst) D.keys) (t : Int) :
    (-(O.T : Int) ≤ t ∧ t < O.T → ∃ u, o.snapshot t = .ok u ∧ u.dims = [(xn, O.nx), (yn, O.ny)] ∧
      u.fld xn yn O.nx O.ny = toFld O.nx O.ny fun r c => O.z (timeIndex O.T t) c r) ∧
    (¬ (-(O.T : Int) ≤ t ∧ t < O.T) → o.snapshot t = .error .indexError) := by
  have htn : tn ≠ "" := fun e => dim_ne_empty .time (e ▸ h.roles.1)
  obtain ⟨d1, d2, n1, n2, n3, n4, n5⟩ := h.dims_mem
  have uniq : ∀ {n : String} {a b : ℕ}, (n, a) ∈ v.dims → (n, b) ∈ v.dims → a = b := by
    intro n a b ha hb
    have := (find_dim h.nodup ha).symm.trans (find_dim h.nodup hb)
    simpa using this
  unfold Tracker.snapshot
  rw [hc, h.coords.1, if_pos htn, ho]
  unfold Variable.isel
  rw [find_dim h.nodup h.time]
  simp only
  constructor
  · intro ht
    rw [if_pos ht]
    refine ⟨_, rfl, ?_, ?_⟩
    · unfold Variable.squeeze
      simp only
      rw [List.filter_filter, ← h.rest]
      congr 1
      funext p
      simp [Bool.and_comm]
    · funext r c
      unfold Variable.fld Variable.squeeze toFld
      simp only
      rw [h.values]
      · have a2 : (yn, 1) ∉ v.dims.filter fun p => p.1 ≠ tn := fun hm =>
          n4 (uniq d1 (List.mem_filter.1 hm).1)
        have a3 : (xn, 1) ∉ v.dims.filter fun p => p.1 ≠ tn := fun hm =>
          n5 (uniq d2 (List.mem_filter.1 hm).1)
        rw [if_pos rfl, if_neg n1, if_neg n2, if_neg a2, if_neg a3, if_pos rfl, if_neg (Ne.symm n3), if_pos rfl]
        rfl
      · intro p hp
        by_cases e1 : p.1 = tn
        · have : p.2 = O.T := uniq (show (tn, p.2) ∈ v.dims by rw [← e1]; exact hp) h.time
          rw [if_pos e1, this]
          split <;> omega
        · rw [if_neg e1]
          by_cases e2 : (p.1, 1) ∈ v.dims.filter fun p => p.1 ≠ tn
          · rw [if_pos e2]
            have : p.2 = 1 := uniq (show (p.1, p.2) ∈ v.dims from hp) (List.mem_filter.1 e2).1
            omega
          · rw [if_neg e2]
            have e3 : p.2 ≠ 1 := by
              intro e
              apply e2
              rw [List.mem_filter]
              exact ⟨by rw [← e]; exact hp, by simpa using e1⟩
            have e4 : p ∈ v.dims.filter (fun p => p.1 ≠ tn ∧ p.2 ≠ 1) := by
              rw [List.mem_filter]
              exact ⟨hp, by simp [e1, e3]⟩
            rw [h.rest] at e4
            simp only [List.mem_cons, List.not_mem_nil, or_false] at e4
            rcases e4 with rfl | rfl
            · simp
            · simp [Ne.symm n3]
  · intro ht
    rw [if_neg ht]
    rfl

theorem HoldsLonFirst.times (h : HoldsLonFirst D name O v tn yn xn) {o : Tracker} (ho : o.raw = v)
    (hc : o.coords = identifyCoords (v.dims.map Prod.fst) D.keys) (t0 : Int) (tf : Option Int) :
    o.times t0 tf = .ok (trackTimes t0 tf O.T) := by
  have htn : tn ≠ "" := fun e => dim_ne_empty .time (e ▸ h.roles.1)
  unfold Tracker.times
  rw [hc, h.coords.1, ho]
  have : v.dims.find? (fun p => p.1 = tn ∧ tn ≠ "") = some (tn, O.T) := by
    rw [← find_dim h.nodup h.time]
    congr 1
    funext p
    simp [htn]
  rw [this]
  by_cases htf : tf = none ∨ tf = some 0
  · rw [if_pos htf]
  · rw [if_neg htf]
    cases tf with
    | none => exact absurd (Or.inl rfl) htf
    | some f =>
      have : f ≠ 0 := fun e => htf (Or.inr (by rw [e]))
      simp [trackTimes, this]

/-- the filter that takes the mean along the other dimension -/
def otherAxis : SpaceFilter → SpaceFilter
  | .meridional => .zonal
  | .zonal => .meridional
  | s => s

/-- the filter on the selected snapshot -/
theorem HoldsLonFirst.filtered_eq (h : HoldsLonFirst D name O v tn yn xn) {o : Tracker} (ho : o.raw = v)
    (hc : o.coords = identifyCoords (v.dims.map Prod.fst) D.keys) (t : Int) :
    (o.snapshot t).bind o.filtered = if -(O.T : Int) ≤ t ∧ t < O.T then
      (filterData o.nanTreatment (otherAxis o.setup) o.filter
        (toFld O.nx O.ny fun r c => O.z (timeIndex O.T t) c r)).map trackedOf
      else .error .indexError := by
  by_cases ht : -(O.T : Int) ≤ t ∧ t < O.T
  · rw [if_pos ht]
    obtain ⟨u, h1, h2, h3⟩ := (h.snapshot ho hc t).1 ht
    obtain ⟨-, c1, c2, -⟩ := h.coords
    have n3 := h.dims_mem.2.2.2.2.1
    have hax : alongAxis o.coords xn yn o.setup = .ok (otherAxis o.setup) := by
      unfold alongAxis otherAxis
      rw [hc, c1, c2]
      cases o.setup <;> simp [n3, Ne.symm n3]
    rw [h1]
    simp only [Except.bind]
    unfold Tracker.filtered
    rw [h2]
    simp only [h3, hax, Except.bind]
    cases o.filter <;> rfl
  · rw [if_neg ht, (h.snapshot ho hc t).2 ht]
    rfl

/-- a snapshot whose data have another shape than the coordinates -/
theorem snapshot_shape {Pt : Type} (E : Env Cols ℝ Pt) (c : Criteria ℝ) (L : Libs) (S : Fields) (levels : List ℝ) (regs : Regs Cols)
    (h : ¬ ((S.X.rows, S.X.cols) = (S.data.rows, S.data.cols))) (hl : ∃ l ∈ levels, l ≠ 0) :
    snapshotOf E c L S levels regs = (regs, .error .valueError) := by
  have h0 : ∀ l r, detectLevel c L S r l = (r, .error .valueError) := by
    intro l r
    unfold detectLevel contoursOf
    rw [(Cntr.C75_value_error_iff S.X S.Y S.data l (fuel := 4 * (S.data.cols * S.data.rows) + 2) (L.mem S.data l) le_rfl).2
      fun hh => h hh.1]
  unfold snapshotOf
  obtain ⟨l, hm, hne⟩ := hl
  have hm' : l ∈ levels.filter (· ≠ 0) := List.mem_filter.2 ⟨hm, by simpa using hne⟩
  cases hf : levels.filter (· ≠ 0) with
  | nil => rw [hf] at hm'; cases hm'
  | cons a as =>
    simp only [List.foldl_cons, h0]
    clear hf hm'
    induction as with
    | nil => rfl
    | cons b bs ih => exact ih

/-- **C104** is false: with the longitudes stored before the latitudes and different numbers of them, the constructor accepts the
dataset and every call of `time_tracking` over existing snapshots, with at least one level other than 0, raises `ValueError`. -/
theorem C104_refuted (h : HoldsLonFirst D name O v tn yn xn) (hne : O.ny ≠ O.nx) (nan : Bool) :
    ∃ o, newTracker D name nan = .ok o ∧
      ∀ (s : SpaceFilter) (c : Criteria ℝ), ValidSetup s → ∀ {Pt : Type} (E : Env Cols ℝ Pt) (L : Libs) (t0 : Int) (tf : Option Int)
        (levels : List ℝ) (ntimes : Int) (online : Bool) (regs : Regs Cols), InSeries O t0 tf → trackTimes t0 tf O.T ≠ [] →
        (∃ l ∈ levels, l ≠ 0) →
        ({ o with setup := s, criteria := c }.timeTracking E L t0 tf (.array levels) ntimes online regs).2 = .error .valueError := by
  refine ⟨_, h.new nan, fun s c hs Pt E L t0 tf levels ntimes online regs hin htt hl => ?_⟩
  have hts := h.times (o := { freshTracker D v O nan with setup := s, criteria := c }) rfl rfl t0 tf
  cases htl : trackTimes t0 tf O.T with
  | nil => exact absurd htl htt
  | cons t ts =>
    rw [htl] at hts
    apply run_first_error hts
    have hr := hin.range t (by rw [htl]; exact List.mem_cons_self)
    have hf := h.filtered_eq (o := { freshTracker D v O nan with setup := s, criteria := c }) rfl rfl t
    rw [if_pos ⟨by omega, hr.2⟩] at hf
    have hs' : ValidSetup (otherAxis s) := by
      cases s <;> first | trivial | exact hs
    have hsp : (filterData nan (otherAxis s) (freshTracker D v O nan).filter
        (toFld O.nx O.ny fun r c => O.z (timeIndex O.T t) c r)).map trackedOf = _ := filterData_space hs' nan _ _ _
    rw [detect_field (o := { freshTracker D v O nan with setup := s, criteria := c }) E L levels (hf.trans hsp) regs,
      snapshot_shape]
    · intro he
      exact hne (congrArg Prod.fst he)
    · exact hl

/-- the maps with rows and columns exchanged, on the same longitudes and latitudes -/
def Spec.Series.exchanged (O : Series) : Series where
  T := O.T
  lon := O.lon
  lat := O.lat
  z t r c := O.z t c r

theorem filterData_size {a b a' b' : ℕ} (ha : a = a') (hb : b = b') (nan : Bool) (s : SpaceFilter) (f : FilterName)
    (w : ℕ → ℕ → Option ℝ) :
    (filterData nan s f (toFld a b w)).map trackedOf = (filterData nan s f (toFld a' b' w)).map trackedOf := by
  subst ha hb
  rfl

/-- **C104** (partial) With as many longitudes as latitudes, every call gives the result, or the exception, of the maps with rows and
columns exchanged: the value of the `i`-th longitude and `j`-th latitude is taken to be at the `j`-th longitude and `i`-th latitude,
and the filters `meridional` and `zonal` are exchanged too. Missing: the maps as they are stored. -/
theorem C104_partial (h : HoldsLonFirst D name O v tn yn xn) (hsq : O.ny = O.nx) {D' : Dataset} {name' : String} {v' : Variable}
    {tn' yn' xn' : String} (h' : Holds D' name' O.exchanged v' tn' yn' xn') (nan : Bool) :
    ∃ o o', newTracker D name nan = .ok o ∧ newTracker D' name' nan = .ok o' ∧
      ∀ (f : FilterName) (s s' : SpaceFilter) (c : Criteria ℝ), s' = (match s with
          | .meridional => .zonal
          | .zonal => .meridional
          | s => s) → ∀ {Pt : Type} (E : Env Cols ℝ Pt) (L : Libs) (t0 : Int)
        (tf : Option Int) (levels : Levels) (ntimes : Int) (online : Bool) (regs : Regs Cols),
        { o with filter := f, setup := s, criteria := c }.timeTracking E L t0 tf levels ntimes online regs =
          { o' with filter := f, setup := s', criteria := c }.timeTracking E L t0 tf levels ntimes online regs := by
  refine ⟨_, _, h.new nan, h'.new nan, fun f s s' c hs Pt E L t0 tf levels ntimes online regs => ?_⟩
  have hs : s' = otherAxis s := hs.trans (by cases s <;> rfl)
  subst hs
  have hd : { freshTracker D v O nan with filter := f, setup := s, criteria := c }.detect E L levels =
      { freshTracker D' v' O.exchanged nan with filter := f, setup := otherAxis s, criteria := c }.detect E L levels := by
    funext t r
    have e1 := h.filtered_eq (o := { freshTracker D v O nan with filter := f, setup := s, criteria := c }) rfl rfl t
    have e2 := h'.filtered_eq (o := { freshTracker D' v' O.exchanged nan with filter := f, setup := otherAxis s, criteria := c })
      rfl rfl t
    have e3 := filterData_size (a := O.nx) (b := O.ny) (a' := O.ny) (b' := O.nx) hsq.symm hsq nan (otherAxis s) f
      fun r c => O.z (timeIndex O.T t) c r
    replace e1 := e1.trans ((if_congr Iff.rfl e3 rfl).trans e2.symm)
    unfold Tracker.detect
    rw [e1]
    rfl
  unfold Tracker.timeTracking
  rw [h.times (o := { freshTracker D v O nan with filter := f, setup := s, criteria := c }) rfl rfl,
    h'.times (o := { freshTracker D' v' O.exchanged nan with filter := f, setup := otherAxis s, criteria := c }) rfl rfl, hd]
  rfl

/-! ### examples -/

/-- the maps of ApiExample.lean, stored longitude first -/
noncomputable def exVarLon : Variable where
  dims := [("longitude", 4), ("time", 2), ("latitude", 3)]
  get ix := (exSeries 2).z (ix "time") (ix "latitude") (ix "longitude")

noncomputable def exDatasetLon : Dataset where
  keys := ["sla"]
  var n := if n = "sla" then some exVarLon else none
  coord n := if n = "longitude" then some (.d1 [0, 1, 2, 3]) else if n = "latitude" then some (.d1 [0, 1, 2]) else none

theorem exLon_holds : HoldsLonFirst exDatasetLon "sla" (exSeries 2) exVarLon "time" "latitude" "longitude" where
  var := rfl
  nodup := by simp [exVarLon]
  time := by simp [exVarLon, exSeries]
  rest := by simp [exVarLon, exSeries, Spec.Series.ny, Spec.Series.nx]
  roles := by decide +kernel
  unique := by
    intro p hp
    simp only [exVarLon, List.mem_cons, List.not_mem_nil, or_false] at hp
    rcases hp with rfl | rfl | rfl <;> simp only <;> decide +kernel
  keys := by
    left
    show ∀ k ∈ ["sla"], _
    decide +kernel
  lon := rfl
  lat := rfl
  values := fun ix _ => rfl

/-- C104: the maps in which the package finds an eddy at both times, stored longitude first -/
example : ∃ (nn : List (ℝ × ℝ) → ℝ × ℝ → Nat) (o o' : Tracker) (s : LoopState Cols), newTracker (exDataset 2) "sla" true = .ok o ∧
    newTracker exDatasetLon "sla" true = .ok o' ∧ s.table.rows ≠ [] ∧
    ({ o with setup := defaultSetup, criteria := exCriteria }.timeTracking (colsEnv true nn) exLibs 0 (some 2) (.array [1 / 2]) 1 true
      Regs.empty).2 = .ok s ∧
    ({ o' with setup := defaultSetup, criteria := exCriteria }.timeTracking (colsEnv true nn) exLibs 0 (some 2) (.array [1 / 2]) 1 true
      Regs.empty).2 = .error .valueError := by
  obtain ⟨nn, o, s, hnn, ho, hs, hne⟩ := dsFound true
  obtain ⟨o', ho', h⟩ := C104_refuted exLon_holds (by simp [exSeries, Spec.Series.ny, Spec.Series.nx]) true
  refine ⟨nn, o, o', s, ho, ho', hne, hs, ?_⟩
  exact h defaultSetup exCriteria trivial (colsEnv true nn) exLibs 0 (some 2) [1 / 2] 1 true Regs.empty
    (Or.inr (Or.inr ⟨le_rfl, 2, rfl, le_rfl⟩)) (by simp [trackTimes, irange]) ⟨1 / 2, by simp, by norm_num⟩

/-- a square map, not symmetric: the value at latitude 0 and longitude 20 is 1 -/
def exSquare : Series where
  T := 1
  lon := [10, 20]
  lat := [-1, 0]
  z _ r c := if r < 2 ∧ c < 2 then some (if r = 1 ∧ c = 1 then 1 else if c = 1 then 2 else 0) else none

/-- C104: a square map stored longitude first, and the exchanged map stored latitude first -/
example : HoldsLonFirst ⟨["h"], fun n => if n = "h" then some ⟨[("time", 1), ("x", 2), ("y", 2)], fun ix =>
        exSquare.z (ix "time") (ix "y") (ix "x")⟩ else none, fun n => if n = "x" then some (.d1 [10, 20]) else
        if n = "y" then some (.d1 [-1, 0]) else none⟩ "h" exSquare ⟨[("time", 1), ("x", 2), ("y", 2)], fun ix =>
        exSquare.z (ix "time") (ix "y") (ix "x")⟩ "time" "y" "x" ∧
    Holds ⟨["h"], fun n => if n = "h" then some ⟨[("time", 1), ("y", 2), ("x", 2)], fun ix =>
        exSquare.z (ix "time") (ix "x") (ix "y")⟩ else none, fun n => if n = "x" then some (.d1 [10, 20]) else
        if n = "y" then some (.d1 [-1, 0]) else none⟩ "h" exSquare.exchanged ⟨[("time", 1), ("y", 2), ("x", 2)], fun ix =>
        exSquare.z (ix "time") (ix "x") (ix "y")⟩ "time" "y" "x" ∧
    exSquare.ny = exSquare.nx ∧ exSquare.exchanged.z 0 1 0 ≠ exSquare.z 0 1 0 := by
  have hu : ∀ p : String × ℕ, p = ("time", 1) ∨ p = ("x", 2) ∨ p = ("y", 2) →
      (IsDim .time p.1 → p.1 = "time") ∧ (IsDim .lat p.1 → p.1 = "y") ∧ (IsDim .lon p.1 → p.1 = "x") := by
    rintro p (rfl | rfl | rfl) <;> simp only <;> decide +kernel
  refine ⟨⟨rfl, by decide, by simp [exSquare], by simp [exSquare, Spec.Series.ny, Spec.Series.nx], by decide +kernel, fun p hp => ?_,
    Or.inl (by show ∀ k ∈ ["h"], _; decide +kernel), rfl, rfl, fun ix _ => rfl⟩, ⟨rfl, by decide,
    by simp [exSquare, Spec.Series.exchanged], by simp [exSquare, Spec.Series.ny, Spec.Series.nx, Spec.Series.exchanged],
    by decide +kernel, fun p hp => ?_, Or.inl (by show ∀ k ∈ ["h"], _; decide +kernel), rfl, rfl, fun ix _ => rfl⟩, rfl, ?_⟩
  · simp only [List.mem_cons, List.not_mem_nil, or_false] at hp
    exact hu p hp
  · simp only [List.mem_cons, List.not_mem_nil, or_false] at hp
    exact hu p (by tauto)
  · simp [exSquare, Spec.Series.exchanged]

end Trackeddy
