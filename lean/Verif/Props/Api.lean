import Verif.Proofs.Api
import Verif.Props.Pipeline
import Verif.Props.PipelineExample
import Verif.Props.Robust
import Verif.Props.Units

/-!
C92 (from the dataset to the table), C93 (how the data are stored), C94 (the argument for the levels), C95 (time ranges), C96 (datasets
without time), C97 (the mean of the data), C98 (the spatial filters); C47 and C90 for whole calls.
-/
namespace Trackeddy
open Spec
open Cntr (Vertex SameShape arrGrid Full)

variable {D : Dataset} {name : String} {O : Series} {v : Variable} {tn yn xn : String}

/-! ### C92 -/

/-- the call asks for snapshots that exist, counted from the first -/
def InSeries (O : Series) (t0 : Int) (tf : Option Int) : Prop :=
  tf = none ∨ tf = some 0 ∨ 0 ≤ t0 ∧ ∃ f, tf = some f ∧ f ≤ O.T

theorem InSeries.range {t0 : Int} {tf : Option Int} (h : InSeries O t0 tf) :
    ∀ t ∈ trackTimes t0 tf O.T, 0 ≤ t ∧ t < O.T := by
  intro t ht
  unfold trackTimes at ht
  rcases h with rfl | rfl | ⟨h0, f, rfl, hf⟩
  · exact mem_irange.1 ht
  · exact mem_irange.1 ht
  · simp only at ht
    split at ht
    · exact mem_irange.1 ht
    · have := mem_irange.1 ht
      omega

theorem timeIndex_pos {T : ℕ} {t : Int} (h : 0 ≤ t) : timeIndex T t = t.toNat := by
  unfold timeIndex
  rw [if_neg (by omega)]

/-- a run over existing snapshots is a run on their anomalies -/
theorem Holds.run_in (h : Holds D name O v tn yn xn) {o : Tracker} (ho : MadeFrom o D v O) (hf : o.filter = .space)
    (hs : ValidSetup o.setup) {Pt : Type} (E : Env Cols ℝ Pt) (L : Libs) {t0 : Int} {tf : Option Int} (ht : InSeries O t0 tf)
    (l : List ℝ) (ntimes : Int) (online : Bool) (regs : Regs Cols) :
    o.timeTracking E L t0 tf (.array l) ntimes online regs =
      trackFields E o.criteria L (fun t => O.fields (anomaly o.setup O.ny O.nx (O.z t.toNat))) l t0 tf O.T ntimes online regs := by
  refine timeTracking_eq (h.times ho.raw ho.coords t0 tf) fun t hm r => ?_
  have hr := ht.range t hm
  have := h.filtered_eq ho.raw ho.coords t
  rw [if_pos ⟨by omega, hr.2⟩, hf, filterData_space hs, timeIndex_pos hr.1] at this
  rw [detect_field E L l this, ho.X, ho.Y]
  rfl

/-- **C92** For a dataset that stores a series of maps, the constructor succeeds, and whatever spatial filter and criteria are chosen
afterwards: if `time_tracking` returns a table, each eddy of it at time `t` is a contour line, at one of the levels, of the anomaly of
the map with index `t` on the longitudes and latitudes of the dataset. -/
theorem C92_from_dataset (h : Holds D name O v tn yn xn) (nan : Bool) :
    ∃ o, newTracker D name nan = .ok o ∧ ∀ (s : SpaceFilter) (c : Criteria ℝ), ValidSetup s →
      ∀ {Pt : Type} {E : Env Cols ℝ Pt}, IsNN E.dist E.nn → ∀ (L : Libs) (levels : List ℝ) (t0 : Int) (tf : Option Int) (ntimes : Int)
        (regs : Regs Cols) (st : LoopState Cols), InSeries O t0 tf → StoreEmpty regs →
        ({ o with setup := s, criteria := c }.timeTracking E L t0 tf (.array levels) ntimes true regs).2 = .ok st →
        MadeOfT (fun t rows => (0 ≤ t ∧ t < O.T) ∧ ∃ d, rows = tableRows d ∧
          OnContour (O.grid (anomaly s O.ny O.nx (O.z t.toNat))) levels d) st.table.rows := by
  refine ⟨_, h.new nan, fun s c hs Pt E hnn L levels t0 tf ntimes regs st hin hr hst => ?_⟩
  have hm : MadeFrom { freshTracker D v O nan with setup := s, criteria := c } D v O := ⟨rfl, rfl, rfl, rfl⟩
  rw [h.run hm rfl hs E L (fun t ht => ⟨by have := hin.range t ht; omega, (hin.range t ht).2⟩)] at hst
  have hok : ∀ t ∈ trackTimes t0 tf O.T, (O.fields (anomaly s O.ny O.nx (O.z (timeIndex O.T t)))).Ok := fun t _ => fields_ok _ _
  refine (trackFields_made hnn hok hr hst).mono ?_
  rintro t rows ⟨l, hl, hl0, vs, hvs, e, he, hre, ht⟩
  have := stored_onContour (hok t ht) hl hl0 hvs he
  rw [fields_grid, timeIndex_pos (hin.range t ht).1] at this
  exact ⟨hin.range t ht, e.data, hre, this⟩

/-- **C92** continued: for coordinates that ascend or descend, the reported extremum is that of the anomaly at the grid points that the
contour encloses, at the reported longitude and latitude. -/
theorem C92_extremum (h : Holds D name O v tn yn xn) {nan : Bool} {o : Tracker} (ho : newTracker D name nan = .ok o)
    {s : SpaceFilter} {c : Criteria ℝ} (hs : ValidSetup s) (hlon : MonoAxis O.nx fun i => O.lon.getD i 0)
    (hlat : MonoAxis O.ny fun i => O.lat.getD i 0) {Pt : Type} {E : Env Cols ℝ Pt} (hnn : IsNN E.dist E.nn) {L : Libs} (hL : L.Nearest)
    {levels : List ℝ} {t0 : Int} {tf : Option Int} {ntimes : Int} {regs : Regs Cols} {st : LoopState Cols} (ht : InSeries O t0 tf)
    (hr : StoreEmpty regs)
    (hst : ({ o with setup := s, criteria := c }.timeTracking E L t0 tf (.array levels) ntimes true regs).2 = .ok st) :
    MadeOfT (fun t rows => ∃ d pts pix, rows = tableRows d ∧ HasContour d pts ∧
      List.Forall₂ (NearestNear (O.grid (anomaly s O.ny O.nx (O.z t.toNat))) (centroid pts)) pts pix ∧
      ExtremumIn (O.grid (anomaly s O.ny O.nx (O.z t.toNat))) d pix) st.table.rows := by
  rw [h.new nan] at ho
  injection ho with ho
  subst ho
  have hm : MadeFrom { freshTracker D v O nan with setup := s, criteria := c } D v O := ⟨rfl, rfl, rfl, rfl⟩
  rw [h.run_in hm rfl hs E L ht] at hst
  refine (C85_extremum_enclosed hnn hL (fun t _ => fields_ok _ _)
    (fun t _ => ⟨_, _, fun _ _ => rfl, fun _ _ => rfl, hlon, hlat⟩) hr hst).mono ?_
  rintro t rows ⟨d, pts, pix, h1, h2, h3, h4, -⟩
  rw [fields_grid] at h3 h4
  exact ⟨d, pts, pix, h1, h2, h3, h4⟩

/-! ### C93 -/

/-- **C93** Two datasets that store the same series give the same result, or the same exception, whatever the arguments and settings:
neither the names nor the position of the time, nor further dimensions of size one, nor other variables matter. -/
theorem C93_storage {D' : Dataset} {name' : String} {v' : Variable} {tn' yn' xn' : String} (h : Holds D name O v tn yn xn)
    (h' : Holds D' name' O v' tn' yn' xn') (nan : Bool) :
    ∃ o o', newTracker D name nan = .ok o ∧ newTracker D' name' nan = .ok o' ∧
      ∀ (f : FilterName) (s : SpaceFilter) (c : Criteria ℝ) {Pt : Type} (E : Env Cols ℝ Pt) (L : Libs) (t0 : Int) (tf : Option Int)
        (levels : Levels) (ntimes : Int) (online : Bool) (regs : Regs Cols),
        { o with filter := f, setup := s, criteria := c }.timeTracking E L t0 tf levels ntimes online regs =
          { o' with filter := f, setup := s, criteria := c }.timeTracking E L t0 tf levels ntimes online regs := by
  refine ⟨_, _, h.new nan, h'.new nan, fun f s c Pt E L t0 tf levels ntimes online regs => ?_⟩
  have hd : { freshTracker D v O nan with filter := f, setup := s, criteria := c }.detect E L levels =
      { freshTracker D' v' O nan with filter := f, setup := s, criteria := c }.detect E L levels := by
    funext t r
    have e1 := h.filtered_eq (o := { freshTracker D v O nan with filter := f, setup := s, criteria := c }) rfl rfl t
    have e2 := h'.filtered_eq (o := { freshTracker D' v' O nan with filter := f, setup := s, criteria := c }) rfl rfl t
    unfold Tracker.detect
    rw [e1, e2]
    rfl
  unfold Tracker.timeTracking
  rw [h.times (o := { freshTracker D v O nan with filter := f, setup := s, criteria := c }) rfl rfl,
    h'.times (o := { freshTracker D' v' O nan with filter := f, setup := s, criteria := c }) rfl rfl, hd]

/-! ### exceptions in the loop -/

theorem run_stays {Pt : Type} (o : Tracker) (E : Env Cols ℝ Pt) (L : Libs) (tf : Option Int) (levels : Levels) (ntimes : Int)
    (online : Bool) (ts : List Int) (r : Regs Cols) (e : PyErr) :
    (ts.foldl (fun (st : Regs Cols × Except PyErr (LoopState Cols)) time =>
      match st with
      | (r, .error e) => (r, .error e)
      | (r, .ok s) =>
        match o.detect E L levels time r with
        | (r', cur) => (r', loopStep E (fun _ => cur) tf ntimes online s time)) (r, .error e)).2 = .error e := by
  induction ts with
  | nil => rfl
  | cons t ts ih => exact ih

theorem loopStep_error {Pt : Type} (E : Env Cols ℝ Pt) (tf : Option Int) (ntimes : Int) (online : Bool) (s : LoopState Cols) (t : Int)
    (e : PyErr) : loopStep E (fun _ => .error e) tf ntimes online s t = .error e := rfl

/-- an exception in one of the snapshots ends the call with an exception -/
theorem run_error {Pt : Type} {o : Tracker} {E : Env Cols ℝ Pt} {L : Libs} {t0 : Int} {tf : Option Int} {levels : Levels} {ntimes : Int}
    {online : Bool} {regs : Regs Cols} {ts : List Int} (hts : o.times t0 tf = .ok ts) {t : Int} (ht : t ∈ ts)
    (h : ∀ r, ∃ e, (o.detect E L levels t r).2 = .error e) :
    ∃ e, (o.timeTracking E L t0 tf levels ntimes online regs).2 = .error e := by
  unfold Tracker.timeTracking
  rw [hts]
  simp only
  generalize (⟨⟨[], []⟩, [], []⟩ : LoopState Cols) = s0
  clear hts
  induction ts generalizing regs s0 with
  | nil => cases ht
  | cons a ts ih =>
    simp only [List.foldl_cons]
    rcases List.mem_cons.1 ht with rfl | ht
    · obtain ⟨e, he⟩ := h regs
      cases hd : o.detect E L levels t regs with
      | mk r' cur =>
        rw [hd] at he
        simp only at he
        subst he
        rw [loopStep_error]
        exact ⟨e, run_stays o E L tf levels ntimes online ts r' e⟩
    · cases hd : o.detect E L levels a regs with
      | mk r' cur =>
        cases hl : loopStep E (fun _ => cur) tf ntimes online s0 a with
        | error e => exact ⟨e, run_stays o E L tf levels ntimes online ts r' e⟩
        | ok s => exact ih ht s

/-- the exception of the first snapshot is that of the call -/
theorem run_first_error {Pt : Type} {o : Tracker} {E : Env Cols ℝ Pt} {L : Libs} {t0 : Int} {tf : Option Int} {levels : Levels}
    {ntimes : Int} {online : Bool} {regs : Regs Cols} {t : Int} {ts : List Int} (hts : o.times t0 tf = .ok (t :: ts)) {e : PyErr}
    (h : (o.detect E L levels t regs).2 = .error e) :
    (o.timeTracking E L t0 tf levels ntimes online regs).2 = .error e := by
  unfold Tracker.timeTracking
  rw [hts]
  simp only [List.foldl_cons]
  cases hd : o.detect E L levels t regs with
  | mk r' cur =>
    rw [hd] at h
    simp only at h
    subst h
    rw [loopStep_error]
    exact run_stays o E L tf levels ntimes online ts r' e

/-! ### C94 -/

/-- **C94** is false: with the levels in a list, or without levels, which is the default, every call that has a snapshot to process
ends with an exception, whatever the dataset, the settings and the levels. -/
theorem C94_refuted {Pt : Type} (o : Tracker) (E : Env Cols ℝ Pt) (L : Libs) (t0 : Int) (tf : Option Int) (ntimes : Int)
    (online : Bool) (regs : Regs Cols) (t : Int) (ts : List Int) (hts : o.times t0 tf = .ok (t :: ts)) :
    (o.timeTracking E L t0 tf .absent ntimes online regs).2 = .error .typeError ∧
    ∀ l : List ℝ, (∃ e, (o.timeTracking E L t0 tf (.list l) ntimes online regs).2 = .error e) ∧
      (l.length < 2 → (o.timeTracking E L t0 tf (.list l) ntimes online regs).2 = .error .indexError) := by
  refine ⟨run_first_error hts rfl, fun l => ⟨?_, ?_⟩⟩
  · refine run_error hts List.mem_cons_self fun r => ?_
    unfold Tracker.detect Levels.select
    by_cases hl : l.length < 2
    · simp only [hl, if_true]
      exact ⟨_, rfl⟩
    · simp only [hl, if_false]
      cases (o.snapshot t).bind o.filtered with
      | error e => exact ⟨_, rfl⟩
      | ok d => cases d <;> exact ⟨_, rfl⟩
  · intro hl
    apply run_first_error hts
    unfold Tracker.detect Levels.select
    simp only [hl, if_true]

/-- **C94** for a list of two or more levels and a dataset that stores a series, the exception is `TypeError`. -/
theorem C94_refuted_list (h : Holds D name O v tn yn xn) {nan : Bool} {o : Tracker} (ho : newTracker D name nan = .ok o) {Pt : Type}
    (E : Env Cols ℝ Pt) (L : Libs) (hT : 0 < O.T) (l : List ℝ) (hl : 2 ≤ l.length) (t0 : Int) (ntimes : Int) (online : Bool)
    (regs : Regs Cols) : (o.timeTracking E L t0 none (.list l) ntimes online regs).2 = .error .typeError := by
  rw [h.new nan] at ho
  injection ho with ho
  subst ho
  have hts := h.times (o := freshTracker D v O nan) rfl rfl t0 none
  obtain ⟨n, hn⟩ : ∃ n, O.T = n + 1 := ⟨O.T - 1, by omega⟩
  have h0 : trackTimes t0 none O.T = 0 :: (irange 0 O.T).tail := by
    simp [trackTimes, irange, hn, List.range_succ_eq_map]
  rw [h0] at hts
  apply run_first_error hts
  have hf := h.filtered_eq (o := freshTracker D v O nan) rfl rfl 0
  rw [if_pos (by omega)] at hf
  have hs : (freshTracker D v O nan).filter = .space := rfl
  have hv : ValidSetup (freshTracker D v O nan).setup := trivial
  rw [hs, filterData_space hv] at hf
  unfold Tracker.detect Levels.select
  rw [hf]
  simp only [not_lt.2 hl, if_false]

/-- **C94** (partial) In an array, zeros make no difference. Missing: lists and the default. -/
theorem C94_partial {Pt : Type} (o : Tracker) (E : Env Cols ℝ Pt) (L : Libs) (t0 : Int) (tf : Option Int) (ntimes : Int)
    (online : Bool) (regs : Regs Cols) (l : List ℝ) :
    o.timeTracking E L t0 tf (.array (l.filter (· ≠ 0))) ntimes online regs = o.timeTracking E L t0 tf (.array l) ntimes online regs := by
  have : o.detect E L (.array (l.filter (· ≠ 0))) = o.detect E L (.array l) := by
    funext t r
    unfold Tracker.detect Levels.select
    simp
  unfold Tracker.timeTracking
  rw [this]

/-- **C94** An array in which all levels are zero gives the empty table, for a dataset that stores a series and any valid filter. -/
theorem C94_zero (h : Holds D name O v tn yn xn) {nan : Bool} {o : Tracker} (ho : newTracker D name nan = .ok o) {s : SpaceFilter}
    (hs : ValidSetup s) {Pt : Type} (E : Env Cols ℝ Pt) (L : Libs) {t0 : Int} {tf : Option Int} (ht : InSeries O t0 tf)
    (l : List ℝ) (hl : ∀ x ∈ l, x = 0) (ntimes : Int) (online : Bool) (regs : Regs Cols) :
    ({ o with setup := s }.timeTracking E L t0 tf (.array l) ntimes online regs).2 = .ok ⟨⟨[], []⟩, trackTimes t0 tf O.T, []⟩ := by
  rw [h.new nan] at ho
  injection ho with ho
  subst ho
  rw [h.run_in ⟨rfl, rfl, rfl, rfl⟩ rfl hs E L ht]
  have hf : l.filter (· ≠ 0) = [] := by
    rw [List.filter_eq_nil_iff]
    intro x hx
    simp [hl x hx]
  unfold trackFields snapshotOf
  rw [hf]
  simp only [List.foldl_nil]
  have key : ∀ (ts : List Int) (p : List Int), (ts.foldl (fun (st : Regs Cols × Except PyErr (LoopState Cols)) time =>
      match st with
      | (r, .error e) => (r, .error e)
      | (r, .ok s) => (r, loopStep E (fun _ => .ok ⟨[], []⟩) tf ntimes online s time)) (regs, .ok ⟨⟨[], []⟩, p, []⟩)).2 =
      .ok ⟨⟨[], []⟩, p ++ ts, []⟩ := by
    intro ts
    induction ts with
    | nil => simp
    | cons t ts ih =>
      intro p
      have := ih (p ++ [t])
      rw [List.append_assoc] at this
      exact this
  exact key _ []

/-! ### C95 -/

theorem trackTimes_some {t0 tf : Int} {T : ℕ} (hz : tf ≠ 0) : trackTimes t0 (some tf) T = irange t0 tf := if_neg hz

/-- **C95** a range that exceeds the data never gives a table -/
theorem C95_beyond (h : Holds D name O v tn yn xn) {nan : Bool} {o : Tracker} (ho : newTracker D name nan = .ok o) (f : FilterName)
    (s : SpaceFilter) (c : Criteria ℝ) {Pt : Type} (E : Env Cols ℝ Pt) (L : Libs) (t0 tf : Int) (hf : (O.T : Int) < tf) (h0 : t0 < tf)
    (levels : Levels) (ntimes : Int) (online : Bool) (regs : Regs Cols) :
    ∃ e, ({ o with filter := f, setup := s, criteria := c }.timeTracking E L t0 (some tf) levels ntimes online regs).2 = .error e := by
  rw [h.new nan] at ho
  injection ho with ho
  subst ho
  have hts := h.times (o := { freshTracker D v O nan with filter := f, setup := s, criteria := c }) rfl rfl t0 (some tf)
  have hm : tf - 1 ∈ trackTimes t0 (some tf) O.T := by
    rw [trackTimes_some (by omega)]
    exact mem_irange.2 (by omega)
  refine run_error hts hm fun r => ?_
  have hfl := h.filtered_eq (o := { freshTracker D v O nan with filter := f, setup := s, criteria := c }) rfl rfl (tf - 1)
  rw [if_neg (by omega)] at hfl
  unfold Tracker.detect
  rw [hfl]
  cases levels.select with
  | error e => exact ⟨_, rfl⟩
  | ok ls => exact ⟨_, rfl⟩

/-- **C95** if the first index asked for does not exist, the exception is `IndexError` -/
theorem C95_start (h : Holds D name O v tn yn xn) {nan : Bool} {o : Tracker} (ho : newTracker D name nan = .ok o) {Pt : Type}
    (E : Env Cols ℝ Pt) (L : Libs) (t0 tf : Int) (h0 : t0 < tf) (hz : tf ≠ 0) (ht : (O.T : Int) ≤ t0 ∨ t0 < -(O.T : Int)) (levels : List ℝ) (ntimes : Int)
    (online : Bool) (regs : Regs Cols) :
    (o.timeTracking E L t0 (some tf) (.array levels) ntimes online regs).2 = .error .indexError := by
  rw [h.new nan] at ho
  injection ho with ho
  subst ho
  have hts := h.times (o := freshTracker D v O nan) rfl rfl t0 (some tf)
  obtain ⟨n, hn⟩ : ∃ n, (tf - t0).toNat = n + 1 := ⟨(tf - t0).toNat - 1, by omega⟩
  have hc : trackTimes t0 (some tf) O.T = t0 :: (irange t0 tf).tail := by
    simp [trackTimes, hz, irange, hn, List.range_succ_eq_map]
  rw [hc] at hts
  apply run_first_error hts
  have hfl := h.filtered_eq (o := freshTracker D v O nan) rfl rfl t0
  rw [if_neg (by omega)] at hfl
  unfold Tracker.detect Levels.select
  rw [hfl]

/-- **C95** With a negative `t0` the run is that on the maps from the end of the series, labelled with negative times, followed by the
maps from the beginning. -/
theorem C95_negative (h : Holds D name O v tn yn xn) {nan : Bool} {o : Tracker} (ho : newTracker D name nan = .ok o) {s : SpaceFilter}
    {c : Criteria ℝ} (hs : ValidSetup s) {Pt : Type} (E : Env Cols ℝ Pt) (L : Libs) (t0 tf : Int) (hz : tf ≠ 0) (h0 : -(O.T : Int) ≤ t0)
    (hf : tf ≤ O.T) (levels : List ℝ) (ntimes : Int) (online : Bool) (regs : Regs Cols) :
    { o with setup := s, criteria := c }.timeTracking E L t0 (some tf) (.array levels) ntimes online regs =
      trackFields E c L (fun t => O.fields (anomaly s O.ny O.nx (O.z (if t < 0 then (O.T + t).toNat else t.toNat)))) levels t0 (some tf)
        O.T ntimes online regs := by
  rw [h.new nan] at ho
  injection ho with ho
  subst ho
  rw [h.run ⟨rfl, rfl, rfl, rfl⟩ rfl hs E L]
  · congr 1
    funext t
    unfold timeIndex
    split <;> simp [add_comm]
  · intro t ht
    rw [trackTimes_some hz] at ht
    have := mem_irange.1 ht
    omega

/-- **C95** (partial) For `0 ≤ t0` and `tf` at most the number of times, and not zero, a call that returns a table has analysed the
snapshots with the indices from `t0` up to `tf`, without `tf`, each once and in this order. Missing: negative `t0`. -/
theorem C95_partial (h : Holds D name O v tn yn xn) {nan : Bool} {o : Tracker} (ho : newTracker D name nan = .ok o) {s : SpaceFilter}
    {c : Criteria ℝ} (hs : ValidSetup s) {Pt : Type} {E : Env Cols ℝ Pt} {L : Libs} {t0 tf : Int} (hz : tf ≠ 0) (h0 : 0 ≤ t0)
    (hf : tf ≤ O.T) {levels : List ℝ} {ntimes : Int} {online : Bool} {regs : Regs Cols} (hr : StoreEmpty regs) {st : LoopState Cols}
    (hst : ({ o with setup := s, criteria := c }.timeTracking E L t0 (some tf) (.array levels) ntimes online regs).2 = .ok st) :
    st.processed.Pairwise (· < ·) ∧ ∀ t, t ∈ st.processed ↔ t0 ≤ t ∧ t < tf := by
  rw [h.new nan] at ho
  injection ho with ho
  subst ho
  have hin : InSeries O t0 (some tf) := Or.inr (Or.inr ⟨h0, tf, rfl, hf⟩)
  rw [h.run_in (o := { freshTracker D v O nan with setup := s, criteria := c }) ⟨rfl, rfl, rfl, rfl⟩ rfl hs E L hin,
    (trackFields_pure _ _ _ (fun t _ => fields_ok _ _) hr).1] at hst
  exact C08_partial hz hst

end Trackeddy
