import Verif.Props.Api
import Verif.Props.EndToEnd

/-!
A dataset in which the package with its default filter finds an eddy: the hypotheses of C92-C95 can be met, with a table that is not
empty. Negative times (C95).
-/
namespace Trackeddy
open Spec
open Cntr (Vertex SameShape arrGrid Full)

instance (n : String) : Decidable (LooksTime n) := decidable_of_iff _ time_iff
instance (n : String) : Decidable (LooksLon n) := decidable_of_iff _ lon_iff
instance (n : String) : Decidable (LooksLat n) := decidable_of_iff _ lat_iff

instance : (r : Role) → (n : String) → Decidable (IsDim r n)
  | .time, n => inferInstanceAs (Decidable (LooksTime n))
  | .lon, n => inferInstanceAs (Decidable (¬ LooksTime n ∧ LooksLon n))
  | .lat, n => inferInstanceAs (Decidable (¬ LooksTime n ∧ ¬ LooksLon n ∧ LooksLat n))

instance : (r : Role) → (n : String) → Decidable (IsVar r n)
  | .time, _ => inferInstanceAs (Decidable False)
  | .lon, n => inferInstanceAs (Decidable (LooksLon n))
  | .lat, n => inferInstanceAs (Decidable (¬ LooksLon n ∧ LooksLat n))

/-- the maps: the example of PipelineExample.lean plus 2/109, which the default filter takes away -/
noncomputable def exSeries (T : ℕ) : Series where
  T := T
  lon := [0, 1, 2, 3]
  lat := [0, 1, 2]
  z _ r c := if r < 3 ∧ c < 4 then some ((if r = 1 ∧ (c = 1 ∨ c = 2) then 1 else 0) + 2 / 109) else none

/-- the variable: the time last, and a depth of size one -/
noncomputable def exVar (T : ℕ) : Variable where
  dims := [("depth", 1), ("latitude", 3), ("longitude", 4), ("time", T)]
  get ix := (exSeries T).z (ix "time") (ix "latitude") (ix "longitude")

noncomputable def exDataset (T : ℕ) : Dataset where
  keys := ["sla"]
  var n := if n = "sla" then some (exVar T) else none
  coord n := if n = "longitude" then some (.d1 [0, 1, 2, 3]) else if n = "latitude" then some (.d1 [0, 1, 2]) else none

theorem dsHolds (T : ℕ) : Holds (exDataset T) "sla" (exSeries T) (exVar T) "time" "latitude" "longitude" where
  var := rfl
  nodup := by simp [exVar]
  time := by simp [exVar, exSeries]
  rest := by simp [exVar, exSeries, Spec.Series.ny, Spec.Series.nx]
  roles := by decide +kernel
  unique := by
    intro p hp
    simp only [exVar, List.mem_cons, List.not_mem_nil, or_false] at hp
    rcases hp with rfl | rfl | rfl | rfl <;> simp only <;> decide +kernel
  keys := by
    left
    show ∀ k ∈ ["sla"], _
    decide +kernel
  lon := rfl
  lat := rfl
  values := fun ix _ => rfl

/-- the default filter gives the field of the example -/
theorem exAnomaly (T : ℕ) (t : ℕ) : (exSeries T).fields (anomaly defaultSetup 3 4 ((exSeries T).z t)) = exField := by
  have hm : ∀ r < 3, ∀ c < 4, squareMean 3 4 5 ((exSeries T).z t) r c = 2 / 109 := by
    intro r hr c hc
    have hs : square 3 4 5 r c = Finset.range 3 ×ˢ Finset.range 4 := by
      unfold square
      rw [Finset.filter_true_of_mem]
      intro p hp
      simp only [Finset.mem_product, Finset.mem_range] at hp
      omega
    have hn : ((square 3 4 5 r c).filter fun p => (exSeries T).z t p.1 p.2 = none) = ∅ := by
      rw [hs, Finset.filter_false_of_mem]
      intro p hp
      simp only [Finset.mem_product, Finset.mem_range] at hp
      simp [exSeries, hp]
    unfold squareMean
    rw [hn, hs, Finset.sum_product]
    simp only [Finset.sum_range_succ, Finset.sum_range_zero, exSeries]
    norm_num
  unfold Spec.Series.fields exField fldArr toFld
  congr 2
  funext r c
  by_cases h : r < 3 ∧ c < 4
  · have h' : r < (exSeries T).ny ∧ c < (exSeries T).nx := h
    rw [dif_pos h', if_pos h]
    show ((exSeries T).z t r c).map (· - squareMean 3 4 5 ((exSeries T).z t) r c) = _
    rw [hm r h.1 c h.2]
    simp only [exSeries, if_pos h, Option.map_some, Option.some.injEq]
    ring
  · have h' : ¬ (r < (exSeries T).ny ∧ c < (exSeries T).nx) := h
    rw [dif_neg h', if_neg h]

/-- a call on the dataset of the example is a run on the field of the example -/
theorem dsRun {Pt : Type} (E : Env Cols ℝ Pt) (L : Libs) {T : ℕ} {nan : Bool} {o : Tracker}
    (ho : newTracker (exDataset T) "sla" nan = .ok o) (c : Criteria ℝ) {t0 : Int} {tf : Option Int}
    (ht : ∀ t ∈ trackTimes t0 tf T, -(T : Int) ≤ t ∧ t < T) (l : List ℝ) (ntimes : Int) (online : Bool) (regs : Regs Cols) :
    { o with setup := defaultSetup, criteria := c }.timeTracking E L t0 tf (.array l) ntimes online regs =
      trackFields E c L (fun _ => exField) l t0 tf T ntimes online regs := by
  rw [(dsHolds T).new nan] at ho
  injection ho with ho
  subst ho
  rw [(dsHolds T).run (o := { freshTracker (exDataset T) (exVar T) (exSeries T) nan with setup := defaultSetup, criteria := c })
    ⟨rfl, rfl, rfl, rfl⟩ rfl trivial E L ht]
  congr 1
  funext t
  exact exAnomaly T _

/-- the call on the dataset of the example finds the eddy at both times -/
theorem dsFound (nan : Bool) : ∃ (nn : List (ℝ × ℝ) → ℝ × ℝ → Nat) (o : Tracker) (s : LoopState Cols), IsNN haversine nn ∧
    newTracker (exDataset 2) "sla" nan = .ok o ∧
    ({ o with setup := defaultSetup, criteria := exCriteria }.timeTracking (colsEnv true nn) exLibs 0 (some 2) (.array [1 / 2]) 1 true
      Regs.empty).2 = .ok s ∧ s.table.rows ≠ [] := by
  obtain ⟨nn, hnn⟩ := exists_isNN haversine
  obtain ⟨s, hs⟩ := exLongRun hnn (f := 2) (by norm_num) 2 1
  refine ⟨nn, _, s, hnn, (dsHolds 2).new nan, ?_, exLongRun_ne hnn (by norm_num) hs⟩
  rw [dsRun _ _ ((dsHolds 2).new nan) exCriteria ?_]
  · exact hs
  · intro t ht
    rw [trackTimes_some (by norm_num)] at ht
    have := mem_irange.1 ht
    push_cast
    omega

/-- C92 for the example -/
example : ∃ s : LoopState Cols, s.table.rows ≠ [] ∧
    MadeOfT (fun t rows => (0 ≤ t ∧ t < 2) ∧ ∃ d, rows = tableRows d ∧
      OnContour ((exSeries 2).grid (anomaly defaultSetup 3 4 ((exSeries 2).z t.toNat))) [1 / 2] d) s.table.rows ∧
    MadeOfT (fun t rows => ∃ d pts pix, rows = tableRows d ∧ HasContour d pts ∧
      List.Forall₂ (NearestNear ((exSeries 2).grid (anomaly defaultSetup 3 4 ((exSeries 2).z t.toNat))) (centroid pts)) pts pix ∧
      ExtremumIn ((exSeries 2).grid (anomaly defaultSetup 3 4 ((exSeries 2).z t.toNat))) d pix) s.table.rows := by
  obtain ⟨nn, o, s, hnn, ho, hs, hne⟩ := dsFound true
  obtain ⟨o', ho', h⟩ := C92_from_dataset (dsHolds 2) true
  rw [ho] at ho'
  injection ho' with ho'
  subst ho'
  have hin : InSeries (exSeries 2) 0 (some 2) := Or.inr (Or.inr ⟨le_rfl, 2, rfl, le_rfl⟩)
  obtain ⟨x, y, -, -, hx, hy⟩ := exField_rect
  refine ⟨s, hne, ?_, C92_extremum (dsHolds 2) ho (s := defaultSetup) trivial ?_ ?_ (E := colsEnv true nn) hnn exLibs_nearest hin ⟨rfl, rfl⟩ hs⟩
  · exact h defaultSetup exCriteria trivial (E := colsEnv true nn) hnn exLibs [1 / 2] 0 (some 2) 1 Regs.empty s hin ⟨rfl, rfl⟩ hs
  · left
    intro i j h hj
    have hj : j < 4 := hj
    show ([0, 1, 2, 3] : List ℝ).getD i 0 ≤ ([0, 1, 2, 3] : List ℝ).getD j 0
    rw [exAxis4 hj, exAxis4 (by omega)]
    exact Nat.cast_le.2 h
  · left
    intro i j h hj
    have hj : j < 3 := hj
    show ([0, 1, 2] : List ℝ).getD i 0 ≤ ([0, 1, 2] : List ℝ).getD j 0
    rw [exAxis3 hj, exAxis3 (by omega)]
    exact Nat.cast_le.2 h

/-! ### another dataset with the same series -/

/-- time first, other names, another data variable, no depth -/
noncomputable def exVar' (T : ℕ) : Variable where
  dims := [("t", T), ("y", 3), ("x", 4)]
  get ix := (exSeries T).z (ix "t") (ix "y") (ix "x")

noncomputable def exDataset' (T : ℕ) : Dataset where
  keys := ["adt", "flag"]
  var n := if n = "adt" then some (exVar' T) else none
  coord n := if n = "x" then some (.d1 [0, 1, 2, 3]) else if n = "y" then some (.d1 [0, 1, 2]) else none

theorem dsHolds' (T : ℕ) : Holds (exDataset' T) "adt" (exSeries T) (exVar' T) "t" "y" "x" where
  var := rfl
  nodup := by simp [exVar']
  time := by simp [exVar', exSeries]
  rest := by simp [exVar', exSeries, Spec.Series.ny, Spec.Series.nx]
  roles := by decide +kernel
  unique := by
    intro p hp
    simp only [exVar', List.mem_cons, List.not_mem_nil, or_false] at hp
    rcases hp with rfl | rfl | rfl <;> simp only <;> decide +kernel
  keys := by
    left
    show ∀ k ∈ ["adt", "flag"], _
    decide +kernel
  lon := rfl
  lat := rfl
  values := fun ix _ => rfl

/-- C93 for the two datasets -/
example : ∃ (o' : Tracker) (nn : List (ℝ × ℝ) → ℝ × ℝ → Nat) (s : LoopState Cols), newTracker (exDataset' 2) "adt" true = .ok o' ∧
    s.table.rows ≠ [] ∧
    ({ o' with filter := .space, setup := defaultSetup, criteria := exCriteria }.timeTracking (colsEnv true nn) exLibs 0 (some 2)
      (.array [1 / 2]) 1 true Regs.empty).2 = .ok s := by
  obtain ⟨nn, o, s, hnn, ho, hs, hne⟩ := dsFound true
  obtain ⟨o1, o', h1, h2, h⟩ := C93_storage (dsHolds 2) (dsHolds' 2) true
  refine ⟨o', nn, s, h2, hne, ?_⟩
  rw [← h]
  rw [(dsHolds 2).new] at h1 ho
  injection h1 with h1
  injection ho with ho
  subst h1 ho
  exact hs

/-! ### C94, C95 -/

/-- C94: the same levels in a list -/
example : ∃ (o : Tracker) (nn : List (ℝ × ℝ) → ℝ × ℝ → Nat) (s : LoopState Cols), newTracker (exDataset 2) "sla" true = .ok o ∧
    s.table.rows ≠ [] ∧
    ({ o with criteria := exCriteria }.timeTracking (colsEnv true nn) exLibs 0 (some 2) (.array [1 / 2]) 1 true Regs.empty).2 =
      .ok s ∧
    ({ o with criteria := exCriteria }.timeTracking (colsEnv true nn) exLibs 0 (some 2) (.list [1 / 2]) 1 true Regs.empty).2 =
      .error .indexError := by
  obtain ⟨nn, o, s, hnn, ho, hs, hne⟩ := dsFound true
  refine ⟨o, nn, s, ho, hne, ?_, ?_⟩
  · rw [(dsHolds 2).new] at ho
    injection ho with ho
    subst ho
    exact hs
  · refine ((C94_refuted _ _ _ _ _ _ _ _ 0 [1] ?_).2 [1 / 2]).2 (by simp)
    rw [(dsHolds 2).new] at ho
    injection ho with ho
    subst ho
    exact ((dsHolds 2).times (o := { freshTracker (exDataset 2) (exVar 2) (exSeries 2) true with criteria := exCriteria }) rfl rfl 0
      (some 2)).trans rfl

/-- **C95** is false: for a dataset with a single time and `t0=-1`, `tf=1`, the map is analysed twice and its eddy reported at the
times -1 and 0. -/
theorem C95_refuted : ∃ (nn : List (ℝ × ℝ) → ℝ × ℝ → Nat) (o : Tracker) (s : LoopState Cols), IsNN haversine nn ∧
    Holds (exDataset 1) "sla" (exSeries 1) (exVar 1) "time" "latitude" "longitude" ∧ (exSeries 1).T = 1 ∧
    newTracker (exDataset 1) "sla" false = .ok o ∧
    ({ o with criteria := exCriteria }.timeTracking (colsEnv true nn) exLibs (-1) (some 1) (.array [1 / 2]) 1 true Regs.empty).2 =
      .ok s ∧ s.processed = [-1, 0] ∧ (∃ r ∈ s.table.rows, r.val.1 = -1) ∧ ∃ r ∈ s.table.rows, r.val.1 = 0 := by
  obtain ⟨nn, hnn⟩ := exists_isNN haversine
  have hnn' : IsNN (colsEnv true nn).dist (colsEnv true nn).nn := hnn
  have hts : trackTimes (-1) (some 1) 1 = [-1, 0] := by decide
  obtain ⟨C, hC, hne⟩ := exSnapshot (colsEnv true nn)
  have hsnap : ∀ (t : Int) C, (fun _ : Int => pureSnapshot (colsEnv true nn) exCriteria exLibs exField [1 / 2]) t = .ok C →
      SnapRows C.rows := fun t C hC => pureSnapshot_rows hC
  have hrows : ∀ t : Int, rowsAt (fun _ : Int => pureSnapshot (colsEnv true nn) exCriteria exLibs exField [1 / 2]) t = C.rows := by
    intro t
    simp only [rowsAt, hC]
  obtain ⟨s, hs⟩ := (run_ok_iff hnn' (tf := some 1) (ntimes := 1)
    (snap := fun _ => pureSnapshot (colsEnv true nn) exCriteria exLibs exField [1 / 2]) [-1, 0]
    (by simp) (fun _ _ => ⟨C, hC⟩) (fun t _ => rowsAt_snapRows hsnap t)).2 (by
      intro t ht _ hu
      simp only [List.mem_cons, List.not_mem_nil, or_false] at ht
      rcases ht with rfl | rfl
      · obtain ⟨u, hu, hlt, -⟩ := hu
        simp only [List.mem_cons, List.not_mem_nil, or_false] at hu
        omega
      · refine ⟨?_, rfl⟩
        intro w hw
        have hw' : w = -1 := by
          have : window (0 - 1) 1 = [-1] := by decide
          rw [this] at hw
          simpa using hw
        subst hw'
        rw [hrows]
        exact ⟨⟨by simp, by norm_num⟩, hne⟩)
  have hs' : timeTracking (colsEnv true nn) (fun _ => pureSnapshot (colsEnv true nn) exCriteria exLibs exField [1 / 2]) (-1) (some 1)
      1 1 true = .ok s := by
    unfold timeTracking
    rw [hts]
    exact hs
  have hproc : s.processed = [-1, 0] := by
    rw [← hts]
    exact (run_inv hnn' _ (pairwise_trackTimes (-1) (some 1) 1) (fun t _ => rowsAt_snapRows hsnap t) hs').proc
  have hin : ∀ t ∈ s.processed, ∃ r ∈ s.table.rows, r.val.1 = t := by
    intro t ht
    obtain ⟨g, hg⟩ := C03_no_detection_lost_or_invented (E := colsEnv true nn) hnn' hsnap hs'
    obtain ⟨r, hr⟩ := List.exists_mem_of_ne_nil _ hne
    have := hg.mem_iff.2 (List.mem_flatMap.2 ⟨t, ht, List.mem_map.2 ⟨r, (hrows t).symm ▸ hr, rfl⟩⟩)
    exact ⟨_, this, rfl⟩
  refine ⟨nn, _, s, hnn, dsHolds 1, rfl, (dsHolds 1).new false, ?_, hproc, hin _ (by simp [hproc]), hin _ (by simp [hproc])⟩
  have := dsRun (colsEnv true nn) exLibs ((dsHolds 1).new false) exCriteria (t0 := -1) (tf := some 1)
    (by rw [hts]; simp) [1 / 2] 1 true Regs.empty
  have h2 := (trackFields_pure (colsEnv true nn) exCriteria exLibs (field := fun _ => exField) (levels := [1 / 2]) (t0 := -1)
    (tf := some 1) (T := 1) (ntimes := 1) (online := true) (regs := Regs.empty) (fun _ _ => exField_ok) ⟨rfl, rfl⟩).1
  exact (congrArg Prod.snd this).trans (h2.trans hs')

end Trackeddy
