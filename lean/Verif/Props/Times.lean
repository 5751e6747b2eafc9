import Verif.Spec.Times
import Verif.Proofs.Times
import Verif.Proofs.Region
import Verif.Props.ApiExample

/-!
C118: a period can be cut out of a dataset. C119: later data have no influence on earlier results.
-/
namespace Trackeddy
open Spec Tbl

/-! ### the maps -/

/-- the anomaly depends on the values on the grid -/
theorem anomaly_congr (s : SpaceFilter) {ny nx : ℕ} {z z' : ℕ → ℕ → Option ℝ} (hz : ∀ r < ny, ∀ c < nx, z' r c = z r c) {r c : ℕ} (hr : r < ny)
    (hc : c < nx) : anomaly s ny nx z' r c = anomaly s ny nx z r c := by
  have e0 := hz r hr c hc
  have em : ∀ r < ny, ((List.range nx).filterMap fun c' => z' r c') = (List.range nx).filterMap fun c' => z r c' := fun r hr =>
    List.filterMap_congr fun c' hc' => hz r hr c' (List.mem_range.1 hc')
  have ez : ∀ c < nx, ((List.range ny).filterMap fun r' => z' r' c) = (List.range ny).filterMap fun r' => z r' c := fun c hc =>
    List.filterMap_congr fun r' hr' => hz r' (List.mem_range.1 hr') c hc
  have eq : ∀ h, squareMean ny nx h z' r c = squareMean ny nx h z r c := by
    intro h
    apply squareMean_congr
    intro p hp
    unfold square at hp
    simp only [Finset.mem_filter, Finset.mem_product, Finset.mem_range] at hp
    exact hz _ hp.1.1 _ hp.1.2
  unfold anomaly
  cases s with
  | convolution k m => cases k <;> simp only [e0, eq]
  | meridional => simp only [e0, em r hr]
  | zonal => simp only [e0, ez c hc]
  | other => exact e0

theorem seen_congr {O O' : Series} (hlat : O'.lat = O.lat) (hlon : O'.lon = O.lon) (s : SpaceFilter) {z z' : ℕ → ℕ → Option ℝ}
    (hz : ∀ r < O.ny, ∀ c < O.nx, z' r c = z r c) : O'.fields (anomaly s O'.ny O'.nx z') = O.fields (anomaly s O.ny O.nx z) := by
  unfold Spec.Series.fields Series.ny Series.nx
  rw [hlat, hlon]
  congr 1
  unfold fldArr
  congr 1
  funext r c
  by_cases h : r < O.lat.length ∧ c < O.lon.length
  · rw [dif_pos h, dif_pos h]
    exact anomaly_congr s hz h.1 h.2
  · rw [dif_neg h, dif_neg h]

/-! ### runs -/

section
variable {α K Pt : Type} [Field K] [LinearOrder K] [IsStrictOrderedRing K]

theorem run_snap_ok (E : Env α K Pt) {snap : Int → Except PyErr (Tbl α)} {tf : Option Int} {n : Int} {online : Bool} (ts : List Int)
    {s : LoopState α} (h : run E snap tf n online ts = .ok s) : ∀ t ∈ ts, ∃ C, snap t = .ok C := by
  induction ts using List.reverseRecOn generalizing s with
  | nil => simp
  | append_singleton ts t ih =>
    rw [run_snoc] at h
    cases hr : run E snap tf n online ts with
    | error e => rw [hr] at h; cases h
    | ok s0 =>
      rw [hr] at h
      intro u hu
      rcases List.mem_append.1 hu with hu | hu
      · exact ih hr u hu
      · rw [List.mem_singleton.1 hu]
        cases hC : snap t with
        | ok C => exact ⟨C, rfl⟩
        | error e =>
          exfalso
          change loopStep E snap tf n online s0 t = .ok s at h
          unfold loopStep at h
          rw [hC] at h
          cases h

/-- the times shifted -/
theorem irange_shift (k a b : Int) : (irange a b).map (· - k) = irange (a - k) (b - k) := by
  unfold irange
  rw [List.map_map, show (b - k - (a - k)).toNat = (b - a).toNat by omega]
  apply List.map_congr_left
  intro i _
  simp only [Function.comp]
  omega

/-- A run that starts later succeeds only if the same run with the times counted from its start does, with the same result; if only the last time is
looked at (`ntimes` at most zero) both succeed or none. -/
theorem run_shift {E : Env α K Pt} (hnn : IsNN E.dist E.nn) {snap snap' : Int → Except PyErr (Tbl α)}
    (hsnap : ∀ t C, snap t = .ok C → SnapRows C.rows) {k f n : Int} (hk : 0 ≤ k) (hf : k < f) (heq : ∀ t, k ≤ t → t < f → snap' (t - k) = snap t) :
    (∀ s, run E snap (some f) n true (irange k f) = .ok s →
      ∃ s', run E snap' (some (f - k)) n true (irange 0 (f - k)) = .ok s' ∧ s'.table = s.table.retime (· - k)) ∧
    (n ≤ 0 → ∀ s', run E snap' (some (f - k)) n true (irange 0 (f - k)) = .ok s' → ∃ s, run E snap (some f) n true (irange k f) = .ok s) := by
  have hφ : StrictMono fun t : Int => t - k := fun a b h => by show a - k < b - k; omega
  have hts : (irange k f).map (· - k) = irange 0 (f - k) := by rw [irange_shift]; congr 1; omega
  have hrow : ∀ t, k ≤ t → t < f → rowsAt snap' (t - k) = rowsAt snap t := by
    intro t h1 h2
    unfold rowsAt
    rw [heq t h1 h2]
  have hsn : ∀ t ∈ irange k f, SnapRows (rowsAt snap t) := fun t _ => rowsAt_snapRows hsnap t
  have hsn' : ∀ t ∈ irange 0 (f - k), SnapRows (rowsAt snap' t) := by
    intro t ht
    have := mem_irange.1 ht
    have := hrow (t + k) (by omega) (by omega)
    rw [show t + k - k = t by omega] at this
    rw [this]
    exact rowsAt_snapRows hsnap _
  have hp : ∀ {m : Int}, m ≠ 0 → ∀ t : Int, 0 ≤ t → progress (some m) t = .ok () := by
    intro m hm t ht
    unfold progress
    simp only [hm, if_false]
    rw [if_neg (by omega)]
  constructor
  · intro s hs
    have hok := run_snap_ok E _ hs
    have h1 := (run_ok_iff hnn (irange k f) (pairwise_irange _ _) hok hsn).1 ⟨s, hs⟩
    obtain ⟨s', hs'⟩ := (run_ok_iff (tf := some (f - k)) (ntimes := n) hnn (irange 0 (f - k)) (pairwise_irange _ _) (by
      intro t ht
      have := mem_irange.1 ht
      obtain ⟨C, hC⟩ := hok (t + k) (mem_irange.2 (by omega))
      refine ⟨C, ?_⟩
      rw [← hC, ← heq (t + k) (by omega) (by omega)]
      congr 1
      omega) hsn').2 (by
      intro t ht hne hu
      have ht := mem_irange.1 ht
      have e := hrow (t + k) (by omega) (by omega)
      rw [show t + k - k = t by omega] at e
      obtain ⟨u, hu, hut, hune⟩ := hu
      have hu := mem_irange.1 hu
      have eu := hrow (u + k) (by omega) (by omega)
      rw [show u + k - k = u by omega] at eu
      obtain ⟨g1, -⟩ := h1 (t + k) (mem_irange.2 (by omega)) (by rwa [← e]) ⟨u + k, mem_irange.2 (by omega), by omega, by rwa [← eu]⟩
      refine ⟨fun w hw => ?_, hp (by omega) t (by omega)⟩
      have hw' : w + k ∈ window (t + k - 1) n := by
        unfold window at hw ⊢
        rw [List.mem_cons, mem_irange] at hw ⊢
        rcases hw with rfl | ⟨hw1, hw2⟩
        · left; omega
        · right
          split_ifs at hw1 ⊢ <;> omega
      obtain ⟨⟨q1, q2⟩, q3⟩ := g1 _ hw'
      have q1 := mem_irange.1 q1
      have ew := hrow (w + k) (by omega) (by omega)
      rw [show w + k - k = w by omega] at ew
      exact ⟨⟨mem_irange.2 (by omega), by omega⟩, by rwa [ew]⟩)
    refine ⟨s', hs', ?_⟩
    rw [← hts] at hs'
    exact run_retime hnn hφ (irange k f) (pairwise_irange _ _) (fun t ht => heq t (mem_irange.1 ht).1 (mem_irange.1 ht).2) hsn hs hs'
  · intro hn s' hs'
    have hok' := run_snap_ok E _ hs'
    have h1 := (run_ok_iff hnn (irange 0 (f - k)) (pairwise_irange _ _) hok' hsn').1 ⟨s', hs'⟩
    refine (run_ok_iff (tf := some f) (ntimes := n) hnn (irange k f) (pairwise_irange _ _) ?_ hsn).2 ?_
    · intro t ht
      have ht := mem_irange.1 ht
      obtain ⟨C, hC⟩ := hok' (t - k) (mem_irange.2 (by omega))
      exact ⟨C, by rw [← hC, heq t (by omega) (by omega)]⟩
    · intro t ht hne hu
      have ht := mem_irange.1 ht
      obtain ⟨u, hu, hut, hune⟩ := hu
      have hu := mem_irange.1 hu
      obtain ⟨g1, -⟩ := h1 (t - k) (mem_irange.2 (by omega)) (by rwa [hrow t (by omega) (by omega)])
        ⟨u - k, mem_irange.2 (by omega), by omega, by rwa [hrow u (by omega) (by omega)]⟩
      refine ⟨fun w hw => ?_, hp (by omega) t (by omega)⟩
      have hw' : w = t - 1 := by
        unfold window at hw
        rw [List.mem_cons, mem_irange] at hw
        rcases hw with rfl | ⟨hw1, hw2⟩
        · rfl
        · split_ifs at hw1 <;> omega
      subst hw'
      obtain ⟨⟨q1, q2⟩, q3⟩ := g1 (t - k - 1) (by unfold window; simp)
      have q1 := mem_irange.1 q1
      have ew := hrow (t - 1) (by omega) (by omega)
      rw [show t - 1 - k = t - k - 1 by omega] at ew
      exact ⟨⟨mem_irange.2 (by omega), by omega⟩, by rwa [← ew]⟩

end

/-! ### C118 -/

variable {D D' : Dataset} {name name' : String} {O O' : Series} {v v' : Variable} {tn yn xn tn' yn' xn' : String}

/-- **C118, partial** If a run over the times `k..k+n-1` of a dataset succeeds, then the run over a dataset that stores just these maps succeeds and
returns the same table, with the times counted from `k`: the same eddies, rows and identifiers. If `ntimes` is at most zero, the first run succeeds
exactly if the second one does. What is missing: for `ntimes` at least one (the default is 5) the first run raises an exception as soon as eddies are
found at two times (`C118_refuted`). -/
theorem C118_partial (hD : Holds D name O v tn yn xn) {k n : ℕ} (hD' : Holds D' name' (O.during k n) v' tn' yn' xn') (hn : 0 < n) (hkn : k + n ≤ O.T)
    {nan nan' : Bool} {o o' : Tracker} (ho : newTracker D name nan = .ok o) (ho' : newTracker D' name' nan' = .ok o') {s : SpaceFilter}
    (hs : ValidSetup s) (c : Criteria ℝ) {Pt : Type} {E : Env Cols ℝ Pt} (hnn : IsNN E.dist E.nn) (L : Libs) (levels : List ℝ) (ntimes : Int)
    {regs regs' : Regs Cols} (hr : StoreEmpty regs) (hr' : StoreEmpty regs') :
    (∀ st, ({ o with criteria := c, setup := s }.timeTracking E L k (some (k + n)) (.array levels) ntimes true regs).2 = .ok st →
      ∃ st', ({ o' with criteria := c, setup := s }.timeTracking E L 0 (some n) (.array levels) ntimes true regs').2 = .ok st' ∧
        st'.table.rows = st.table.rows.map fun r => ⟨r.id, r.idx, (r.val.1 - k, r.val.2)⟩) ∧
    (ntimes ≤ 0 → ((∃ st, ({ o with criteria := c, setup := s }.timeTracking E L k (some (k + n)) (.array levels) ntimes true regs).2 = .ok st) ↔
      ∃ st', ({ o' with criteria := c, setup := s }.timeTracking E L 0 (some n) (.array levels) ntimes true regs').2 = .ok st')) := by
  rw [hD.new nan] at ho
  injection ho with ho
  subst ho
  rw [hD'.new nan'] at ho'
  injection ho' with ho'
  subst ho'
  have hin : InSeries O k (some (k + n)) := Or.inr (Or.inr ⟨by omega, _, rfl, by exact_mod_cast hkn⟩)
  have hin' : InSeries (O.during k n) 0 (some n) := Or.inr (Or.inr ⟨le_rfl, _, rfl, le_rfl⟩)
  rw [hD.run_in (o := { freshTracker D v O nan with criteria := c, setup := s }) ⟨rfl, rfl, rfl, rfl⟩ rfl hs E L hin,
    hD'.run_in (o := { freshTracker D' v' (O.during k n) nan' with criteria := c, setup := s }) ⟨rfl, rfl, rfl, rfl⟩ rfl hs E L hin',
    (trackFields_pure _ _ _ (fun t _ => fields_ok _ _) hr).1, (trackFields_pure _ _ _ (fun t _ => fields_ok _ _) hr').1,
    timeTracking_eq_run _ _ _ (by omega), timeTracking_eq_run _ _ _ (by omega)]
  have key := run_shift hnn (snap := fun t => pureSnapshot E c L (O.fields (anomaly s O.ny O.nx (O.z t.toNat))) levels)
    (snap' := fun t => pureSnapshot E c L ((O.during k n).fields (anomaly s (O.during k n).ny (O.during k n).nx ((O.during k n).z t.toNat))) levels)
    (fun t C hC => pureSnapshot_rows hC) (k := k) (f := k + n) (n := ntimes) (by omega) (by omega) (by
      intro t h1 h2
      have : (O.during k n).z (t - k).toNat = O.z t.toNat := by
        show O.z (k + (t - k).toNat) = _
        congr 1
        omega
      simp only [this]
      rfl)
  rw [show (k : Int) + n - k = n by omega] at key
  refine ⟨fun st hst => ?_, fun h0 => ⟨fun ⟨st, hst⟩ => ?_, fun ⟨st', hst'⟩ => key.2 h0 st' hst'⟩⟩
  · obtain ⟨st', h1, h2⟩ := key.1 st hst
    exact ⟨st', h1, by rw [h2]; rfl⟩
  · obtain ⟨st', h1, -⟩ := key.1 st hst
    exact ⟨st', h1⟩

/-- a late run on the dataset of the example stops with a KeyError -/
theorem dsLate {nn : List (ℝ × ℝ) → ℝ × ℝ → Nat} (hnn : IsNN haversine nn) {nan : Bool} {o : Tracker}
    (ho : newTracker (exDataset 3) "sla" nan = .ok o) :
    ({ o with criteria := exCriteria, setup := defaultSetup }.timeTracking (colsEnv true nn) exLibs 1 (some 3) (.array [1 / 2]) 5 true
      Regs.empty).2 = .error .keyError := by
  have := dsRun (colsEnv true nn) exLibs ho exCriteria (t0 := 1) (tf := some 3) (by
    intro t ht
    rw [trackTimes_some (by norm_num)] at ht
    have := mem_irange.1 ht
    omega) [1 / 2] 5 true Regs.empty
  rw [this, (trackFields_pure _ _ _ (fun _ _ => exField_ok) ⟨rfl, rfl⟩).1]
  obtain ⟨C, hC, hne⟩ := exSnapshot (colsEnv true nn)
  have hrows : ∀ t, rowsAt (fun _ : Int => pureSnapshot (colsEnv true nn) exCriteria exLibs exField [1 / 2]) t ≠ [] := by
    intro t
    unfold rowsAt
    simp only [hC]
    exact hne
  exact C06_late_start_fails (E := colsEnv true nn) hnn (fun _ => ⟨C, hC⟩) (fun t C hC => pureSnapshot_rows hC) one_pos 3 (by norm_num)
    (u := 1) (t := 2) le_rfl (by norm_num) (by norm_num) (hrows 1) (hrows 2)

/-- the run on the first two maps of the example -/
theorem dsEarly {nn : List (ℝ × ℝ) → ℝ × ℝ → Nat} (hnn : IsNN haversine nn) {nan : Bool} {T : ℕ} {o : Tracker}
    (ho : newTracker (exDataset T) "sla" nan = .ok o) {f : Int} (hf : 0 < f) (hT : f ≤ T) (n : Int) :
    ∃ st, ({ o with criteria := exCriteria, setup := defaultSetup }.timeTracking (colsEnv true nn) exLibs 0 (some f) (.array [1 / 2]) n true
      Regs.empty).2 = .ok st ∧ st.table.rows ≠ [] := by
  have := dsRun (colsEnv true nn) exLibs ho exCriteria (t0 := 0) (tf := some f) (by
    intro t ht
    rw [trackTimes_some hf.ne'] at ht
    have := mem_irange.1 ht
    omega) [1 / 2] n true Regs.empty
  rw [this]
  obtain ⟨st, hst⟩ := exLongRun hnn hf.ne' T n
  exact ⟨st, hst, exLongRun_ne hnn hf hst⟩

/-- **C118 is refuted**: a dataset of three maps, default arguments. The run over the last two of them raises a KeyError, the run over the dataset
that has these two maps only finds eddies. -/
theorem C118_refuted : ¬ ∀ (D D' : Dataset) (name : String) (O : Series) (k n : ℕ) (v v' : Variable) (tn yn xn tn' yn' xn' : String),
    Holds D name O v tn yn xn → Holds D' name (O.during k n) v' tn' yn' xn' → 0 < n → k + n ≤ O.T → ∀ o o' : Tracker,
    newTracker D name true = .ok o → newTracker D' name true = .ok o' → ∀ (c : Criteria ℝ) (nn : List (ℝ × ℝ) → ℝ × ℝ → Nat), IsNN haversine nn →
    ∀ (L : Libs) (levels : List ℝ) (st' : LoopState Cols),
    ({ o' with criteria := c, setup := defaultSetup }.timeTracking (colsEnv true nn) L 0 (some n) (.array levels) 5 true Regs.empty).2 = .ok st' →
    ∃ st, ({ o with criteria := c, setup := defaultSetup }.timeTracking (colsEnv true nn) L k (some (k + n)) (.array levels) 5 true
      Regs.empty).2 = .ok st := by
  intro h
  obtain ⟨nn, hnn⟩ := exists_isNN haversine
  obtain ⟨st', hst', -⟩ := dsEarly hnn ((dsHolds 2).new true) (f := 2) (by norm_num) (by norm_num) 5
  obtain ⟨st, hst⟩ := h (exDataset 3) (exDataset 2) "sla" (exSeries 3) 1 2 (exVar 3) (exVar 2) _ _ _ _ _ _ (dsHolds 3) (dsHolds 2) (by norm_num)
    (by show 3 ≤ 3; omega) _ _ ((dsHolds 3).new true) ((dsHolds 2).new true) exCriteria nn hnn exLibs [1 / 2] st' hst'
  have := dsLate hnn ((dsHolds 3).new true)
  rw [show ((1 : ℕ) : Int) + ((2 : ℕ) : Int) = 3 by norm_num, show ((1 : ℕ) : Int) = 1 by norm_num, this] at hst
  cases hst

/-- C118_partial: with `ntimes = 0` the run over the last two maps of the example succeeds too, and gives the table of the run on these two, one
time later -/
example (nan : Bool) : ∃ (nn : List (ℝ × ℝ) → ℝ × ℝ → Nat) (o o' : Tracker) (st st' : LoopState Cols), IsNN haversine nn ∧
    newTracker (exDataset 3) "sla" nan = .ok o ∧ newTracker (exDataset 2) "sla" nan = .ok o' ∧
    ({ o with criteria := exCriteria, setup := defaultSetup }.timeTracking (colsEnv true nn) exLibs 1 (some 3) (.array [1 / 2]) 0 true
      Regs.empty).2 = .ok st ∧
    ({ o' with criteria := exCriteria, setup := defaultSetup }.timeTracking (colsEnv true nn) exLibs 0 (some 2) (.array [1 / 2]) 0 true
      Regs.empty).2 = .ok st' ∧ st'.table.rows ≠ [] ∧
    st'.table.rows = st.table.rows.map fun r => ⟨r.id, r.idx, (r.val.1 - 1, r.val.2)⟩ := by
  obtain ⟨nn, hnn⟩ := exists_isNN haversine
  obtain ⟨st', hst', hne⟩ := dsEarly hnn ((dsHolds 2).new nan) (f := 2) (by norm_num) (by norm_num) 0
  have key := C118_partial (dsHolds 3) (k := 1) (n := 2) (dsHolds 2) (by norm_num) (by show 3 ≤ 3; omega) ((dsHolds 3).new nan)
    ((dsHolds 2).new nan) (s := defaultSetup) trivial exCriteria (E := colsEnv true nn) hnn exLibs [1 / 2] 0 (regs := Regs.empty)
    (regs' := Regs.empty) ⟨rfl, rfl⟩ ⟨rfl, rfl⟩
  obtain ⟨st, hst⟩ := (key.2 le_rfl).2 ⟨st', hst'⟩
  obtain ⟨st'', h1, h2⟩ := key.1 st hst
  have h3 : st'' = st' := by
    have := h1.symm.trans hst'
    injection this
  subst h3
  exact ⟨nn, _, _, st, st'', hnn, (dsHolds 3).new nan, (dsHolds 2).new nan, hst, h1, hne, h2⟩

/-! ### C119 -/

/-- **C119** Two datasets on the same grid whose maps agree before the time `f`. If the run over the second one up to a later time succeeds, then so
does the run over the first one up to `f`, and its table is the part of the other table before `f`, row for row and with the same identifiers. -/
theorem C119_no_influence (hD : Holds D name O v tn yn xn) (hD' : Holds D' name' O' v' tn' yn' xn') (hlat : O'.lat = O.lat) (hlon : O'.lon = O.lon)
    {nan nan' : Bool} {o o' : Tracker} (ho : newTracker D name nan = .ok o) (ho' : newTracker D' name' nan' = .ok o') {s : SpaceFilter}
    (hs : ValidSetup s) (c : Criteria ℝ) {Pt : Type} {E : Env Cols ℝ Pt} (hnn : IsNN E.dist E.nn) (L : Libs) (levels : List ℝ) (ntimes : Int)
    {regs regs' : Regs Cols} (hr : StoreEmpty regs) (hr' : StoreEmpty regs') {t0 f f' : Int} (h0 : 0 ≤ t0) (h1 : t0 < f) (h2 : f ≤ f') (hT : f ≤ O.T)
    (hT' : f' ≤ O'.T) (hz : ∀ t : ℕ, t0 ≤ t → (t : Int) < f → ∀ r < O.ny, ∀ c < O.nx, O'.z t r c = O.z t r c) {st' : LoopState Cols}
    (hst' : ({ o' with criteria := c, setup := s }.timeTracking E L t0 (some f') (.array levels) ntimes true regs').2 = .ok st') :
    ∃ st, ({ o with criteria := c, setup := s }.timeTracking E L t0 (some f) (.array levels) ntimes true regs).2 = .ok st ∧
      st.table.rows = st'.table.rows.filter fun r => r.val.1 < f := by
  rw [hD.new nan] at ho
  injection ho with ho
  subst ho
  rw [hD'.new nan'] at ho'
  injection ho' with ho'
  subst ho'
  have hin : InSeries O t0 (some f) := Or.inr (Or.inr ⟨h0, _, rfl, hT⟩)
  have hin' : InSeries O' t0 (some f') := Or.inr (Or.inr ⟨h0, _, rfl, hT'⟩)
  rw [hD.run_in (o := { freshTracker D v O nan with criteria := c, setup := s }) ⟨rfl, rfl, rfl, rfl⟩ rfl hs E L hin,
    (trackFields_pure _ _ _ (fun t _ => fields_ok _ _) hr).1]
  rw [hD'.run_in (o := { freshTracker D' v' O' nan' with criteria := c, setup := s }) ⟨rfl, rfl, rfl, rfl⟩ rfl hs E L hin',
    (trackFields_pure _ _ _ (fun t _ => fields_ok _ _) hr').1] at hst'
  obtain ⟨st, hst, he⟩ := C02_history_append_only hnn (fun t C hC => pureSnapshot_rows hC) (show f ≠ 0 by omega) (show f' ≠ 0 by omega) h2 hst'
  refine ⟨st, ?_, he⟩
  rw [← hst, timeTracking_eq_run _ _ _ (by omega), timeTracking_eq_run _ _ _ (by omega)]
  apply run_congr
  intro t ht
  have ht := mem_irange.1 ht
  have := seen_congr (O := O) (O' := O') hlat hlon s (hz t.toNat (by omega) (by omega))
  show pureSnapshot E c L (O.fields _) levels = pureSnapshot E c L (O'.fields _) levels
  rw [this]

/-- **C119** for runs that fail: an exception before the time `f` is raised by both runs -/
theorem C119_error (hD : Holds D name O v tn yn xn) (hD' : Holds D' name' O' v' tn' yn' xn') (hlat : O'.lat = O.lat) (hlon : O'.lon = O.lon)
    {nan nan' : Bool} {o o' : Tracker} (ho : newTracker D name nan = .ok o) (ho' : newTracker D' name' nan' = .ok o') {s : SpaceFilter}
    (hs : ValidSetup s) (c : Criteria ℝ) {Pt : Type} {E : Env Cols ℝ Pt} (L : Libs) (levels : List ℝ) (ntimes : Int) {online : Bool}
    {regs regs' : Regs Cols} (hr : StoreEmpty regs) (hr' : StoreEmpty regs') {t0 f f' : Int} (h0 : 0 ≤ t0) (h1 : t0 < f) (h2 : f ≤ f') (hT : f ≤ O.T)
    (hT' : f' ≤ O'.T) (hz : ∀ t : ℕ, t0 ≤ t → (t : Int) < f → ∀ r < O.ny, ∀ c < O.nx, O'.z t r c = O.z t r c) {e : PyErr}
    (hst : ({ o with criteria := c, setup := s }.timeTracking E L t0 (some f) (.array levels) ntimes online regs).2 = .error e) :
    ({ o' with criteria := c, setup := s }.timeTracking E L t0 (some f') (.array levels) ntimes online regs').2 = .error e := by
  rw [hD.new nan] at ho
  injection ho with ho
  subst ho
  rw [hD'.new nan'] at ho'
  injection ho' with ho'
  subst ho'
  have hin : InSeries O t0 (some f) := Or.inr (Or.inr ⟨h0, _, rfl, hT⟩)
  have hin' : InSeries O' t0 (some f') := Or.inr (Or.inr ⟨h0, _, rfl, hT'⟩)
  rw [hD.run_in (o := { freshTracker D v O nan with criteria := c, setup := s }) ⟨rfl, rfl, rfl, rfl⟩ rfl hs E L hin,
    (trackFields_pure _ _ _ (fun t _ => fields_ok _ _) hr).1, timeTracking_eq_run _ _ _ (by omega)] at hst
  rw [hD'.run_in (o := { freshTracker D' v' O' nan' with criteria := c, setup := s }) ⟨rfl, rfl, rfl, rfl⟩ rfl hs E L hin',
    (trackFields_pure _ _ _ (fun t _ => fields_ok _ _) hr').1, timeTracking_eq_run _ _ _ (by omega), irange_append h1.le h2]
  apply run_error_prefix
  rw [run_tf E _ (show f' ≠ 0 by omega) (show f ≠ 0 by omega), ← hst]
  apply run_congr
  intro t ht
  have ht := mem_irange.1 ht
  have := seen_congr (O := O) (O' := O') hlat hlon s (hz t.toNat (by omega) (by omega))
  show pureSnapshot E c L (O'.fields _) levels = pureSnapshot E c L (O.fields _) levels
  rw [this]

/-- C119: the first map of the example, and all three -/
example (nan : Bool) : ∃ (nn : List (ℝ × ℝ) → ℝ × ℝ → Nat) (o o' : Tracker) (st st' : LoopState Cols), IsNN haversine nn ∧
    newTracker (exDataset 1) "sla" nan = .ok o ∧ newTracker (exDataset 3) "sla" nan = .ok o' ∧
    ({ o with criteria := exCriteria, setup := defaultSetup }.timeTracking (colsEnv true nn) exLibs 0 (some 1) (.array [1 / 2]) 5 true
      Regs.empty).2 = .ok st ∧
    ({ o' with criteria := exCriteria, setup := defaultSetup }.timeTracking (colsEnv true nn) exLibs 0 (some 3) (.array [1 / 2]) 5 true
      Regs.empty).2 = .ok st' ∧ st.table.rows ≠ [] ∧ st.table.rows = st'.table.rows.filter fun r => r.val.1 < 1 := by
  obtain ⟨nn, hnn⟩ := exists_isNN haversine
  obtain ⟨st1, hst1, hne⟩ := dsEarly hnn ((dsHolds 1).new nan) (f := 1) (by norm_num) (by norm_num) 5
  obtain ⟨st', hst', -⟩ := dsEarly hnn ((dsHolds 3).new nan) (f := 3) (by norm_num) (by norm_num) 5
  obtain ⟨st, hst, he⟩ := C119_no_influence (dsHolds 1) (dsHolds 3) rfl rfl ((dsHolds 1).new nan) ((dsHolds 3).new nan) (s := defaultSetup) trivial
    exCriteria (E := colsEnv true nn) hnn exLibs [1 / 2] 5 (regs := Regs.empty) (regs' := Regs.empty) ⟨rfl, rfl⟩ ⟨rfl, rfl⟩ (t0 := 0) (f := 1)
    (f' := 3) le_rfl one_pos (by norm_num) le_rfl le_rfl (fun _ _ _ _ _ _ _ => rfl) hst'
  have h3 : st = st1 := by
    have := hst.symm.trans hst1
    injection this
  subst h3
  exact ⟨nn, _, _, st, st', hnn, (dsHolds 1).new nan, (dsHolds 3).new nan, hst, hst', hne, he⟩

end Trackeddy
