import Verif.Props.PipelineExample
import Verif.Props.Snapshot

/-!
C01-C09 and C12 for the whole detection (Model/Pipeline.lean): the hypotheses on the snapshots that the theorems of
Props/Tracking.lean and Props/Snapshot.lean have are met by the snapshots computed from gridded data.
-/
namespace Trackeddy
open Spec

theorem pureSnapshot_rows {Pt : Type} {E : Env Cols ℝ Pt} {c : Criteria ℝ} {L : Libs} {S : Fields} {levels : List ℝ} {C : Tbl Cols}
    (hC : pureSnapshot E c L S levels = .ok C) : SnapRows C.rows := by
  have := detectSnapshot_inv (fun l tb htb => pureLevel_level htb) _ hC
  exact ⟨this.first, this.contig⟩

section
variable {Pt : Type} {E : Env Cols ℝ Pt} {c : Criteria ℝ} {L : Libs} {field : Int → Fields} {levels : List ℝ} {t0 : Int}
  {T : Nat} {ntimes : Int} {regs : Regs Cols}

/-- **C01** from the data: the identifiers of the table are exactly `0..k-1`, the table is sorted by identifier, time and
contour point, and every eddy has its first contour point at each of its times. -/
theorem C01_from_data {tf : Option Int} (hnn : IsNN E.dist E.nn) (h : ∀ t ∈ trackTimes t0 tf T, (field t).Ok) (hr : StoreEmpty regs)
    {s : LoopState Cols} (hs : (trackFields E c L field levels t0 tf T ntimes true regs).2 = .ok s) :
    (∃ k, Contiguous s.table.rows k) ∧ SortedTrack s.table.rows ∧ HasFirstT s.table.rows := by
  rw [(trackFields_pure E c L h hr).1] at hs
  exact ⟨C01_identifiers_contiguous hnn (fun t C hC => pureSnapshot_rows hC) hs,
    C01_table_sorted hnn (fun t C hC => pureSnapshot_rows hC) hs⟩

/-- **C02** from the data: the table up to time `f` is part of the table up to a later time, row for row. -/
theorem C02_from_data (hnn : IsNN E.dist E.nn) {f f' : Int} (hf : f ≠ 0) (hf' : f' ≠ 0) (hff : f ≤ f')
    (h : ∀ t, t0 ≤ t → t < f' → (field t).Ok) {regs' : Regs Cols} (hr : StoreEmpty regs) (hr' : StoreEmpty regs')
    {s' : LoopState Cols} (hs : (trackFields E c L field levels t0 (some f') T ntimes true regs').2 = .ok s') :
    ∃ s, (trackFields E c L field levels t0 (some f) T ntimes true regs).2 = .ok s ∧
      s.table.rows = s'.table.rows.filter (fun r => r.val.1 < f) := by
  have ht : ∀ g : Int, g ≠ 0 → ∀ t ∈ trackTimes t0 (some g) T, t0 ≤ t ∧ t < g := by
    intro g hg t ht
    unfold trackTimes at ht
    simp only [hg, if_false] at ht
    exact mem_irange.1 ht
  have h1 : ∀ t ∈ trackTimes t0 (some f') T, (field t).Ok := fun t hx => h t (ht f' hf' t hx).1 (ht f' hf' t hx).2
  have h2 : ∀ t ∈ trackTimes t0 (some f) T, (field t).Ok := fun t hx => h t (ht f hf t hx).1 (by have := (ht f hf t hx).2; omega)
  rw [(trackFields_pure E c L h1 hr').1] at hs
  rw [(trackFields_pure E c L h2 hr).1]
  exact C02_history_append_only hnn (fun t C hC => pureSnapshot_rows hC) hf hf' hff hs

/-- **C12** from the data: identifiers of a snapshot are exactly `0..k-1`, rows are sorted by identifier and contour point,
every eddy has its first contour point. -/
theorem C12_from_data {S : Fields} (h : S.Ok) (hr : StoreEmpty regs) {C : Tbl Cols}
    (hC : (snapshotOf E c L S levels regs).2 = .ok C) :
    (∃ k, Contiguous C.rows k) ∧ SortedSnap C.rows ∧ HasFirst C.rows := by
  rw [(snapshotOf_pure E c L h levels hr).1] at hC
  exact C12_snapshot_contiguous_sorted (fun l tb htb => pureLevel_level htb) levels hC

/-- **C07** from the data: `ntimes` does not influence the table. -/
theorem C07_from_data {tf : Option Int} (hnn : IsNN E.dist E.nn) (h : ∀ t ∈ trackTimes t0 tf T, (field t).Ok) (hr : StoreEmpty regs)
    {n n' : Int} {s s' : LoopState Cols} (hs : (trackFields E c L field levels t0 tf T n true regs).2 = .ok s)
    (hs' : (trackFields E c L field levels t0 tf T n' true regs).2 = .ok s') : s.table = s'.table := by
  rw [(trackFields_pure E c L h hr).1] at hs hs'
  exact C07_ntimes_has_no_effect hnn (fun t C hC => pureSnapshot_rows hC) hs hs'

/-- **C04** from the data, for one level other than zero: the table up to `f` included is the table before `f` together with
the eddies of the contour lines of time `f` that meet the criteria. Each of them continues the track whose last known maximum
is nearest, if that is nearer than its radius, and starts a new track otherwise (`LinkRule`). -/
theorem C04_from_data (hnn : IsNN E.dist E.nn) {l : ℝ} (hl : levels.filter (· ≠ 0) = [l]) {f : Int} (hf : f ≠ 0) (hf1 : f + 1 ≠ 0)
    (h0 : t0 ≤ f) (h : ∀ t, t0 ≤ t → t ≤ f → (field t).Ok) (hr : StoreEmpty regs) {s s' : LoopState Cols}
    (hs : (trackFields E c L field levels t0 (some f) T ntimes true regs).2 = .ok s)
    (hs' : (trackFields E c L field levels t0 (some (f + 1)) T ntimes true regs).2 = .ok s') (hne : s.table.rows ≠ []) :
    ∃ (lines : List (List Side)) (pick : List Side → Option EddyObj) (ends : List Pt) (a : Nat → Nat),
      Contours (field f).grid l lines ∧
      (∀ cl ∈ lines, ∀ e, pick cl = some e ↔
        ∃ pts, cl.map ((field f).grid.point l) = pts.map some ∧ Qualifies c L (field f) l pts e) ∧
      Contiguous s.table.rows ends.length ∧
      (∀ i p, ends[i]? = some p → IsEnd E.pos s.table.rows i p) ∧
      s'.table.rows.Perm (s.table.rows ++ tagged a f (snapRows ((lines.filterMap pick).map fun e => tableRows e.data))) ∧
      LinkRule E.dist E.pos E.radius ends (heads ((lines.filterMap pick).map fun e => tableRows e.data)) a := by
  have ht : ∀ g : Int, g ≠ 0 → ∀ t ∈ trackTimes t0 (some g) T, t0 ≤ t ∧ t < g := by
    intro g hg t ht
    unfold trackTimes at ht
    simp only [hg, if_false] at ht
    exact mem_irange.1 ht
  rw [(trackFields_pure E c L (fun t hx => h t (ht f hf t hx).1 (by have := (ht f hf t hx).2; omega)) hr).1] at hs
  rw [(trackFields_pure E c L (fun t hx => h t (ht _ hf1 t hx).1 (by have := (ht _ hf1 t hx).2; omega)) hr).1] at hs'
  have hok := h f h0 le_rfl
  obtain ⟨C, hC⟩ := run_snaps_ok _ hs' f (by
    unfold trackTimes
    simp only [hf1, if_false]
    exact mem_irange.2 ⟨h0, by omega⟩)
  have hrows := snapshot_one_level hok hl hC
  obtain ⟨lines, h1, h2⟩ := (contourList_lines L hok l).2
  rw [h2, List.filterMap_map] at hrows
  obtain ⟨ends, a, h3, h4, h5, h6⟩ := C04_linking_rule hnn (fun t C hC => pureSnapshot_rows hC) hf hf1 h0 hs hs' hne hC
    (by
      intro e he
      obtain ⟨o, ho, rfl⟩ := List.mem_map.1 he
      obtain ⟨cl, hcl, hst⟩ := List.mem_filterMap.1 ho
      obtain ⟨pts, h7, h8, curve, i, h9⟩ := storedEddy_iff.1 hst
      have hp : o.contour ≠ [] := by
        rw [h9.contour]
        rintro rfl
        exact contourList_ne L hok l (cl.map ((field f).grid.point l)) (by rw [h2]; exact List.mem_map_of_mem hcl) h7
      unfold EddyObj.rows
      simpa [EddyObj.data] using hp) hrows
  exact ⟨lines, fun cl => storedEddy c L (field f) l (cl.map ((field f).grid.point l)), ends, a, h1, fun cl _ e => storedEddy_iff,
    h3, h4, h5, h6⟩

end

/-- the field of the example at all times: the run succeeds up to any time -/
theorem exLongRun {nn : List (ℝ × ℝ) → ℝ × ℝ → Nat} (hnn : IsNN haversine nn) {f : Int} (hf : f ≠ 0) (T : Nat) (ntimes : Int) :
    ∃ s, (trackFields (colsEnv true nn) exCriteria exLibs (fun _ => exField) [1 / 2] 0 (some f) T ntimes true Regs.empty).2 = .ok s := by
  rw [(trackFields_pure _ _ _ (fun _ _ => exField_ok) ⟨rfl, rfl⟩).1]
  exact C06_gap_free_runs_succeed (E := colsEnv true nn) hnn (fun _ => exSnapshot _) (fun t C hC => pureSnapshot_rows hC) hf T ntimes

/-- and the table is not empty -/
theorem exLongRun_ne {nn : List (ℝ × ℝ) → ℝ × ℝ → Nat} (hnn : IsNN haversine nn) {f : Int} (hf : 0 < f) {T : Nat} {ntimes : Int}
    {s : LoopState Cols}
    (hs : (trackFields (colsEnv true nn) exCriteria exLibs (fun _ => exField) [1 / 2] 0 (some f) T ntimes true Regs.empty).2 = .ok s) :
    s.table.rows ≠ [] := by
  rw [(trackFields_pure _ _ _ (fun _ _ => exField_ok) ⟨rfl, rfl⟩).1] at hs
  have hsnap : ∀ (t : Int) C, (fun _ : Int => pureSnapshot (colsEnv true nn) exCriteria exLibs exField [1 / 2]) t = .ok C →
      SnapRows C.rows := fun t C hC => pureSnapshot_rows hC
  obtain ⟨g, hg⟩ := C03_no_detection_lost_or_invented (E := colsEnv true nn) hnn hsnap hs
  have hproc := ((C08_partial hf.ne' hs).2 0).2 ⟨le_rfl, hf⟩
  obtain ⟨C, hC, hne⟩ := exSnapshot (colsEnv true nn)
  intro h0
  rw [h0] at hg
  have := List.flatMap_eq_nil_iff.1 hg.symm.eq_nil 0 hproc
  simp only [tagged, rowsAt, hC] at this
  exact hne (List.map_eq_nil_iff.1 this)

/-- C01 for a run over two times -/
example : ∃ (E : Env Cols ℝ (ℝ × ℝ)) (s : LoopState Cols), s.table.rows ≠ [] ∧
    (∃ k, Contiguous s.table.rows k) ∧ SortedTrack s.table.rows ∧ HasFirstT s.table.rows := by
  obtain ⟨nn, hnn⟩ := exists_isNN haversine
  obtain ⟨s, hs⟩ := exLongRun hnn (f := 2) (by norm_num) 2 1
  exact ⟨colsEnv true nn, s, exLongRun_ne hnn (by norm_num) hs,
    C01_from_data (E := colsEnv true nn) hnn (fun _ _ => exField_ok) ⟨rfl, rfl⟩ hs⟩

/-- C02: the first of two times -/
example : ∃ s s' : LoopState Cols, s.table.rows ≠ [] ∧ s.table.rows = s'.table.rows.filter (fun r => r.val.1 < 1) := by
  obtain ⟨nn, hnn⟩ := exists_isNN haversine
  obtain ⟨s', hs'⟩ := exLongRun hnn (f := 2) (by norm_num) 2 1
  obtain ⟨s, h1, h2⟩ := C02_from_data (E := colsEnv true nn) hnn (f := 1) one_ne_zero (by norm_num) (by norm_num)
    (fun _ _ _ => exField_ok) (regs := Regs.empty) ⟨rfl, rfl⟩ ⟨rfl, rfl⟩ hs'
  exact ⟨s, s', exLongRun_ne hnn one_pos h1, h2⟩

/-- C04: the hypotheses are met by the second of two times -/
example : ∃ (nn : List (ℝ × ℝ) → ℝ × ℝ → Nat) (s s' : LoopState Cols), IsNN (colsEnv true nn).dist (colsEnv true nn).nn ∧
    ([1 / 2] : List ℝ).filter (· ≠ 0) = [1 / 2] ∧
    (trackFields (colsEnv true nn) exCriteria exLibs (fun _ => exField) [1 / 2] 0 (some 1) 2 1 true Regs.empty).2 = .ok s ∧
    (trackFields (colsEnv true nn) exCriteria exLibs (fun _ => exField) [1 / 2] 0 (some (1 + 1)) 2 1 true Regs.empty).2 = .ok s' ∧
    s.table.rows ≠ [] := by
  obtain ⟨nn, hnn⟩ := exists_isNN haversine
  obtain ⟨s, hs⟩ := exLongRun hnn (f := 1) (by norm_num) 2 1
  obtain ⟨s', hs'⟩ := exLongRun hnn (f := 1 + 1) (by norm_num) 2 1
  exact ⟨nn, s, s', hnn, by norm_num, hs, hs', exLongRun_ne hnn one_pos hs⟩

/-- C07: two values of `ntimes` -/
example : ∃ s s' : LoopState Cols, s.table.rows ≠ [] ∧ s.table = s'.table := by
  obtain ⟨nn, hnn⟩ := exists_isNN haversine
  obtain ⟨s, hs⟩ := exLongRun hnn (f := 2) (by norm_num) 2 1
  obtain ⟨s', hs'⟩ := exLongRun hnn (f := 2) (by norm_num) 2 5
  exact ⟨s, s', exLongRun_ne hnn (by norm_num) hs,
    C07_from_data (E := colsEnv true nn) hnn (fun _ _ => exField_ok) ⟨rfl, rfl⟩ hs hs'⟩

/-- C12: a snapshot with eddies -/
example {Pt : Type} (E : Env Cols ℝ Pt) : ∃ C : Tbl Cols, C.rows ≠ [] ∧ (∃ k, Contiguous C.rows k) ∧ SortedSnap C.rows ∧ HasFirst C.rows := by
  obtain ⟨C, hC, hne⟩ := exSnapshot E
  have hr : StoreEmpty (Regs.empty : Regs Cols) := ⟨rfl, rfl⟩
  rw [← (snapshotOf_pure E exCriteria exLibs exField_ok [1 / 2] hr).1] at hC
  exact ⟨C, hne, C12_from_data exField_ok hr hC⟩

end Trackeddy
