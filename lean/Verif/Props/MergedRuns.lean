import Verif.Props.Merged
import Verif.Props.Continuity

/-!
C04, C05, C06, C09, C10 and C107 from the data for any number of levels and any settings, if the eddies found at one level are at least the sum of
their radii apart.
-/
namespace Trackeddy
open Spec

section
variable {prunes : Bool} {nn : List (ℝ × ℝ) → ℝ × ℝ → Nat} {c : Criteria ℝ} {L : Libs} {field : Int → Fields} {levels : List ℝ} {t0 : Int} {T : Nat}
  {ntimes : Int} {regs : Regs Cols}

theorem merged_returns (hnn : IsNN haversine nn) {S : Fields} (h : S.Ok) (hd : ∀ l ∈ levels, l ≠ 0 → (foundIn c L S l).Pairwise RadiiApart)
    (hx : ∀ l ∈ levels, l ≠ 0 → ∃ x, (detectLevel c L S Regs.empty l).2 = .ok x) : ∃ C, pureSnapshot (colsEnv prunes nn) c L S levels = .ok C := by
  obtain ⟨t, R, h1, -⟩ := snapshot_levels (prunes := prunes) hnn (c := c) (L := L) h (levels := levels) (by
    intro l hl h0
    obtain ⟨x, hx⟩ := hx l hl h0
    rw [detectLevel_measures h] at hx
    exact ⟨levelFrame x.1, by unfold pureLevel; rw [hx]; rfl⟩) hd
  exact ⟨t, h1⟩

/-- the snapshots at the given times -/
theorem snapsOf_merged (hnn : IsNN haversine nn) {ts : List Int}
    (h : ∀ t ∈ ts, (field t).Ok ∧ ∀ l ∈ levels, l ≠ 0 → ∃ x, (detectLevel c L (field t) Regs.empty l).2 = .ok x)
    (hd : ∀ t ∈ ts, ∀ l ∈ levels, l ≠ 0 → (foundIn c L (field t) l).Pairwise RadiiApart) :
    (∀ t, ∃ C, snapsOf (colsEnv prunes nn) c L field levels ts t = .ok C) ∧
    (∀ t C, snapsOf (colsEnv prunes nn) c L field levels ts t = .ok C → SnapRows C.rows) ∧
    ∀ t ∈ ts, (rowsAt (snapsOf (colsEnv prunes nn) c L field levels ts) t ≠ [] ↔ ∃ l ∈ levels, l ≠ 0 ∧ foundIn c L (field t) l ≠ []) := by
  refine ⟨?_, ?_, ?_⟩
  · intro t
    unfold snapsOf
    split
    · rename_i ht
      exact merged_returns hnn (h t ht).1 (hd t ht) (h t ht).2
    · exact ⟨_, rfl⟩
  · intro t C hC
    unfold snapsOf at hC
    split at hC
    · exact pureSnapshot_rows hC
    · injection hC with hC
      subst hC
      exact ⟨fun r hr => by simp at hr, 0, by simp [Contiguous]⟩
  · intro t ht
    obtain ⟨C, hC⟩ := merged_returns (prunes := prunes) hnn (h t ht).1 (hd t ht) (h t ht).2
    obtain ⟨R, h1, h2⟩ := snapshot_merged hnn (h t ht).1 (hd t ht) hC
    unfold rowsAt snapsOf
    rw [if_pos ht, hC]
    simp only [h2]
    rw [ne_eq, snapRows_eq_nil (merged_ne (h t ht).1 h1), ← h1.ne_nil]

/-- **C04** from the data for any number of levels and any settings, if the eddies found at one level at time `f` are at least the sum of their radii apart:
the table up to `f` included is the table before `f` together with the eddies that the levels give at time `f` by the rule of C128. `ends` are latitude and
longitude of the extremum of each track at its latest time. An eddy continues the track whose end is nearest on the sphere, if it is nearer than the radius
of the eddy (6371 km to the unit), and starts a new track otherwise. -/
theorem C04_level_by_level (hnn : IsNN haversine nn) {f : Int} (hf : f ≠ 0) (hf1 : f + 1 ≠ 0)
    (h0 : t0 ≤ f) (h : ∀ t, t0 ≤ t → t ≤ f → (field t).Ok) (hr : StoreEmpty regs) {s s' : LoopState Cols}
    (hs : (trackFields (colsEnv prunes nn) c L field levels t0 (some f) T ntimes true regs).2 = .ok s)
    (hs' : (trackFields (colsEnv prunes nn) c L field levels t0 (some (f + 1)) T ntimes true regs).2 = .ok s')
    (hne : s.table.rows ≠ []) :
    ∃ es : ℝ → List EddyObj, (∀ l ∈ levels, l ≠ 0 → Found c L (field f) l (es l)) ∧ ((∀ l ∈ levels, l ≠ 0 → (es l).Pairwise RadiiApart) →
      ∃ (R : List EddyObj) (ends : List (ℝ × ℝ)) (a : Nat → Nat), LevelByLevel es levels R ∧
        Contiguous s.table.rows ends.length ∧
        (∀ (i : Nat) p, ends[i]? = some p → ∃ r ∈ s.table.rows, r.id = i ∧ r.idx = 0 ∧ ("maxima_y", some p.1) ∈ r.val.2 ∧
          ("maxima_x", some p.2) ∈ r.val.2 ∧ ∀ r' ∈ s.table.rows, r'.id = i → r'.val.1 ≤ r.val.1) ∧
        s'.table.rows.Perm (s.table.rows ++ tagged a f (snapRows (R.map fun e => tableRows e.data))) ∧
        LinkRule placeDist EddyObj.place EddyObj.radius ends R a) := by
  have ht : ∀ g : Int, g ≠ 0 → ∀ t ∈ trackTimes t0 (some g) T, t0 ≤ t ∧ t < g := by
    intro g hg t ht
    unfold trackTimes at ht
    simp only [hg, if_false] at ht
    exact mem_irange.1 ht
  have htimes : ∀ t ∈ trackTimes t0 (some f) T, (field t).Ok := fun t hx => h t (ht f hf t hx).1 (by have := (ht f hf t hx).2; omega)
  have hs0 := hs
  rw [(trackFields_pure _ c L htimes hr).1] at hs
  rw [(trackFields_pure _ c L (fun t hx => h t (ht _ hf1 t hx).1 (by have := (ht _ hf1 t hx).2; omega)) hr).1] at hs'
  have hok := h f h0 le_rfl
  obtain ⟨C, hC⟩ := run_snaps_ok _ hs' f (by
    unfold trackTimes
    simp only [hf1, if_false]
    exact mem_irange.2 ⟨h0, by omega⟩)
  refine ⟨foundIn c L (field f), fun l _ _ => foundIn_found hok l, fun hd => ?_⟩
  obtain ⟨R, hR, hrows⟩ := snapshot_merged hnn hok hd hC
  have hRne := merged_ne hok hR
  obtain ⟨ends, a, h3, h4, h5, h6⟩ := C04_linking_rule (E := colsEnv prunes nn) hnn (fun t C hC => pureSnapshot_rows hC) hf hf1 h0 hs hs' hne hC
    (by
      intro e he
      obtain ⟨o, ho, rfl⟩ := List.mem_map.1 he
      exact hRne o ho) hrows
  have hends : (ends.map fun p => (p.1 * (180 / Real.pi), p.2 * (180 / Real.pi))).map (fun p => ballTreePoint p.1 p.2) = ends := by
    rw [List.map_map]
    conv_rhs => rw [← List.map_id ends]
    exact List.map_congr_left fun p _ => direction_eq p
  refine ⟨R, ends.map fun p => (p.1 * (180 / Real.pi), p.2 * (180 / Real.pi)), a, hR, ?_, ?_, h5, ?_⟩
  · rwa [List.length_map]
  · intro i p hp
    rw [List.getElem?_map, Option.map_eq_some_iff] at hp
    obtain ⟨q, hq, rfl⟩ := hp
    obtain ⟨r, hrow, r1, r2, r3, r4⟩ := h4 i q hq
    obtain ⟨e, he⟩ := row_of_table (E := colsEnv prunes nn) hnn htimes hr hs0 hrow
    obtain ⟨c1, c2, -, c4, c5⟩ := columns_read he
    have hpi := Real.pi_ne_zero
    have hq1 : q.1 * (180 / Real.pi) = e.maxima.2.1 := by
      rw [← r3]
      simp only [colsEnv, realEnv, ballTreePoint, c1]
      field_simp
    have hq2 : q.2 * (180 / Real.pi) = e.maxima.2.2 := by
      rw [← r3]
      simp only [colsEnv, realEnv, ballTreePoint, c2]
      field_simp
    refine ⟨r, hrow, r1, r2, ?_, ?_, r4⟩
    · simp only [hq1]; exact c4
    · simp only [hq2]; exact c5
  · exact linkRule_eddies (prunes := prunes) (nn := nn) (heads_tableRows hRne) (by rw [hends]; exact h6)

/-- **C05** from the data (partial) for any number of levels and any settings: if the eddies found at one level and those that remain at each time are at
least the sum of their radii apart on the sphere, no two rows of the table have the same identifier, time and point number. Missing: overlapping eddies
(false, see `C05_refuted`). -/
theorem C05_partial_level_by_level (hnn : IsNN haversine nn) {tf : Option Int}
    (h : ∀ t ∈ trackTimes t0 tf T, (field t).Ok) (hr : StoreEmpty regs)
    {s : LoopState Cols} (hs : (trackFields (colsEnv prunes nn) c L field levels t0 tf T ntimes true regs).2 = .ok s) :
    ∃ es : Int → ℝ → List EddyObj, (∀ t ∈ trackTimes t0 tf T, ∀ l ∈ levels, l ≠ 0 → Found c L (field t) l (es t l)) ∧
      ((∀ t ∈ trackTimes t0 tf T, (∀ l ∈ levels, l ≠ 0 → (es t l).Pairwise RadiiApart) ∧ ∀ R, LevelByLevel (es t) levels R → R.Pairwise RadiiApart) →
        KeyUnique s.table.rows) := by
  classical
  refine ⟨fun t => foundIn c L (field t), fun t ht l _ _ => foundIn_found (h t ht) l, fun hd => ?_⟩
  rw [(trackFields_pure _ c L h hr).1, timeTracking_congr (snap' := fun t => if t ∈ trackTimes t0 tf T then
    pureSnapshot (colsEnv prunes nn) c L (field t) levels else .ok ⟨[], []⟩) _ _ _ (fun t ht => by rw [if_pos ht])] at hs
  refine C05_partial (E := colsEnv prunes nn) hnn haversine_symm haversine_triangle ?_ hs
  intro t C hC
  by_cases ht : t ∈ trackTimes t0 tf T
  · simp only [ht, if_true] at hC
    obtain ⟨R, hR, hrows⟩ := snapshot_merged hnn (h t ht) (hd t ht).1 hC
    have hne := merged_ne (h t ht) hR
    refine ⟨_, ?_, hrows, disjoint_eddies (heads_tableRows hne) ((hd t ht).2 R hR)⟩
    intro e he
    obtain ⟨o, ho, rfl⟩ := List.mem_map.1 he
    exact hne o ho
  · simp only [ht, if_false] at hC
    injection hC with hC
    subst hC
    exact ⟨[], by simp, rfl, fun i j v v' hv => by simp [heads] at hv⟩

/-- C06 in terms of what is found -/
theorem runs_merged (hnn : IsNN haversine nn) {f : Int} (h0 : 0 ≤ t0) (hf : f ≠ 0)
    (h : ∀ t, t0 ≤ t → t < f → (field t).Ok ∧ ∀ l ∈ levels, l ≠ 0 → ∃ x, (detectLevel c L (field t) Regs.empty l).2 = .ok x)
    (hd : ∀ t, t0 ≤ t → t < f → ∀ l ∈ levels, l ≠ 0 → (foundIn c L (field t) l).Pairwise RadiiApart) (hr : StoreEmpty regs) :
    ((∃ s, (trackFields (colsEnv prunes nn) c L field levels t0 (some f) T ntimes true regs).2 = .ok s) ↔
        ∀ t, t0 ≤ t → t < f → (∃ l ∈ levels, l ≠ 0 ∧ foundIn c L (field t) l ≠ []) → (∃ u, t0 ≤ u ∧ u < t ∧ ∃ l ∈ levels, l ≠ 0 ∧ foundIn c L (field u) l ≠ []) →
          ∀ w, (w = t - 1 ∨ t - 1 - min ntimes (t - 1) ≤ w ∧ w < t - 1) → t0 ≤ w ∧ ∃ l ∈ levels, l ≠ 0 ∧ foundIn c L (field w) l ≠ []) ∧
      ((¬ ∃ s, (trackFields (colsEnv prunes nn) c L field levels t0 (some f) T ntimes true regs).2 = .ok s) →
        (trackFields (colsEnv prunes nn) c L field levels t0 (some f) T ntimes true regs).2 = .error .keyError) := by
  have ht : ∀ t ∈ trackTimes t0 (some f) T, (field t).Ok ∧ ∀ l ∈ levels, l ≠ 0 → ∃ x, (detectLevel c L (field t) Regs.empty l).2 = .ok x :=
    fun t ht => h t ((mem_trackTimes_some hf).1 ht).1 ((mem_trackTimes_some hf).1 ht).2
  rw [run_snapsOf (fun t hx => (ht t hx).1) hr]
  obtain ⟨h1, h2, h3⟩ := snapsOf_merged (prunes := prunes) hnn ht
    (fun t ht => hd t ((mem_trackTimes_some hf).1 ht).1 ((mem_trackTimes_some hf).1 ht).2)
  obtain ⟨h4, h5⟩ := C06_partial (E := colsEnv prunes nn) hnn h1 h2 h0 hf T ntimes
  refine ⟨?_, h5⟩
  rw [h4]
  have hrow : ∀ t, t0 ≤ t → t < f → (rowsAt (snapsOf (colsEnv prunes nn) c L field levels (trackTimes t0 (some f) T)) t ≠ [] ↔
      ∃ l ∈ levels, l ≠ 0 ∧ foundIn c L (field t) l ≠ []) := fun t ha hb => h3 t ((mem_trackTimes_some hf).2 ⟨ha, hb⟩)
  constructor
  · intro hx t ha hb he hu w hw
    obtain ⟨u, u1, u2, u3⟩ := hu
    have := hx t ha hb ((hrow t ha hb).2 he) ⟨u, u1, u2, (hrow u u1 (by omega)).2 u3⟩ w hw
    exact ⟨this.1, (hrow w this.1 (by omega)).1 this.2⟩
  · intro hx t ha hb he hu w hw
    obtain ⟨u, u1, u2, u3⟩ := hu
    have := hx t ha hb ((hrow t ha hb).1 he) ⟨u, u1, u2, (hrow u u1 (by omega)).1 u3⟩ w hw
    exact ⟨this.1, (hrow w this.1 (by omega)).2 this.2⟩

/-- **C06** from the data (partial) for any number of levels and any settings, if the detection of the levels succeeds at each time and the eddies found at
one level are at least the sum of their radii apart. With `tf` given the run succeeds exactly if, whenever eddies are found at `t` and at some earlier time,
eddies are found at `t-1` and at each of the `ntimes` times before (cut off at time 0); otherwise it raises `KeyError`. Missing: it is false that a run
succeeds for all other patterns. -/
theorem C06_partial_level_by_level (hnn : IsNN haversine nn) {f : Int} (h0 : 0 ≤ t0) (hf : f ≠ 0)
    (h : ∀ t, t0 ≤ t → t < f → (field t).Ok ∧ ∀ l ∈ levels, l ≠ 0 → ∃ x, (detectLevel c L (field t) Regs.empty l).2 = .ok x) (hr : StoreEmpty regs) :
    ∃ es : Int → ℝ → List EddyObj, (∀ t, t0 ≤ t → t < f → ∀ l ∈ levels, l ≠ 0 → Found c L (field t) l (es t l)) ∧
      ((∀ t, t0 ≤ t → t < f → ∀ l ∈ levels, l ≠ 0 → (es t l).Pairwise RadiiApart) →
      ((∃ s, (trackFields (colsEnv prunes nn) c L field levels t0 (some f) T ntimes true regs).2 = .ok s) ↔
        ∀ t, t0 ≤ t → t < f → (∃ l ∈ levels, l ≠ 0 ∧ es t l ≠ []) → (∃ u, t0 ≤ u ∧ u < t ∧ ∃ l ∈ levels, l ≠ 0 ∧ es u l ≠ []) →
          ∀ w, (w = t - 1 ∨ t - 1 - min ntimes (t - 1) ≤ w ∧ w < t - 1) → t0 ≤ w ∧ ∃ l ∈ levels, l ≠ 0 ∧ es w l ≠ []) ∧
      ((¬ ∃ s, (trackFields (colsEnv prunes nn) c L field levels t0 (some f) T ntimes true regs).2 = .ok s) →
        (trackFields (colsEnv prunes nn) c L field levels t0 (some f) T ntimes true regs).2 = .error .keyError)) :=
  ⟨fun t => foundIn c L (field t), fun t ha hb l _ _ => foundIn_found (h t ha hb).1 l, fun hd => runs_merged hnn h0 hf h hd hr⟩

/-- **C09** from the data for any number of levels and any settings, if the detection of the levels succeeds at each time and the eddies found at one level are
at least the sum of their radii apart: with `tf` omitted the run succeeds exactly if eddies are found at one time at most. -/
theorem C09_refuted_level_by_level (hnn : IsNN haversine nn)
    (h : ∀ t : Int, 0 ≤ t → t < T → (field t).Ok ∧ ∀ l ∈ levels, l ≠ 0 → ∃ x, (detectLevel c L (field t) Regs.empty l).2 = .ok x) (hr : StoreEmpty regs)
    (online : Bool) :
    ∃ es : Int → ℝ → List EddyObj, (∀ t : Int, 0 ≤ t → t < T → ∀ l ∈ levels, l ≠ 0 → Found c L (field t) l (es t l)) ∧
      ((∀ t : Int, 0 ≤ t → t < T → ∀ l ∈ levels, l ≠ 0 → (es t l).Pairwise RadiiApart) →
      ((∃ s, (trackFields (colsEnv prunes nn) c L field levels t0 none T ntimes online regs).2 = .ok s) ↔
        ∀ u t : Int, 0 ≤ u → u < t → t < T → (∃ l ∈ levels, l ≠ 0 ∧ es u l ≠ []) → ∀ l ∈ levels, l ≠ 0 → es t l = [])) := by
  have hmem : ∀ t, t ∈ trackTimes t0 none T ↔ 0 ≤ t ∧ t < T := fun t => by
    unfold trackTimes
    exact mem_irange
  have ht : ∀ t ∈ trackTimes t0 none T, (field t).Ok ∧ ∀ l ∈ levels, l ≠ 0 → ∃ x, (detectLevel c L (field t) Regs.empty l).2 = .ok x :=
    fun t ht => h t ((hmem t).1 ht).1 ((hmem t).1 ht).2
  rw [run_snapsOf (fun t hx => (ht t hx).1) hr]
  refine ⟨fun t => foundIn c L (field t), fun t ha hb l _ _ => foundIn_found (h t ha hb).1 l, fun hd => ?_⟩
  obtain ⟨h1, h2, h3⟩ := snapsOf_merged (prunes := prunes) hnn ht (fun t ht => hd t ((hmem t).1 ht).1 ((hmem t).1 ht).2)
  rw [C09_refuted (E := colsEnv prunes nn) hnn h1 h2]
  have hrow : ∀ t : Int, 0 ≤ t → t < T → (rowsAt (snapsOf (colsEnv prunes nn) c L field levels (trackTimes t0 none T)) t ≠ [] ↔
      ∃ l ∈ levels, l ≠ 0 ∧ foundIn c L (field t) l ≠ []) := fun t ha hb => h3 t ((hmem t).2 ⟨ha, hb⟩)
  constructor
  · intro hx u t ha hb hc he l hl h0
    by_contra hne
    exact (hrow t (by omega) hc).2 ⟨l, hl, h0, hne⟩ (hx u t ha hb hc ((hrow u ha (by omega)).2 he))
  · intro hx u t ha hb hc he
    by_contra hne
    obtain ⟨l, hl, h0, h1⟩ := (hrow t (by omega) hc).1 hne
    exact h1 (hx u t ha hb hc ((hrow u ha (by omega)).1 he) l hl h0)

/-- **C10** from the data (partial) for any number of levels and any settings, if the eddies found at one level are at least the sum of their radii apart: what
a successful run without online tracking writes, namely the eddies that the levels give at each time at which some are found, except for the first such time.
The returned table holds those. Missing: the first time with eddies is never written. -/
theorem C10_partial_level_by_level (hnn : IsNN haversine nn) {tf : Option Int}
    (h : ∀ t ∈ trackTimes t0 tf T, (field t).Ok) (hr : StoreEmpty regs)
    {s : LoopState Cols} (hs : (trackFields (colsEnv prunes nn) c L field levels t0 tf T ntimes false regs).2 = .ok s) :
    ∃ es : Int → ℝ → List EddyObj, (∀ t ∈ trackTimes t0 tf T, ∀ l ∈ levels, l ≠ 0 → Found c L (field t) l (es t l)) ∧
      ((∀ t ∈ trackTimes t0 tf T, ∀ l ∈ levels, l ≠ 0 → (es t l).Pairwise RadiiApart) → ∃ R : Int → List EddyObj,
      (∀ t ∈ trackTimes t0 tf T, LevelByLevel (es t) levels (R t)) ∧
      s.written.map (fun p => (p.1, p.2.rows)) = (((trackTimes t0 tf T).filter fun t => R t ≠ []).tail.map fun t =>
        (t, atTime t (snapRows ((R t).map fun e => tableRows e.data)))) ∧
      (∀ t, ((trackTimes t0 tf T).filter fun t => R t ≠ []).head? = some t →
        s.table.rows.Perm (atTime t (snapRows ((R t).map fun e => tableRows e.data)))) ∧
      ((∀ t ∈ trackTimes t0 tf T, ∀ l ∈ levels, l ≠ 0 → es t l = []) → s.table.rows = [])) := by
  classical
  refine ⟨fun t => foundIn c L (field t), fun t ht l _ _ => foundIn_found (h t ht) l, fun hd => ?_⟩
  rw [run_snapsOf h hr] at hs
  have hex : ∀ t : Int, ∃ R, t ∈ trackTimes t0 tf T → LevelByLevel (foundIn c L (field t)) levels R ∧
      rowsAt (snapsOf (colsEnv prunes nn) c L field levels (trackTimes t0 tf T)) t = snapRows (R.map fun e => tableRows e.data) := by
    intro t
    by_cases ht : t ∈ trackTimes t0 tf T
    · obtain ⟨C, hC⟩ := run_snaps_ok _ hs t ht
      have hC' : pureSnapshot (colsEnv prunes nn) c L (field t) levels = .ok C := by
        unfold snapsOf at hC
        rwa [if_pos ht] at hC
      obtain ⟨R, h1, h2⟩ := snapshot_merged hnn (h t ht) (hd t ht) hC'
      refine ⟨R, fun _ => ⟨h1, ?_⟩⟩
      unfold rowsAt
      simp only [hC, h2]
    · exact ⟨[], fun h => absurd h ht⟩
  choose R hR using hex
  have h3 : ∀ t ∈ trackTimes t0 tf T, rowsAt (snapsOf (colsEnv prunes nn) c L field levels (trackTimes t0 tf T)) t =
      snapRows ((R t).map fun e => tableRows e.data) := fun t ht => (hR t ht).2
  have hp : s.processed = trackTimes t0 tf T := processed_eq _ hs
  obtain ⟨h4, h5, h6⟩ := C10_partial hs
  rw [hp] at h4 h5 h6
  have hrow : ∀ t ∈ trackTimes t0 tf T, (rowsAt (snapsOf (colsEnv prunes nn) c L field levels (trackTimes t0 tf T)) t = [] ↔ R t = []) := by
    intro t ht
    rw [h3 t ht, snapRows_eq_nil (merged_ne (h t ht) (hR t ht).1)]
  have hfil : ((trackTimes t0 tf T).filter fun t => rowsAt (snapsOf (colsEnv prunes nn) c L field levels (trackTimes t0 tf T)) t ≠ []) =
      (trackTimes t0 tf T).filter fun t => R t ≠ [] := by
    apply List.filter_congr
    intro t ht
    simp only [ne_eq, hrow t ht]
  rw [hfil] at h4 h5 h6
  refine ⟨R, fun t ht => (hR t ht).1, ?_, ?_, ?_⟩
  · rw [h4]
    apply List.map_congr_left
    intro t ht
    rw [h3 t (List.mem_filter.1 (List.mem_of_mem_tail ht)).1]
  · intro t ht
    have := h5 t ht
    rwa [h3 t (List.mem_filter.1 (List.mem_of_mem_head? ht)).1] at this
  · intro hall
    apply h6
    rw [List.filter_eq_nil_iff]
    intro t ht
    have : ¬ R t ≠ [] := fun hne => by
      obtain ⟨l, hl, h0, h1⟩ := (hR t ht).1.ne_nil.1 hne
      exact h1 (hall t ht l hl h0)
    simpa using this

/-- **C107** from the data (partial) for any number of levels and any settings, if the eddies found at one level are at least the sum of their radii apart.
Each eddy of a track other than the earliest ones lies within its radius (column `radius_eddy`, km on a sphere of radius 6371 km) of an eddy of the same
track, between the extrema (columns `maxima_y`, `maxima_x`), at the latest time before at which the track was seen. An eddy that begins a track later than
the first has no end of a known track within its radius. Missing: levels with overlapping eddies, see `C107_refuted`. -/
theorem C107_partial_level_by_level (hnn : IsNN haversine nn)
    {f : Int} (h0 : 0 ≤ t0) (hf : f ≠ 0) (h : ∀ t, t0 ≤ t → t < f → (field t).Ok)
    (hr : StoreEmpty regs) {s : LoopState Cols}
    (hs : (trackFields (colsEnv prunes nn) c L field levels t0 (some f) T ntimes true regs).2 = .ok s) :
    ∃ es : Int → ℝ → List EddyObj, (∀ t, t0 ≤ t → t < f → ∀ l ∈ levels, l ≠ 0 → Found c L (field t) l (es t l)) ∧
    ((∀ t, t0 ≤ t → t < f → ∀ l ∈ levels, l ≠ 0 → (es t l).Pairwise RadiiApart) →
    (∀ r ∈ s.table.rows, r.idx = 0 → (∀ q ∈ s.table.rows, q.id = r.id → r.val.1 ≤ q.val.1) ∨
      ∃ q ∈ s.table.rows, q.id = r.id ∧ q.idx = 0 ∧ q.val.1 < r.val.1 ∧
        (∀ q' ∈ s.table.rows, q'.id = r.id → q'.val.1 < r.val.1 → q'.val.1 ≤ q.val.1) ∧
        ∃ y x y' x' R : ℝ, ("maxima_y", some y) ∈ r.val.2 ∧ ("maxima_x", some x) ∈ r.val.2 ∧ ("radius_eddy", some R) ∈ r.val.2 ∧
          ("maxima_y", some y') ∈ q.val.2 ∧ ("maxima_x", some x') ∈ q.val.2 ∧ centralAngle y x y' x' * 6371 < R) ∧
    ∀ r ∈ s.table.rows, r.idx = 0 → (∀ q ∈ s.table.rows, q.id = r.id → r.val.1 ≤ q.val.1) →
      ∀ p ∈ s.table.rows, p.val.1 < r.val.1 → ∃ q ∈ s.table.rows, q.id = p.id ∧ q.idx = 0 ∧ q.val.1 < r.val.1 ∧
        (∀ q' ∈ s.table.rows, q'.id = p.id → q'.val.1 < r.val.1 → q'.val.1 ≤ q.val.1) ∧
        ∃ y x y' x' R : ℝ, ("maxima_y", some y) ∈ r.val.2 ∧ ("maxima_x", some x) ∈ r.val.2 ∧ ("radius_eddy", some R) ∈ r.val.2 ∧
          ("maxima_y", some y') ∈ q.val.2 ∧ ("maxima_x", some x') ∈ q.val.2 ∧ R ≤ centralAngle y x y' x' * 6371) := by
  refine ⟨fun t => foundIn c L (field t), fun t ha hb l _ _ => foundIn_found (h t ha hb) l, fun hd => ?_⟩
  refine continuity_columns hnn h0 hf h hr (fun t ht1 ht2 C hC => ?_) hs
  obtain ⟨R, h1, h2⟩ := snapshot_merged hnn (h t ht1 ht2) (hd t ht1 ht2) hC
  refine ⟨_, ?_, h2⟩
  intro e he
  obtain ⟨o, ho, rfl⟩ := List.mem_map.1 he
  exact merged_ne (h t ht1 ht2) h1 o ho

end

/-! ### the hypotheses can be met -/

/-- the hypotheses of the theorems above hold for runs with the Gaussian fit and two levels over six and seven times -/
example : ∃ (n : Nat) (nn : List (ℝ × ℝ) → ℝ × ℝ → Nat) (s s' : LoopState Cols), IsNN haversine nn ∧ exCriteriaG.skipGauss = false ∧ exField.Ok ∧
    (∀ l ∈ [(1 / 2 : ℝ), 1 / 2], l ≠ 0 → (∃ x, (detectLevel exCriteriaG (exLibsG n) exField Regs.empty l).2 = .ok x) ∧
      (foundIn exCriteriaG (exLibsG n) exField l).Pairwise RadiiApart) ∧
    (trackFields (colsEnv true nn) exCriteriaG (exLibsG n) (fun _ => exField) [1 / 2, 1 / 2] 0 (some 6) 7 2 true Regs.empty).2 = .ok s ∧
    s.table.rows ≠ [] ∧
    (trackFields (colsEnv true nn) exCriteriaG (exLibsG n) (fun _ => exField) [1 / 2, 1 / 2] 0 (some (6 + 1)) 7 2 true Regs.empty).2 = .ok s' ∧
    s'.table.rows ≠ [] := by
  obtain ⟨nn, hnn⟩ := exists_isNN haversine
  obtain ⟨n, e, he, hx⟩ := exFoundG
  have hlv : ∀ l ∈ [(1 / 2 : ℝ), 1 / 2], l = 1 / 2 := fun l hl => by simpa using hl
  have hret : ∀ l ∈ [(1 / 2 : ℝ), 1 / 2], l ≠ 0 → ∃ x, (detectLevel exCriteriaG (exLibsG n) exField Regs.empty l).2 = .ok x := by
    intro l hl _
    rw [hlv l hl]
    exact hx
  have hap : ∀ l ∈ [(1 / 2 : ℝ), 1 / 2], l ≠ 0 → (foundIn exCriteriaG (exLibsG n) exField l).Pairwise RadiiApart := by
    intro l hl _
    rw [hlv l hl, he]
    simp
  have hes : ∃ l ∈ [(1 / 2 : ℝ), 1 / 2], l ≠ 0 ∧ foundIn exCriteriaG (exLibsG n) exField l ≠ [] := ⟨1 / 2, by simp, by norm_num, by rw [he]; simp⟩
  have run : ∀ f : Int, 0 < f → ∃ s, (trackFields (colsEnv true nn) exCriteriaG (exLibsG n) (fun _ => exField) [1 / 2, 1 / 2] 0 (some f) 7 2 true
      Regs.empty).2 = .ok s ∧ s.table.rows ≠ [] := by
    intro f hf
    obtain ⟨h2, -⟩ := runs_merged (prunes := true) (L := exLibsG n) (field := fun _ => exField) (levels := [1 / 2, 1 / 2]) (t0 := 0) (T := 7)
      (ntimes := 2) (regs := Regs.empty) hnn (c := exCriteriaG) le_rfl hf.ne' (fun _ _ _ => ⟨exField_ok, hret⟩) (fun _ _ _ => hap) ⟨rfl, rfl⟩
    obtain ⟨s, hs⟩ := h2.2 (by
      intro t ha hb _ hu w hw
      obtain ⟨u, u1, u2, -⟩ := hu
      exact ⟨by omega, hes⟩)
    refine ⟨s, hs, fun hnil => ?_⟩
    have hs' := hs
    rw [(trackFields_pure _ exCriteriaG (exLibsG n) (fun _ _ => exField_ok) ⟨rfl, rfl⟩).1] at hs'
    obtain ⟨C, hC⟩ := run_snaps_ok _ hs' 0 ((mem_trackTimes_some hf.ne').2 ⟨le_rfl, hf⟩)
    obtain ⟨R, k1, k2⟩ := snapshot_merged hnn exField_ok hap hC
    obtain ⟨g, hg⟩ := C03_no_detection_lost_or_invented (E := colsEnv true nn) hnn (fun t C hC => pureSnapshot_rows hC) hs'
    rw [hnil, processed_eq _ hs'] at hg
    have hnil := hg.symm.eq_nil
    rw [List.flatMap_eq_nil_iff] at hnil
    have h0 := hnil 0 ((mem_trackTimes_some hf.ne').2 ⟨le_rfl, hf⟩)
    have hrows : C.rows = [] := by
      unfold rowsAt at h0
      simp only [hC, tagged, List.map_eq_nil_iff] at h0
      exact h0
    rw [k2, snapRows_eq_nil (merged_ne exField_ok k1)] at hrows
    exact k1.ne_nil.2 hes hrows
  obtain ⟨s, h1, h2⟩ := run 6 (by norm_num)
  obtain ⟨s', h1', h2'⟩ := run (6 + 1) (by norm_num)
  exact ⟨n, nn, s, s', hnn, rfl, exField_ok, fun l hl h0 => ⟨hret l hl h0, hap l hl h0⟩, h1, h2, h1', h2'⟩

end Trackeddy
