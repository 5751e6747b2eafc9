import Verif.Props.LevelsExample
import Verif.Props.Continuity

/-!
C04, C05, C06, C09, C10 and C107 from the data for any number of levels, without the Gaussian fit.
-/
namespace Trackeddy
open Spec

/-- the eddies chosen from those of the levels, `es l` at the level `l`: the levels in the given order, without zero, at each of them those eddies
whose extremum is not within their radius of the extremum of one chosen at an earlier level (see C120) -/
noncomputable def chosen (es : ℝ → List EddyObj) (levels : List ℝ) : List EddyObj := select NearEddy ((levels.filter (· ≠ 0)).map es)

theorem mem_chosen {es : ℝ → List EddyObj} {levels : List ℝ} {e : EddyObj} (h : e ∈ chosen es levels) : ∃ l ∈ levels, l ≠ 0 ∧ e ∈ es l := by
  obtain ⟨m, hm, he⟩ := select_mem h
  obtain ⟨l, hl, rfl⟩ := List.mem_map.1 hm
  have := List.mem_filter.1 hl
  exact ⟨l, this.1, by simpa using this.2, he⟩

theorem select_nil {β : Type} {near : β → β → Prop} {ls : List (List β)} (h : select near ls = []) : ∀ l ∈ ls, l = [] := by
  classical
  induction ls using List.reverseRecOn with
  | nil => simp
  | append_singleton ls m ih =>
    rw [select_snoc, List.append_eq_nil_iff] at h
    have h2 := h.2
    rw [h.1] at h2
    intro l hl
    rcases List.mem_append.1 hl with hl | hl
    · exact ih h.1 l hl
    · rw [List.mem_singleton.1 hl]
      simpa using h2

/-- something is chosen if something is found at a level -/
theorem chosen_ne_nil {es : ℝ → List EddyObj} {levels : List ℝ} : chosen es levels ≠ [] ↔ ∃ l ∈ levels, l ≠ 0 ∧ es l ≠ [] := by
  constructor
  · intro h
    obtain ⟨e, he⟩ := List.exists_mem_of_ne_nil _ h
    obtain ⟨l, hl, h0, he⟩ := mem_chosen he
    exact ⟨l, hl, h0, List.ne_nil_of_mem he⟩
  · rintro ⟨l, hl, h0, he⟩ h
    exact he (select_nil h _ (List.mem_map_of_mem (List.mem_filter.2 ⟨hl, by simpa using h0⟩)))

section
variable {prunes : Bool} {nn : List (ℝ × ℝ) → ℝ × ℝ → Nat} {c : Criteria ℝ} {L : Libs} {field : Int → Fields} {levels : List ℝ} {t0 : Int} {T : Nat}
  {ntimes : Int} {regs : Regs Cols}

theorem chosen_ne {S : Fields} (h : S.Ok) : ∀ e ∈ chosen (foundIn c L S) levels, tableRows e.data ≠ [] := by
  intro e he
  obtain ⟨l, -, -, he⟩ := mem_chosen he
  exact foundIn_ne h l e he

theorem snapshot_chosen (hnn : IsNN haversine nn) (hc : c.skipGauss = true) {S : Fields} (h : S.Ok) {C : Tbl Cols}
    (hC : pureSnapshot (colsEnv prunes nn) c L S levels = .ok C) : C.rows = snapRows ((chosen (foundIn c L S) levels).map fun e => tableRows e.data) := by
  obtain ⟨t, h1, h2⟩ := pureSnapshot_select (prunes := prunes) hnn hc (L := L) h (levels := levels) (detectSnapshot_levels hC)
  rw [hC] at h1
  injection h1 with h1
  rw [h1, h2]
  rfl

theorem chosen_returns (hnn : IsNN haversine nn) (hc : c.skipGauss = true) {S : Fields} (h : S.Ok)
    (hx : ∀ l ∈ levels, l ≠ 0 → ∃ x, (detectLevel c L S Regs.empty l).2 = .ok x) : ∃ C, pureSnapshot (colsEnv prunes nn) c L S levels = .ok C := by
  obtain ⟨t, h1, -⟩ := pureSnapshot_select (prunes := prunes) hnn hc (L := L) h (levels := levels) (by
    intro l hl h0
    obtain ⟨x, hx⟩ := hx l hl h0
    rw [detectLevel_measures h] at hx
    exact ⟨levelFrame x.1, by unfold pureLevel; rw [hx]; rfl⟩)
  exact ⟨t, h1⟩

theorem snapsOf_chosen (hnn : IsNN haversine nn) (hc : c.skipGauss = true) {ts : List Int}
    (h : ∀ t ∈ ts, (field t).Ok ∧ ∀ l ∈ levels, l ≠ 0 → ∃ x, (detectLevel c L (field t) Regs.empty l).2 = .ok x) :
    (∀ t, ∃ C, snapsOf (colsEnv prunes nn) c L field levels ts t = .ok C) ∧
    (∀ t C, snapsOf (colsEnv prunes nn) c L field levels ts t = .ok C → SnapRows C.rows) ∧
    ∀ t ∈ ts, rowsAt (snapsOf (colsEnv prunes nn) c L field levels ts) t =
      snapRows ((chosen (foundIn c L (field t)) levels).map fun e => tableRows e.data) := by
  refine ⟨?_, ?_, ?_⟩
  · intro t
    unfold snapsOf
    split
    · rename_i ht
      exact chosen_returns hnn hc (h t ht).1 (h t ht).2
    · exact ⟨_, rfl⟩
  · intro t C hC
    unfold snapsOf at hC
    split at hC
    · exact pureSnapshot_rows hC
    · injection hC with hC
      subst hC
      exact ⟨fun r hr => by simp at hr, 0, by simp [Contiguous]⟩
  · intro t ht
    obtain ⟨C, hC⟩ := chosen_returns (prunes := prunes) hnn hc (h t ht).1 (h t ht).2
    unfold rowsAt snapsOf
    rw [if_pos ht, hC]
    exact snapshot_chosen hnn hc (h t ht).1 hC

/-- **C04** from the data for any number of levels, without the Gaussian fit: the table up to `f` included is the table before `f` together with the
eddies chosen from the contour lines of the levels at time `f` that meet the criteria. `ends` are latitude and longitude of the extremum of each
track at its latest time. An eddy continues the track whose end is nearest on the sphere, if it is nearer than the radius of the eddy (6371 km to
the unit), and starts a new track otherwise. -/
theorem C04_several_levels (hnn : IsNN haversine nn) (hc : c.skipGauss = true) {f : Int} (hf : f ≠ 0) (hf1 : f + 1 ≠ 0)
    (h0 : t0 ≤ f) (h : ∀ t, t0 ≤ t → t ≤ f → (field t).Ok) (hr : StoreEmpty regs) {s s' : LoopState Cols}
    (hs : (trackFields (colsEnv prunes nn) c L field levels t0 (some f) T ntimes true regs).2 = .ok s)
    (hs' : (trackFields (colsEnv prunes nn) c L field levels t0 (some (f + 1)) T ntimes true regs).2 = .ok s')
    (hne : s.table.rows ≠ []) :
    ∃ (es : ℝ → List EddyObj) (ends : List (ℝ × ℝ)) (a : Nat → Nat),
      (∀ l ∈ levels, l ≠ 0 → Found c L (field f) l (es l)) ∧
      Contiguous s.table.rows ends.length ∧
      (∀ (i : Nat) p, ends[i]? = some p → ∃ r ∈ s.table.rows, r.id = i ∧ r.idx = 0 ∧ ("maxima_y", some p.1) ∈ r.val.2 ∧
        ("maxima_x", some p.2) ∈ r.val.2 ∧ ∀ r' ∈ s.table.rows, r'.id = i → r'.val.1 ≤ r.val.1) ∧
      s'.table.rows.Perm (s.table.rows ++ tagged a f (snapRows ((chosen es levels).map fun e => tableRows e.data))) ∧
      LinkRule (fun p q : ℝ × ℝ => centralAngle p.1 p.2 q.1 q.2) EddyObj.place EddyObj.radius ends (chosen es levels) a := by
  have ht : ∀ g : Int, g ≠ 0 → ∀ t ∈ trackTimes t0 (some g) T, t0 ≤ t ∧ t < g := by
    intro g hg t ht
    unfold trackTimes at ht
    simp only [hg, if_false] at ht
    exact mem_irange.1 ht
  have htimes : ∀ t ∈ trackTimes t0 (some f) T, (field t).Ok := fun t hx => h t (ht f hf t hx).1 (by have := (ht f hf t hx).2; omega)
  have hs0 := hs
  rw [(trackFields_pure _ c L htimes hr).1] at hs
  rw [(trackFields_pure _ c L (fun t hx => h t (ht _ hf1 t hx).1 (by have := (ht _ hf1 t hx).2; omega)) hr).1] at hs'
  have hok := h f h0 le_rfl
  obtain ⟨C, hC⟩ := run_snaps_ok _ hs' f (by
    unfold trackTimes
    simp only [hf1, if_false]
    exact mem_irange.2 ⟨h0, by omega⟩)
  obtain ⟨ends, a, h3, h4, h5, h6⟩ := C04_linking_rule (E := colsEnv prunes nn) hnn (fun t C hC => pureSnapshot_rows hC) hf hf1 h0 hs hs' hne hC
    (by
      intro e he
      obtain ⟨o, ho, rfl⟩ := List.mem_map.1 he
      exact chosen_ne hok o ho) (snapshot_chosen hnn hc hok hC)
  have hends : (ends.map fun p => (p.1 * (180 / Real.pi), p.2 * (180 / Real.pi))).map (fun p => ballTreePoint p.1 p.2) = ends := by
    rw [List.map_map]
    conv_rhs => rw [← List.map_id ends]
    exact List.map_congr_left fun p _ => direction_eq p
  refine ⟨foundIn c L (field f), ends.map fun p => (p.1 * (180 / Real.pi), p.2 * (180 / Real.pi)), a, fun l _ _ => foundIn_found hok l, ?_, ?_, h5, ?_⟩
  · rwa [List.length_map]
  · intro i p hp
    rw [List.getElem?_map, Option.map_eq_some_iff] at hp
    obtain ⟨q, hq, rfl⟩ := hp
    obtain ⟨r, hrow, r1, r2, r3, r4⟩ := h4 i q hq
    obtain ⟨e, he⟩ := row_of_table (E := colsEnv prunes nn) hnn htimes hr hs0 hrow
    obtain ⟨c1, c2, -, c4, c5⟩ := columns_read he
    have hpi := Real.pi_ne_zero
    have hq1 : q.1 * (180 / Real.pi) = e.maxima.2.1 := by
      rw [← r3]
      simp only [colsEnv, realEnv, ballTreePoint, c1]
      field_simp
    have hq2 : q.2 * (180 / Real.pi) = e.maxima.2.2 := by
      rw [← r3]
      simp only [colsEnv, realEnv, ballTreePoint, c2]
      field_simp
    refine ⟨r, hrow, r1, r2, ?_, ?_, r4⟩
    · simp only [hq1]; exact c4
    · simp only [hq2]; exact c5
  · exact linkRule_eddies (prunes := prunes) (nn := nn) (heads_tableRows (chosen_ne hok)) (by rw [hends]; exact h6)

/-- **C05** from the data (partial) for any number of levels, without the Gaussian fit: if the eddies chosen at each time are at least the sum of
their radii apart on the sphere, no two rows of the table have the same identifier, time and point number. Missing: overlapping eddies (false, see
`C05_refuted`). -/
theorem C05_partial_several_levels (hnn : IsNN haversine nn) (hc : c.skipGauss = true) {tf : Option Int}
    (h : ∀ t ∈ trackTimes t0 tf T, (field t).Ok) (hr : StoreEmpty regs)
    {s : LoopState Cols} (hs : (trackFields (colsEnv prunes nn) c L field levels t0 tf T ntimes true regs).2 = .ok s) :
    ∃ es : Int → ℝ → List EddyObj, (∀ t ∈ trackTimes t0 tf T, ∀ l ∈ levels, l ≠ 0 → Found c L (field t) l (es t l)) ∧
      ((∀ t ∈ trackTimes t0 tf T, (chosen (es t) levels).Pairwise fun e e' =>
        e.radius + e'.radius ≤ centralAngle e.place.1 e.place.2 e'.place.1 e'.place.2 * 6371) → KeyUnique s.table.rows) := by
  classical
  refine ⟨fun t => foundIn c L (field t), fun t ht l _ _ => foundIn_found (h t ht) l, fun hd => ?_⟩
  rw [(trackFields_pure _ c L h hr).1, timeTracking_congr (snap' := fun t => if t ∈ trackTimes t0 tf T then
    pureSnapshot (colsEnv prunes nn) c L (field t) levels else .ok ⟨[], []⟩) _ _ _ (fun t ht => by rw [if_pos ht])] at hs
  refine C05_partial_great_circle (prunes := prunes) (my := column "maxima_y") (mx := column "maxima_x")
    (radius := column "radius_eddy") hnn ?_ hs
  intro t C hC
  by_cases ht : t ∈ trackTimes t0 tf T
  · simp only [ht, if_true] at hC
    have hne := chosen_ne (c := c) (L := L) (levels := levels) (h t ht)
    refine ⟨_, ?_, snapshot_chosen hnn hc (h t ht) hC, ?_⟩
    · intro e he
      obtain ⟨o, ho, rfl⟩ := List.mem_map.1 he
      exact hne o ho
    · have hf := (forall₂_getElem? (heads_tableRows hne)).2
      have key : ∀ (i j : Nat) (v v' : Cols), (heads ((chosen (foundIn c L (field t)) levels).map fun e => tableRows e.data))[i]? = some v →
          (heads ((chosen (foundIn c L (field t)) levels).map fun e => tableRows e.data))[j]? = some v' → i < j →
          column "radius_eddy" v + column "radius_eddy" v' ≤
            centralAngle (column "maxima_y" v) (column "maxima_x" v) (column "maxima_y" v') (column "maxima_x" v') * 6371 := by
        intro i j v v' hv hv' hij
        obtain ⟨e, he, hev⟩ := hf i v hv
        obtain ⟨e', he', hev'⟩ := hf j v' hv'
        obtain ⟨c1, c2, c3, -⟩ := columns_read hev
        obtain ⟨d1, d2, d3, -⟩ := columns_read hev'
        rw [c1, c2, c3, d1, d2, d3]
        obtain ⟨hi, rfl⟩ := List.getElem?_eq_some_iff.1 he
        obtain ⟨hj, rfl⟩ := List.getElem?_eq_some_iff.1 he'
        exact List.pairwise_iff_getElem.1 (hd t ht) i j hi hj hij
      intro i j v v' hv hv' hne'
      rcases lt_or_gt_of_ne hne' with hij | hij
      · exact key i j v v' hv hv' hij
      · have := key j i v' v hv' hv hij
        rw [← C83_great_circle, haversine_symm, C83_great_circle] at this
        linarith
  · simp only [ht, if_false] at hC
    injection hC with hC
    subst hC
    exact ⟨[], by simp, rfl, by simp [heads]⟩

/-- C06 in terms of what is found -/
theorem runs_chosen (hnn : IsNN haversine nn) (hc : c.skipGauss = true) {f : Int} (h0 : 0 ≤ t0) (hf : f ≠ 0)
    (h : ∀ t, t0 ≤ t → t < f → (field t).Ok ∧ ∀ l ∈ levels, l ≠ 0 → ∃ x, (detectLevel c L (field t) Regs.empty l).2 = .ok x) (hr : StoreEmpty regs) :
    ((∃ s, (trackFields (colsEnv prunes nn) c L field levels t0 (some f) T ntimes true regs).2 = .ok s) ↔
        ∀ t, t0 ≤ t → t < f → (∃ l ∈ levels, l ≠ 0 ∧ foundIn c L (field t) l ≠ []) → (∃ u, t0 ≤ u ∧ u < t ∧ ∃ l ∈ levels, l ≠ 0 ∧ foundIn c L (field u) l ≠ []) →
          ∀ w, (w = t - 1 ∨ t - 1 - min ntimes (t - 1) ≤ w ∧ w < t - 1) → t0 ≤ w ∧ ∃ l ∈ levels, l ≠ 0 ∧ foundIn c L (field w) l ≠ []) ∧
      ((¬ ∃ s, (trackFields (colsEnv prunes nn) c L field levels t0 (some f) T ntimes true regs).2 = .ok s) →
        (trackFields (colsEnv prunes nn) c L field levels t0 (some f) T ntimes true regs).2 = .error .keyError) := by
  have ht : ∀ t ∈ trackTimes t0 (some f) T, (field t).Ok ∧ ∀ l ∈ levels, l ≠ 0 → ∃ x, (detectLevel c L (field t) Regs.empty l).2 = .ok x :=
    fun t ht => h t ((mem_trackTimes_some hf).1 ht).1 ((mem_trackTimes_some hf).1 ht).2
  rw [run_snapsOf (fun t hx => (ht t hx).1) hr]
  obtain ⟨h1, h2, h3⟩ := snapsOf_chosen (prunes := prunes) hnn hc ht
  obtain ⟨h4, h5⟩ := C06_partial (E := colsEnv prunes nn) hnn h1 h2 h0 hf T ntimes
  refine ⟨?_, h5⟩
  rw [h4]
  have hrow : ∀ t, t0 ≤ t → t < f → (rowsAt (snapsOf (colsEnv prunes nn) c L field levels (trackTimes t0 (some f) T)) t ≠ [] ↔
      ∃ l ∈ levels, l ≠ 0 ∧ foundIn c L (field t) l ≠ []) := by
    intro t ha hb
    rw [h3 t ((mem_trackTimes_some hf).2 ⟨ha, hb⟩), ne_eq, snapRows_eq_nil (chosen_ne (h t ha hb).1), ← chosen_ne_nil]
  constructor
  · intro hx t ha hb he hu w hw
    obtain ⟨u, u1, u2, u3⟩ := hu
    have := hx t ha hb ((hrow t ha hb).2 he) ⟨u, u1, u2, (hrow u u1 (by omega)).2 u3⟩ w hw
    exact ⟨this.1, (hrow w this.1 (by omega)).1 this.2⟩
  · intro hx t ha hb he hu w hw
    obtain ⟨u, u1, u2, u3⟩ := hu
    have := hx t ha hb ((hrow t ha hb).1 he) ⟨u, u1, u2, (hrow u u1 (by omega)).1 u3⟩ w hw
    exact ⟨this.1, (hrow w this.1 (by omega)).2 this.2⟩

/-- **C06** from the data (partial) for any number of levels whose detection succeeds at each time, without the Gaussian fit. With `tf` given the run
succeeds exactly if, whenever eddies are found at `t` and at some earlier time, eddies are found at `t-1` and at each of the
`ntimes` times before (cut off at time 0); otherwise it raises `KeyError`. Missing: it is false that a run succeeds for all other
patterns. -/
theorem C06_partial_several_levels (hnn : IsNN haversine nn) (hc : c.skipGauss = true) {f : Int} (h0 : 0 ≤ t0) (hf : f ≠ 0)
    (h : ∀ t, t0 ≤ t → t < f → (field t).Ok ∧ ∀ l ∈ levels, l ≠ 0 → ∃ x, (detectLevel c L (field t) Regs.empty l).2 = .ok x) (hr : StoreEmpty regs) :
    ∃ es : Int → ℝ → List EddyObj, (∀ t, t0 ≤ t → t < f → ∀ l ∈ levels, l ≠ 0 → Found c L (field t) l (es t l)) ∧
      ((∃ s, (trackFields (colsEnv prunes nn) c L field levels t0 (some f) T ntimes true regs).2 = .ok s) ↔
        ∀ t, t0 ≤ t → t < f → (∃ l ∈ levels, l ≠ 0 ∧ es t l ≠ []) → (∃ u, t0 ≤ u ∧ u < t ∧ ∃ l ∈ levels, l ≠ 0 ∧ es u l ≠ []) →
          ∀ w, (w = t - 1 ∨ t - 1 - min ntimes (t - 1) ≤ w ∧ w < t - 1) → t0 ≤ w ∧ ∃ l ∈ levels, l ≠ 0 ∧ es w l ≠ []) ∧
      ((¬ ∃ s, (trackFields (colsEnv prunes nn) c L field levels t0 (some f) T ntimes true regs).2 = .ok s) →
        (trackFields (colsEnv prunes nn) c L field levels t0 (some f) T ntimes true regs).2 = .error .keyError) :=
  ⟨fun t => foundIn c L (field t), fun t ha hb l _ _ => foundIn_found (h t ha hb).1 l, runs_chosen hnn hc h0 hf h hr⟩

/-- **C09** from the data for any number of levels whose detection succeeds at each time, without the Gaussian fit: with `tf` omitted the run
succeeds exactly if eddies are found at one time at most. -/
theorem C09_refuted_several_levels (hnn : IsNN haversine nn) (hc : c.skipGauss = true)
    (h : ∀ t : Int, 0 ≤ t → t < T → (field t).Ok ∧ ∀ l ∈ levels, l ≠ 0 → ∃ x, (detectLevel c L (field t) Regs.empty l).2 = .ok x) (hr : StoreEmpty regs)
    (online : Bool) :
    ∃ es : Int → ℝ → List EddyObj, (∀ t : Int, 0 ≤ t → t < T → ∀ l ∈ levels, l ≠ 0 → Found c L (field t) l (es t l)) ∧
      ((∃ s, (trackFields (colsEnv prunes nn) c L field levels t0 none T ntimes online regs).2 = .ok s) ↔
        ∀ u t : Int, 0 ≤ u → u < t → t < T → (∃ l ∈ levels, l ≠ 0 ∧ es u l ≠ []) → ∀ l ∈ levels, l ≠ 0 → es t l = []) := by
  have hmem : ∀ t, t ∈ trackTimes t0 none T ↔ 0 ≤ t ∧ t < T := fun t => by
    unfold trackTimes
    exact mem_irange
  have ht : ∀ t ∈ trackTimes t0 none T, (field t).Ok ∧ ∀ l ∈ levels, l ≠ 0 → ∃ x, (detectLevel c L (field t) Regs.empty l).2 = .ok x :=
    fun t ht => h t ((hmem t).1 ht).1 ((hmem t).1 ht).2
  rw [run_snapsOf (fun t hx => (ht t hx).1) hr]
  obtain ⟨h1, h2, h3⟩ := snapsOf_chosen (prunes := prunes) hnn hc ht
  refine ⟨fun t => foundIn c L (field t), fun t ha hb l _ _ => foundIn_found (h t ha hb).1 l, ?_⟩
  rw [C09_refuted (E := colsEnv prunes nn) hnn h1 h2]
  have hrow : ∀ t : Int, 0 ≤ t → t < T → (rowsAt (snapsOf (colsEnv prunes nn) c L field levels (trackTimes t0 none T)) t ≠ [] ↔
      ∃ l ∈ levels, l ≠ 0 ∧ foundIn c L (field t) l ≠ []) := by
    intro t ha hb
    rw [h3 t ((hmem t).2 ⟨ha, hb⟩), ne_eq, snapRows_eq_nil (chosen_ne (h t ha hb).1), ← chosen_ne_nil]
  constructor
  · intro hx u t ha hb hc he l hl h0
    by_contra hne
    exact (hrow t (by omega) hc).2 ⟨l, hl, h0, hne⟩ (hx u t ha hb hc ((hrow u ha (by omega)).2 he))
  · intro hx u t ha hb hc he
    by_contra hne
    obtain ⟨l, hl, h0, h1⟩ := (hrow t (by omega) hc).1 hne
    exact h1 (hx u t ha hb hc ((hrow u ha (by omega)).1 he) l hl h0)

/-- **C10** from the data (partial) for any number of levels, without the Gaussian fit: what a successful run without online tracking writes, namely
the eddies chosen at each time at which some are found, except for the first such time. The returned table holds those. Missing: the first time with
eddies is never written. -/
theorem C10_partial_several_levels (hnn : IsNN haversine nn) (hc : c.skipGauss = true) {tf : Option Int}
    (h : ∀ t ∈ trackTimes t0 tf T, (field t).Ok) (hr : StoreEmpty regs)
    {s : LoopState Cols} (hs : (trackFields (colsEnv prunes nn) c L field levels t0 tf T ntimes false regs).2 = .ok s) :
    ∃ es : Int → ℝ → List EddyObj, (∀ t ∈ trackTimes t0 tf T, ∀ l ∈ levels, l ≠ 0 → Found c L (field t) l (es t l)) ∧
      s.written.map (fun p => (p.1, p.2.rows)) = (((trackTimes t0 tf T).filter fun t => chosen (es t) levels ≠ []).tail.map fun t =>
        (t, atTime t (snapRows ((chosen (es t) levels).map fun e => tableRows e.data)))) ∧
      (∀ t, ((trackTimes t0 tf T).filter fun t => chosen (es t) levels ≠ []).head? = some t →
        s.table.rows.Perm (atTime t (snapRows ((chosen (es t) levels).map fun e => tableRows e.data)))) ∧
      ((∀ t ∈ trackTimes t0 tf T, ∀ l ∈ levels, l ≠ 0 → es t l = []) → s.table.rows = []) := by
  rw [run_snapsOf h hr] at hs
  have h3 : ∀ t ∈ trackTimes t0 tf T, rowsAt (snapsOf (colsEnv prunes nn) c L field levels (trackTimes t0 tf T)) t =
      snapRows ((chosen (foundIn c L (field t)) levels).map fun e => tableRows e.data) := by
    intro t ht
    obtain ⟨C, hC⟩ := run_snaps_ok _ hs t ht
    have hC' : pureSnapshot (colsEnv prunes nn) c L (field t) levels = .ok C := by
      unfold snapsOf at hC
      rwa [if_pos ht] at hC
    unfold rowsAt
    rw [hC]
    exact snapshot_chosen hnn hc (h t ht) hC'
  have hp : s.processed = trackTimes t0 tf T := processed_eq _ hs
  obtain ⟨h4, h5, h6⟩ := C10_partial hs
  rw [hp] at h4 h5 h6
  have hrow : ∀ t ∈ trackTimes t0 tf T, (rowsAt (snapsOf (colsEnv prunes nn) c L field levels (trackTimes t0 tf T)) t = [] ↔
      chosen (foundIn c L (field t)) levels = []) := by
    intro t ht
    rw [h3 t ht, snapRows_eq_nil (chosen_ne (h t ht))]
  have hfil : ((trackTimes t0 tf T).filter fun t => rowsAt (snapsOf (colsEnv prunes nn) c L field levels (trackTimes t0 tf T)) t ≠ []) =
      (trackTimes t0 tf T).filter fun t => chosen (foundIn c L (field t)) levels ≠ [] := by
    apply List.filter_congr
    intro t ht
    simp only [ne_eq, hrow t ht]
  rw [hfil] at h4 h5 h6
  refine ⟨fun t => foundIn c L (field t), fun t ht l _ _ => foundIn_found (h t ht) l, ?_, ?_, ?_⟩
  · rw [h4]
    apply List.map_congr_left
    intro t ht
    rw [h3 t (List.mem_filter.1 (List.mem_of_mem_tail ht)).1]
  · intro t ht
    have := h5 t ht
    rwa [h3 t (List.mem_filter.1 (List.mem_of_mem_head? ht)).1] at this
  · intro hall
    apply h6
    rw [List.filter_eq_nil_iff]
    intro t ht
    have : ¬ chosen (foundIn c L (field t)) levels ≠ [] := fun hne => by
      obtain ⟨l, hl, h0, h1⟩ := chosen_ne_nil.1 hne
      exact h1 (hall t ht l hl h0)
    simpa using this

/-- **C107** from the data (partial) for any number of levels, without the Gaussian fit. Each eddy of a track other than the earliest ones lies
within its radius (column `radius_eddy`, km on a sphere of radius 6371 km) of an eddy of the same track, between the extrema
(columns `maxima_y`, `maxima_x`), at the latest time before at which the track was seen. An eddy that begins a track later than the
first has no end of a known track within its radius. Missing: several levels with the
Gaussian fit, see `C107_refuted`. -/
theorem C107_partial_several_levels (hnn : IsNN haversine nn) 
    (hc : c.skipGauss = true) {f : Int} (h0 : 0 ≤ t0) (hf : f ≠ 0) (h : ∀ t, t0 ≤ t → t < f → (field t).Ok)
    (hr : StoreEmpty regs) {s : LoopState Cols}
    (hs : (trackFields (colsEnv prunes nn) c L field levels t0 (some f) T ntimes true regs).2 = .ok s) :
    (∀ r ∈ s.table.rows, r.idx = 0 → (∀ q ∈ s.table.rows, q.id = r.id → r.val.1 ≤ q.val.1) ∨
      ∃ q ∈ s.table.rows, q.id = r.id ∧ q.idx = 0 ∧ q.val.1 < r.val.1 ∧
        (∀ q' ∈ s.table.rows, q'.id = r.id → q'.val.1 < r.val.1 → q'.val.1 ≤ q.val.1) ∧
        ∃ y x y' x' R : ℝ, ("maxima_y", some y) ∈ r.val.2 ∧ ("maxima_x", some x) ∈ r.val.2 ∧ ("radius_eddy", some R) ∈ r.val.2 ∧
          ("maxima_y", some y') ∈ q.val.2 ∧ ("maxima_x", some x') ∈ q.val.2 ∧ centralAngle y x y' x' * 6371 < R) ∧
    ∀ r ∈ s.table.rows, r.idx = 0 → (∀ q ∈ s.table.rows, q.id = r.id → r.val.1 ≤ q.val.1) →
      ∀ p ∈ s.table.rows, p.val.1 < r.val.1 → ∃ q ∈ s.table.rows, q.id = p.id ∧ q.idx = 0 ∧ q.val.1 < r.val.1 ∧
        (∀ q' ∈ s.table.rows, q'.id = p.id → q'.val.1 < r.val.1 → q'.val.1 ≤ q.val.1) ∧
        ∃ y x y' x' R : ℝ, ("maxima_y", some y) ∈ r.val.2 ∧ ("maxima_x", some x) ∈ r.val.2 ∧ ("radius_eddy", some R) ∈ r.val.2 ∧
          ("maxima_y", some y') ∈ q.val.2 ∧ ("maxima_x", some x') ∈ q.val.2 ∧ R ≤ centralAngle y x y' x' * 6371 := by
  refine continuity_columns hnn h0 hf h hr (fun t ht1 ht2 C hC => ?_) hs
  refine ⟨_, ?_, snapshot_chosen hnn hc (h t ht1 ht2) hC⟩
  intro e he
  obtain ⟨o, ho, rfl⟩ := List.mem_map.1 he
  exact chosen_ne (h t ht1 ht2) o ho

end

/-! ### the hypotheses can be met -/

/-- both levels of the example return -/
theorem lvReturn : ∀ l ∈ [(3 / 4 : ℝ), 5 / 8], l ≠ 0 → ∃ x, (detectLevel lvCriteria lvLibs lvField Regs.empty l).2 = .ok x := by
  obtain ⟨e, e', f1, f2, l1, l2, n1, n2, hok⟩ := lvFound
  intro l hl _
  obtain ⟨t, ht⟩ := hok l (by simpa using hl)
  rw [detectLevel_measures lvField_ok]
  unfold pureLevel at ht
  cases hx : (detectOneLevel lvCriteria Regs.empty (levelMeasures lvCriteria lvLibs lvField l)).2 with
  | error a => rw [hx] at ht; cases ht
  | ok x => exact ⟨x, rfl⟩

/-- the example with two levels, repeated at all times: the runs up to any time succeed, by C06, and give rows -/
theorem lvLong {nn : List (ℝ × ℝ) → ℝ × ℝ → Nat} (hnn : IsNN haversine nn) {f : Int} (hf : 0 < f) :
    ∃ s, (trackFields (colsEnv true nn) lvCriteria lvLibs (fun _ => lvField) [3 / 4, 5 / 8] 0 (some f) 7 2 true Regs.empty).2 = .ok s ∧
      s.table.rows ≠ [] := by
  obtain ⟨e, e', f1, f2, l1, l2, n1, n2, hok⟩ := lvFound
  obtain ⟨h2, -⟩ := runs_chosen (prunes := true) (L := lvLibs) (field := fun _ => lvField) (levels := [3 / 4, 5 / 8]) (t0 := 0) (T := 7)
    (ntimes := 2) (regs := Regs.empty) hnn (c := lvCriteria) rfl le_rfl hf.ne' (fun _ _ _ => ⟨lvField_ok, lvReturn⟩) ⟨rfl, rfl⟩
  have hes : ∃ l ∈ [(3 / 4 : ℝ), 5 / 8], l ≠ 0 ∧ foundIn lvCriteria lvLibs lvField l ≠ [] := ⟨3 / 4, by simp, by norm_num, by rw [f1]; simp⟩
  obtain ⟨s, hs⟩ := h2.2 (by
    intro t ha hb _ hu w hw
    obtain ⟨u, u1, u2, -⟩ := hu
    have h0 : 0 ≤ w ∧ w < f := by omega
    exact ⟨h0.1, hes⟩)
  refine ⟨s, hs, fun hnil => ?_⟩
  obtain ⟨g, hg⟩ := run_selected hnn rfl (fun _ _ => lvField_ok) ⟨rfl, rfl⟩ hs
  rw [hnil] at hg
  have hnil := hg.symm.eq_nil
  rw [List.flatMap_eq_nil_iff] at hnil
  have h0 := hnil 0 ((mem_trackTimes_some hf.ne').2 ⟨le_rfl, hf⟩)
  have hne := (chosen_ne_nil (es := foundIn lvCriteria lvLibs lvField)).2 hes
  obtain ⟨o, more, ho⟩ := List.exists_cons_of_ne_nil hne
  have h1 : tableRows o.data ≠ [] := chosen_ne lvField_ok o (by rw [ho]; simp)
  have ho : select NearEddy (([(3 / 4 : ℝ), 5 / 8].filter (· ≠ 0)).map (foundIn lvCriteria lvLibs lvField)) = o :: more := ho
  rw [ho] at h0
  simp only [List.mapIdx_cons, List.flatten_cons, List.append_eq_nil_iff] at h0
  unfold atTime eddyRows at h0
  simp [h1] at h0

/-- the hypotheses of the theorems for several levels hold for runs with two levels over six and seven times -/
example : ∃ (nn : List (ℝ × ℝ) → ℝ × ℝ → Nat) (s s' : LoopState Cols), IsNN haversine nn ∧ lvCriteria.skipGauss = true ∧ lvField.Ok ∧
    (trackFields (colsEnv true nn) lvCriteria lvLibs (fun _ => lvField) [3 / 4, 5 / 8] 0 (some 6) 7 2 true Regs.empty).2 = .ok s ∧ s.table.rows ≠ [] ∧
    (trackFields (colsEnv true nn) lvCriteria lvLibs (fun _ => lvField) [3 / 4, 5 / 8] 0 (some (6 + 1)) 7 2 true Regs.empty).2 = .ok s' ∧
    s'.table.rows ≠ [] := by
  obtain ⟨nn, hnn⟩ := exists_isNN haversine
  obtain ⟨s, h1, h2⟩ := lvLong hnn (f := 6) (by norm_num)
  obtain ⟨s', h1', h2'⟩ := lvLong hnn (f := 6 + 1) (by norm_num)
  exact ⟨nn, s, s', hnn, rfl, lvField_ok, h1, h2, h1', h2'⟩

/-- the hypotheses of `C09_refuted_several_levels` and `C10_partial_several_levels` hold for a run with two levels, also with `online` off -/
example : ∃ (nn : List (ℝ × ℝ) → ℝ × ℝ → Nat) (s : LoopState Cols), IsNN haversine nn ∧ lvCriteria.skipGauss = true ∧ lvField.Ok ∧
    (∀ l ∈ [(3 / 4 : ℝ), 5 / 8], l ≠ 0 → ∃ x, (detectLevel lvCriteria lvLibs lvField Regs.empty l).2 = .ok x) ∧
    (trackFields (colsEnv true nn) lvCriteria lvLibs (fun _ => lvField) [3 / 4, 5 / 8] 0 none 1 2 false Regs.empty).2 = .ok s := by
  obtain ⟨nn, hnn⟩ := exists_isNN haversine
  obtain ⟨es, -, h⟩ := C09_refuted_several_levels (prunes := true) (t0 := 0) (T := 1) (ntimes := 2) (field := fun _ => lvField) (levels := [3 / 4, 5 / 8])
    (L := lvLibs) hnn (c := lvCriteria) rfl (fun _ _ _ => ⟨lvField_ok, lvReturn⟩) (regs := Regs.empty) ⟨rfl, rfl⟩ false
  obtain ⟨s, hs⟩ := h.2 (fun u t h1 h2 h3 => by omega)
  exact ⟨nn, s, hnn, rfl, lvField_ok, lvReturn, hs⟩

end Trackeddy
