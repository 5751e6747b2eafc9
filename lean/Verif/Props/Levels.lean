import Verif.Proofs.Levels

/-!
C120-C122: what several levels give.
-/
namespace Trackeddy
open Spec

variable {prunes : Bool} {nn : List (ℝ × ℝ) → ℝ × ℝ → Nat} {c : Criteria ℝ} {L : Libs}

/-- **C120** Several levels without the Gaussian fit: if each level alone can be examined then all together can, whatever was analysed
before, and the eddies are chosen by a rule: the levels are taken in the given order, and at each of them those eddies are added whose
extremum is not within their radius of the extremum of an eddy added at an earlier level. They are numbered from zero; no eddy that
has been added is changed or removed. -/
theorem C120_snapshot (hnn : IsNN haversine nn) (hc : c.skipGauss = true) {S : Fields} (hS : S.Ok) {levels : List ℝ} {regs : Regs Cols}
    (hr : StoreEmpty regs) (hok : ∀ l ∈ levels, l ≠ 0 → ∃ t, (snapshotOf (colsEnv prunes nn) c L S [l] regs).2 = .ok t) :
    ∃ t es, (snapshotOf (colsEnv prunes nn) c L S levels regs).2 = .ok t ∧ (∀ l ∈ levels, l ≠ 0 → Found c L S l (es l)) ∧
      t.rows = snapRows ((select NearEddy ((levels.filter (· ≠ 0)).map es)).map fun e => tableRows e.data) := by
  obtain ⟨t, h1, h2⟩ := pureSnapshot_select (prunes := prunes) hnn hc (L := L) hS (levels := levels) (by
    intro l hl h0
    obtain ⟨t, ht⟩ := hok l hl h0
    rw [(snapshotOf_pure _ c L hS [l] hr).1] at ht
    exact detectSnapshot_levels ht l (by simp) h0)
  exact ⟨t, foundIn c L S, by rw [(snapshotOf_pure _ c L hS levels hr).1, h1], fun l _ _ => foundIn_found hS l, h2⟩

/-- **C120** for whole runs: the table consists, for each time, of the eddies chosen by that rule, each once. -/
theorem C120_several_levels (hnn : IsNN haversine nn) (hc : c.skipGauss = true) {field : Int → Fields} {levels : List ℝ} {t0 : Int}
    {tf : Option Int} {T : Nat} {ntimes : Int} {regs : Regs Cols} (h : ∀ t ∈ trackTimes t0 tf T, (field t).Ok) (hr : StoreEmpty regs)
    {s : LoopState Cols} (hs : (trackFields (colsEnv prunes nn) c L field levels t0 tf T ntimes true regs).2 = .ok s) :
    ∃ (es : Int → ℝ → List EddyObj) (g : Int → Nat → Nat),
      (∀ t ∈ trackTimes t0 tf T, ∀ l ∈ levels, l ≠ 0 → Found c L (field t) l (es t l)) ∧
      s.table.rows.Perm ((trackTimes t0 tf T).flatMap fun t =>
        ((select NearEddy ((levels.filter (· ≠ 0)).map (es t))).mapIdx fun i e => atTime t (eddyRows (g t i) (tableRows e.data))).flatten) := by
  obtain ⟨g, hg⟩ := run_selected hnn hc h hr hs
  exact ⟨fun t => foundIn c L (field t), g, fun t ht l _ _ => foundIn_found (h t ht) l, hg⟩

/-- **C121** Further levels after the given ones never lose contour points, without the Gaussian fit: the points of the table of the
levels `ls` (all columns, except the identifier) are among those of the table of `ls` followed by `ms`, as often. Missing: with the
Gaussian fit (false, see `C121_refuted`). -/
theorem C121_partial (hnn : IsNN haversine nn) (hc : c.skipGauss = true) {field : Int → Fields} {ls ms : List ℝ} {t0 : Int}
    {tf : Option Int} {T : Nat} {ntimes ntimes' : Int} {regs regs' : Regs Cols} (h : ∀ t ∈ trackTimes t0 tf T, (field t).Ok)
    (hr : StoreEmpty regs) (hr' : StoreEmpty regs') {s s' : LoopState Cols}
    (hs : (trackFields (colsEnv prunes nn) c L field ls t0 tf T ntimes true regs).2 = .ok s)
    (hs' : (trackFields (colsEnv prunes nn) c L field (ls ++ ms) t0 tf T ntimes' true regs').2 = .ok s') :
    (s.table.rows.map fun r => (r.idx, r.val)).Subperm (s'.table.rows.map fun r => (r.idx, r.val)) := by
  have h1 := run_selected_points hnn hc h hr hs
  have h2 := run_selected_points hnn hc h hr' hs'
  refine (h1.subperm_right).2 ?_ |> fun hh => (h2.subperm_left).2 hh
  refine (flatMap_sublist fun t _ => ?_).subperm
  obtain ⟨more, hm⟩ := select_append NearEddy ((ls.filter (· ≠ 0)).map (foundIn c L (field t))) ((ms.filter (· ≠ 0)).map (foundIn c L (field t)))
  rw [List.filter_append, List.map_append, hm, List.flatMap_append]
  exact List.sublist_append_left _ _

/-- the extremum of the first row lies within its radius (km) of the extremum of the second one -/
def NearRow (v u : Cols) : Prop :=
  centralAngle (column "maxima_y" v) (column "maxima_x" v) (column "maxima_y" u) (column "maxima_x" u) * 6371 < column "radius_eddy" v

/-- every eddy found at a level is in the table of that level alone -/
theorem foundIn_rows {S : Fields} (hS : S.Ok) {l : ℝ} (hl : l ≠ 0) {regs : Regs Cols} (hr : StoreEmpty regs) {C : Tbl Cols}
    (hC : (snapshotOf (colsEnv prunes nn) c L S [l] regs).2 = .ok C) {e : EddyObj} (he : e ∈ foundIn c L S l) :
    ∃ r ∈ C.rows, r.val ∈ tableRows e.data := by
  rw [(snapshotOf_pure _ c L hS [l] hr).1] at hC
  have h1 := snapshot_one_level hS (levels := [l]) (l := l) (by simp [hl]) hC
  obtain ⟨v, hv⟩ := List.exists_mem_of_ne_nil _ (foundIn_ne hS l e he)
  have : v ∈ (snapRows ((foundIn c L S l).map EddyObj.rows)).map Row.val := by
    unfold snapRows
    rw [List.map_flatten, List.mem_flatten]
    obtain ⟨i, hi⟩ := List.mem_iff_getElem?.1 he
    refine ⟨(eddyRows i (tableRows e.data)).map Row.val, ?_, ?_⟩
    · rw [List.mem_map]
      refine ⟨_, ?_, rfl⟩
      rw [List.mem_iff_getElem?]
      exact ⟨i, by simp only [List.getElem?_mapIdx, List.getElem?_map, hi, Option.map_some]; rfl⟩
    · unfold eddyRows
      obtain ⟨j, hj⟩ := List.mem_iff_getElem?.1 hv
      rw [List.mem_iff_getElem?]
      exact ⟨j, by simp [List.getElem?_map, List.getElem?_mapIdx, hj]⟩
  obtain ⟨r, hr1, hr2⟩ := List.mem_map.1 this
  exact ⟨r, by rw [h1]; exact hr1, hr2 ▸ hv⟩

/-- if a level can be examined the snapshot of this level alone succeeds -/
theorem level_snapshot {S : Fields} (hS : S.Ok) {l : ℝ} (hl : l ≠ 0) {regs : Regs Cols} (hr : StoreEmpty regs)
    (h : ∃ t, pureLevel c (levelMeasures c L S l) = .ok t) :
    ∃ C, (snapshotOf (colsEnv prunes nn) c L S [l] regs).2 = .ok C := by
  obtain ⟨t, ht⟩ := h
  rw [(snapshotOf_pure _ c L hS [l] hr).1]
  unfold pureSnapshot detectSnapshot
  have : [l].filter (· ≠ 0) = [l] := by simp [hl]
  rw [this]
  simp only [List.foldlM_cons, List.foldlM_nil, levelStep, bind, Except.bind, pure, Except.pure, ht]
  by_cases h0 : t.rows = []
  · simp [h0]
  · simp [h0]

/-- **C122** Repeating a level after its first occurrence changes nothing at all (the table, or the exception), without the Gaussian
fit, if in the table of that level alone every radius is positive. Missing: with the Gaussian fit, and the order of the levels (false, see
`C122_refuted`; true if the eddies of different levels are apart, `C122_partial_order`). -/
theorem C122_partial (hnn : IsNN haversine nn) (hc : c.skipGauss = true) {field : Int → Fields} {ls ms : List ℝ} {l : ℝ} (hl : l ∈ ls)
    {t0 : Int} {tf : Option Int} {T : Nat} {ntimes : Int} {online : Bool} {regs regs' : Regs Cols}
    (h : ∀ t ∈ trackTimes t0 tf T, (field t).Ok) (hr : StoreEmpty regs) (hr' : StoreEmpty regs')
    (hpos : ∀ t ∈ trackTimes t0 tf T, ∀ C, (snapshotOf (colsEnv prunes nn) c L (field t) [l] Regs.empty).2 = .ok C →
      ∀ r ∈ C.rows, 0 < column "radius_eddy" r.val) :
    (trackFields (colsEnv prunes nn) c L field (ls ++ l :: ms) t0 tf T ntimes online regs).2 =
      (trackFields (colsEnv prunes nn) c L field (ls ++ ms) t0 tf T ntimes online regs').2 := by
  by_cases hl0 : l = 0
  · rw [C16_from_data_runs, (trackFields_pure _ c L h hr).1, C16_from_data_runs _ _ _ _ (ls ++ ms), (trackFields_pure _ c L h hr').1]
    have : (ls ++ l :: ms).filter (· ≠ 0) = (ls ++ ms).filter (· ≠ 0) := by
      rw [List.filter_append, List.filter_append, List.filter_cons_of_neg (by simpa using hl0)]
    rw [this]
  have e1 : (ls ++ l :: ms).filter (· ≠ 0) = ls.filter (· ≠ 0) ++ l :: ms.filter (· ≠ 0) := by
    rw [List.filter_append, List.filter_cons_of_pos (by simpa using hl0)]
  have e2 : l ∈ ls.filter (· ≠ 0) := List.mem_filter.2 ⟨hl, by simpa using hl0⟩
  rw [(trackFields_pure _ c L h hr).1, (trackFields_pure _ c L h hr').1]
  apply timeTracking_rows
  intro t ht
  cases he : firstError (fun l => pureLevel c (levelMeasures c L (field t) l)) ((ls ++ ms).filter (· ≠ 0)) with
  | some e =>
    rw [pureSnapshot_error hnn hc (h t ht) he, pureSnapshot_error hnn hc (h t ht) (e := e)]
    rw [e1, firstError_repeated _ e2, ← List.filter_append, he]
  | none =>
    have h1 := firstError_none.1 he
    have h2 : ∀ m ∈ ls ++ l :: ms, m ≠ 0 → ∃ t', pureLevel c (levelMeasures c L (field t) m) = .ok t' := by
      intro m hm hm0
      refine h1 m (List.mem_filter.2 ⟨?_, by simpa using hm0⟩)
      rcases List.mem_append.1 hm with hm | hm
      · exact List.mem_append_left _ hm
      · rcases List.mem_cons.1 hm with rfl | hm
        · exact List.mem_append_left _ hl
        · exact List.mem_append_right _ hm
    obtain ⟨t1, p1, q1⟩ := pureSnapshot_select (prunes := prunes) hnn hc (L := L) (h t ht) h2
    obtain ⟨t2, p2, q2⟩ := pureSnapshot_select (prunes := prunes) hnn hc (L := L) (h t ht) (levels := ls ++ ms)
      fun m hm hm0 => h1 m (List.mem_filter.2 ⟨hm, by simpa using hm0⟩)
    rw [p1, p2]
    simp only [Except.map]
    rw [q1, q2, e1, List.map_append, List.map_cons, select_repeated (List.mem_map_of_mem e2), List.filter_append, List.map_append]
    intro e he
    obtain ⟨C, hC⟩ := level_snapshot (prunes := prunes) (nn := nn) (h t ht) hl0 (regs := Regs.empty) ⟨rfl, rfl⟩ (h2 l (List.mem_append_left _ hl) hl0)
    obtain ⟨r, hr1, hr2⟩ := foundIn_rows (h t ht) hl0 ⟨rfl, rfl⟩ hC he
    have := hpos t ht C hC r hr1
    rw [(columns_read hr2).2.2.1] at this
    unfold NearEddy
    rw [← C83_great_circle]
    have h0 : ∀ p : ℝ × ℝ, haversine p p = 0 := by intro p; simp [haversine]
    rw [h0, zero_mul]
    exact this

/-- **C122** The order of the levels does not matter, without the Gaussian fit, if the eddies of different levels are apart: no eddy
in the table of one level alone has its extremum within its radius of the extremum of an eddy in the table of another. Then the tables of the two runs have the
same rows up to order and identifiers. Missing: levels with eddies close to one another (false, see `C122_refuted`). -/
theorem C122_partial_order (hnn : IsNN haversine nn) (hc : c.skipGauss = true) {field : Int → Fields} {ls ms : List ℝ} (hp : ls.Perm ms)
    {t0 : Int} {tf : Option Int} {T : Nat} {ntimes ntimes' : Int} {regs regs' : Regs Cols} (h : ∀ t ∈ trackTimes t0 tf T, (field t).Ok)
    (hr : StoreEmpty regs) (hr' : StoreEmpty regs') (hd : ls.Nodup)
    (hap : ∀ t ∈ trackTimes t0 tf T, ∀ l ∈ ls, ∀ m ∈ ls, l ≠ m →
      ∀ C, (snapshotOf (colsEnv prunes nn) c L (field t) [l] Regs.empty).2 = .ok C →
      ∀ C', (snapshotOf (colsEnv prunes nn) c L (field t) [m] Regs.empty).2 = .ok C' →
      ∀ r ∈ C.rows, ∀ r' ∈ C'.rows, ¬ NearRow r.val r'.val)
    {s s' : LoopState Cols} (hs : (trackFields (colsEnv prunes nn) c L field ls t0 tf T ntimes true regs).2 = .ok s)
    (hs' : (trackFields (colsEnv prunes nn) c L field ms t0 tf T ntimes' true regs').2 = .ok s') :
    (s.table.rows.map fun r => (r.idx, r.val)).Perm (s'.table.rows.map fun r => (r.idx, r.val)) := by
  refine (run_selected_points hnn hc h hr hs).trans (List.Perm.trans ?_ (run_selected_points hnn hc h hr' hs').symm)
  refine List.Perm.flatMap_left _ fun t ht => ?_
  have hlev : ∀ l ∈ ls, l ≠ 0 → ∃ t', pureLevel c (levelMeasures c L (field t) l) = .ok t' := by
    rw [(trackFields_pure _ c L h hr).1] at hs
    obtain ⟨C, hC⟩ := run_snaps_ok _ hs t ht
    exact detectSnapshot_levels hC
  have hall : ∀ ks : List ℝ, ks.Nodup → (∀ l ∈ ks, l ∈ ls) →
      select NearEddy ((ks.filter (· ≠ 0)).map (foundIn c L (field t))) = ((ks.filter (· ≠ 0)).map (foundIn c L (field t))).flatten := by
    intro ks hk hsub
    apply select_all
    rw [List.pairwise_map]
    refine List.Pairwise.imp_of_mem ?_ (List.Nodup.filter _ hk)
    intro l m hl hm hne a ha b hb
    have hl' := List.mem_filter.1 hl
    have hm' := List.mem_filter.1 hm
    have l0 : l ≠ 0 := by simpa using hl'.2
    have m0 : m ≠ 0 := by simpa using hm'.2
    obtain ⟨C, hC⟩ := level_snapshot (prunes := prunes) (nn := nn) (h t ht) l0 (regs := Regs.empty) ⟨rfl, rfl⟩ (hlev l (hsub l hl'.1) l0)
    obtain ⟨C', hC'⟩ := level_snapshot (prunes := prunes) (nn := nn) (h t ht) m0 (regs := Regs.empty) ⟨rfl, rfl⟩ (hlev m (hsub m hm'.1) m0)
    obtain ⟨r, hr1, hr2⟩ := foundIn_rows (h t ht) l0 ⟨rfl, rfl⟩ hC ha
    obtain ⟨r', hr1', hr2'⟩ := foundIn_rows (h t ht) m0 ⟨rfl, rfl⟩ hC' hb
    have := hap t ht m (hsub m hm'.1) l (hsub l hl'.1) (Ne.symm hne) C' hC' C hC r' hr1' r hr1
    obtain ⟨c1, c2, -⟩ := columns_read hr2
    obtain ⟨d1, d2, d3, -⟩ := columns_read hr2'
    unfold NearRow at this
    rw [c1, c2, d1, d2, d3] at this
    exact this
  rw [hall ls hd fun l hl => hl, hall ms (hp.nodup_iff.1 hd) fun l hl => hp.mem_iff.2 hl]
  exact List.Perm.flatMap_right _ (((hp.filter _).map _).flatten)

/-- **C121** is false with the Gaussian fit: adding the level 2 after the level 1 removes the only eddy of the level 1. (Tables of the
levels as `_detect_one_level` gives them: every eddy with the same scores at all its contour points; columns position, radius,
similarity of the ellipse, similarity of the Gaussian.) -/
theorem C121_refuted : ∃ detect : ℚ → Except PyErr (Tbl (ℤ × ℚ × ℚ × ℚ)), (∀ l t, detect l = .ok t → LevelTable t) ∧
    ∃ t t', detectSnapshot exEnvM detect [1] = .ok t ∧ detectSnapshot exEnvM detect [1, 2] = .ok t' ∧ t.rows ≠ [] ∧
      ∀ r ∈ t.rows, ∀ r' ∈ t'.rows, r.val ≠ r'.val := by
  refine ⟨fun l => if l = 1 then .ok (exLTbl [(0, 9/10)]) else .ok (exLTbl [(1, 8/10)]), ?_, exLTbl [(0, 9/10)], exLTbl [(1, 8/10)],
    by decide +kernel, by decide +kernel, ?_, ?_⟩
  · intro l t h
    beta_reduce at h
    split at h <;> (injection h with h; subst h; exact exLTbl_level _)
  · decide +kernel
  · decide +kernel

end Trackeddy
