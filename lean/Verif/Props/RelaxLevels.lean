import Verif.Props.Relax
import Verif.Props.LevelsExample
import Verif.Props.Conserved

/-!
C137: relaxed criteria with several levels (trackeddy/trackeddy.py:226-395, utils.py:160-226).
-/
namespace Trackeddy
open Spec

/-! ### the selection -/

theorem select_snoc' {β : Type} (near : β → β → Prop) (ls : List (List β)) (new : List β) (e : β) :
    e ∈ select near (ls ++ [new]) ↔ e ∈ select near ls ∨ (e ∈ new ∧ ∀ k ∈ select near ls, ¬ near e k) := by
  classical
  unfold select
  rw [List.foldl_append, List.foldl_cons, List.foldl_nil, List.mem_append, List.mem_filter, decide_eq_true_eq]

/-- what is selected was found at one of the levels -/
theorem select_found {β : Type} (near : β → β → Prop) {γ : Type} (F : γ → List β) (ls : List γ) {e : β} (he : e ∈ select near (ls.map F)) :
    ∃ pre l post, ls = pre ++ l :: post ∧ e ∈ F l := by
  induction ls using List.reverseRecOn with
  | nil => simp [select] at he
  | append_singleton ls l ih =>
    rw [List.map_append, List.map_cons, List.map_nil, select_snoc'] at he
    rcases he with he | ⟨he, -⟩
    · obtain ⟨pre, l', post, rfl, h⟩ := ih he
      exact ⟨pre, l', post ++ [l], by simp, h⟩
    · exact ⟨ls, l, [], rfl, he⟩

/-- what is found at a level is selected or near something selected at an earlier one -/
theorem select_or_near {β : Type} (near : β → β → Prop) {γ : Type} (F : γ → List β) (pre post : List γ) {l : γ} {e : β} (he : e ∈ F l) :
    e ∈ select near ((pre ++ l :: post).map F) ∨ ∃ k ∈ select near (pre.map F), near e k := by
  by_cases h : ∃ k ∈ select near (pre.map F), near e k
  · exact .inr h
  · left
    have h0 : e ∈ select near (pre.map F ++ [F l]) := (select_snoc' near _ _ e).2 (.inr ⟨he, fun k hk hn => h ⟨k, hk, hn⟩⟩)
    obtain ⟨more, hm⟩ := select_append near (pre.map F ++ [F l]) (post.map F)
    have e1 : (pre ++ l :: post).map F = pre.map F ++ [F l] ++ post.map F := by simp
    rw [e1, hm]
    exact List.mem_append_left _ h0

theorem select_prefix {β : Type} (near : β → β → Prop) {γ : Type} (F : γ → List β) (pre post : List γ) {k : β}
    (hk : k ∈ select near (pre.map F)) : k ∈ select near ((pre ++ post).map F) := by
  obtain ⟨more, hm⟩ := select_append near (pre.map F) (post.map F)
  rw [List.map_append, hm]
  exact List.mem_append_left _ hk

theorem foundIn_level {c : Criteria ℝ} {L : Libs} {S : Fields} {l : ℝ} {e : EddyObj} (he : e ∈ foundIn c L S l) : e.level = l := by
  obtain ⟨vs, -, h⟩ := List.mem_filterMap.1 he
  unfold storedEddy at h
  split at h
  · rename_i e' hx
    cases h
    obtain ⟨-, -, curve, i, k⟩ := examine_stored.1 hx
    exact k.lev
  · cases h

/-- **C137** (partial) Without the Gaussian fit, any number of levels: an eddy that a run returns is returned with relaxed criteria as well,
with the same columns, or with the relaxed criteria there is at the same time an eddy of a level given before its own whose extremum lies
within its radius. Missing: that it is always returned (false, see `C137_refuted`), and the Gaussian fit. -/
theorem C137_partial {prunes : Bool} {nn : List (ℝ × ℝ) → ℝ × ℝ → Nat} (hnn : IsNN haversine nn) {c c' : Criteria ℝ} (hcc : Relaxes c c')
    (hc : c.skipGauss = true) {L : Libs} {field : Int → Fields} {levels : List ℝ} {t0 : Int} {tf : Option Int} {T : Nat}
    {ntimes ntimes' : Int} {regs regs' : Regs Cols} (h : ∀ t, Asked t0 tf T t → (field t).Ok) (hr : StoreEmpty regs) (hr' : StoreEmpty regs')
    {s s' : LoopState Cols} (hs : (trackFields (colsEnv prunes nn) c L field levels t0 tf T ntimes true regs).2 = .ok s)
    (hs' : (trackFields (colsEnv prunes nn) c' L field levels t0 tf T ntimes' true regs').2 = .ok s') :
    ∃ (R R' : Int → List EddyObj) (g g' : Int → Nat → Nat),
      s.table.rows.Perm ((trackTimes t0 tf T).flatMap fun t => ((R t).mapIdx fun i e => atTime t (eddyRows (g t i) (tableRows e.data))).flatten) ∧
      s'.table.rows.Perm ((trackTimes t0 tf T).flatMap fun t => ((R' t).mapIdx fun i e => atTime t (eddyRows (g' t i) (tableRows e.data))).flatten) ∧
      (∀ t, Asked t0 tf T t → (∀ e ∈ R t, e.level ∈ levels ∧ ∃ es, Found c L (field t) e.level es ∧ e ∈ es) ∧
        ∀ e ∈ R' t, e.level ∈ levels ∧ ∃ es, Found c' L (field t) e.level es ∧ e ∈ es) ∧
      ∀ t, Asked t0 tf T t → ∀ e ∈ R t, e ∈ R' t ∨
        ∃ k ∈ R' t, NearEddy e k ∧ ∃ before after, levels = before ++ e.level :: after ∧ k.level ∈ before := by
  have hok : ∀ t ∈ trackTimes t0 tf T, (field t).Ok := fun t ht => h t (mem_trackTimes_iff.1 ht)
  obtain ⟨g, hg⟩ := run_selected hnn hc hok hr hs
  obtain ⟨g', hg'⟩ := run_selected hnn (hcc.skip ▸ hc) hok hr' hs'
  have hf : ∀ (c : Criteria ℝ) (t : Int), Asked t0 tf T t → ∀ e ∈ select NearEddy ((levels.filter (· ≠ 0)).map (foundIn c L (field t))),
      e.level ∈ levels ∧ ∃ es, Found c L (field t) e.level es ∧ e ∈ es := by
    intro c t ht e he
    obtain ⟨pre, l, post, hls, hel⟩ := select_found NearEddy _ _ he
    rw [foundIn_level hel]
    have : l ∈ levels.filter (· ≠ 0) := by rw [hls]; simp
    exact ⟨(List.mem_filter.1 this).1, _, foundIn_found (h t ht) l, hel⟩
  refine ⟨_, _, g, g', hg, hg', fun t ht => ⟨hf c t ht, hf c' t ht⟩, fun t ht e he => ?_⟩
  obtain ⟨pre, l, post, hls, hel⟩ := select_found NearEddy _ _ he
  have hel' := (foundIn_relax hcc L (field t) l).subset hel
  rw [hls]
  rcases select_or_near NearEddy (foundIn c' L (field t)) pre post hel' with hx | ⟨k, hk, hn⟩
  · exact .inl hx
  · right
    refine ⟨k, select_prefix NearEddy _ pre (l :: post) hk, hn, ?_⟩
    obtain ⟨p1, m, p2, rfl, hm⟩ := select_found NearEddy _ _ hk
    rw [foundIn_level hel, foundIn_level hm]
    obtain ⟨a, b, rfl, ha, hb⟩ := List.filter_eq_append_iff.1 hls
    obtain ⟨b1, b2, rfl, -, -, -⟩ := List.filter_eq_cons_iff.1 hb
    refine ⟨a ++ b1, b2, by simp, List.mem_append_left _ ?_⟩
    have : m ∈ a.filter (· ≠ 0) := by rw [ha]; simp
    exact (List.mem_filter.1 this).1

/-! ### the map of `C122_refuted` -/

theorem lvEccen {s : ℝ} (s0 : 0 < s) : eccentricity (max (1 / 2 + s) (lvQ s)) (min (1 / 2 + s) (lvQ s)) = some (Real.sqrt (1 / (1 + s))) := by
  have hp : (0 : ℝ) < 1 / 2 + s := by linarith
  have hr : s / (1 + s) * (1 / 2 + s) ^ 2 ≤ (1 / 2 + s) ^ 2 := by
    have : s / (1 + s) ≤ 1 := by rw [div_le_one (by linarith)]; linarith
    nlinarith [sq_nonneg (1 / 2 + s)]
  have hq : lvQ s ≤ 1 / 2 + s := by
    unfold lvQ
    exact Real.sqrt_le_iff.2 ⟨hp.le, hr⟩
  have hq2 : |lvQ s| ^ 2 = s / (1 + s) * (1 / 2 + s) ^ 2 := by
    rw [sq_abs]
    exact Real.sq_sqrt (by positivity)
  have he : 1 - |lvQ s| ^ 2 / |1 / 2 + s| ^ 2 = 1 / (1 + s) := by
    rw [hq2, sq_abs]
    field_simp
    ring
  rw [max_eq_left hq, min_eq_right hq]
  unfold eccentricity
  rw [if_neg hp.ne', he, if_neg (not_lt.2 (by positivity))]

/-- stricter criteria: no eccentricity above 22/25 -/
noncomputable def strictCriteria : Criteria ℝ := { lvCriteria with eccen := 22 / 25 }

theorem strict_relaxes : Relaxes strictCriteria lvCriteria :=
  ⟨le_refl _, by show (22 / 25 : ℝ) ≤ 1; norm_num, le_refl _, le_refl _, rfl⟩

/-- the contour at 3/4 is too elongated -/
theorem strict_quarter : examine strictCriteria lvLibs lvField (3 / 4) ((lvPts (1 / 4)).map some) = .ok (.discarded .eccentricity) := by
  have s0 : (0 : ℝ) < 1 / 4 := by norm_num
  have s1 : (1 / 4 : ℝ) < 1 / 2 := by norm_num
  obtain ⟨c1, c2, c3⟩ := lvCriteria_ok (s := 1 / 4) (Or.inl rfl)
  have hgt : gtNan (some (Real.sqrt (1 / (1 + 1 / 4)))) strictCriteria.eccen := by
    refine ⟨_, rfl, ?_⟩
    show (22 / 25 : ℝ) < _
    exact (Real.lt_sqrt (by norm_num)).2 (by norm_num)
  unfold examine
  rw [lvSkips s0 s1, allPoints_eq.2 rfl]
  show examinePoints _ _ _ _ _ = _
  unfold examinePoints
  have n1 : ¬ (Real.sqrt (areaPolygon (lvPts (1 / 4)) / Real.pi) > strictCriteria.maxArea * approxRD (meanPt (lvPts (1 / 4))).2) := by
    rw [lvMean]
    exact not_lt.2 c1
  have n2 : FiniteEllipse (lvPts (1 / 4)) ∧
      isclose (areaPolygon (lvPts (1 / 4))) (areaPolygon (lvCurve (1 / 4))) (1 / 10 * strictCriteria.ellipseFit) = true := ⟨lvFinite s0, c2⟩
  simp only [n1, if_false, lvFit s0, bind, Except.bind, pure, Except.pure, n2, not_true_eq_false, and_self, lvEccen s0, hgt, if_true]

theorem strict_eighths : ∃ e : EddyObj, examine strictCriteria lvLibs lvField (5 / 8) ((lvPts (3 / 8)).map some) = .ok (.stored e) ∧ e.level = 5 / 8 := by
  obtain ⟨x, hx0, hx⟩ := lvData
  have s0 : (0 : ℝ) < 3 / 8 := by norm_num
  have s1 : (3 / 8 : ℝ) < 1 / 2 := by norm_num
  obtain ⟨v, hv⟩ := lvSim (3 / 8)
  obtain ⟨c1, c2, c3⟩ := lvCriteria_ok (s := 3 / 8) (Or.inr rfl)
  refine ⟨⟨lvPts (3 / 8), 5 / 8, areaPolygon (lvPts (3 / 8)), Real.sqrt (areaPolygon (lvPts (3 / 8)) / Real.pi),
    (max (1 / 2 + 3 / 8) (lvQ (3 / 8)), min (1 / 2 + 3 / 8) (lvQ (3 / 8)), angleOf (lvConic (3 / 8))), v,
    eccentricity (max (1 / 2 + 3 / 8) (lvQ (3 / 8))) (min (1 / 2 + 3 / 8) (lvQ (3 / 8))), meanPt (lvPts (3 / 8)), x.sign,
    maximaOf lvField ⟨exWindow, x⟩, none, some 0⟩, ?_, rfl⟩
  rw [examine_stored]
  refine ⟨lvSkips s0 s1, rfl, lvCurve (3 / 8), ⟨exWindow, x⟩, ?_⟩
  refine ⟨rfl, rfl, rfl, rfl, rfl, ?_, lvFit s0, lvFinite s0, c2, rfl, ?_, ?_, ?_, hx (3 / 8) s0 s1, rfl, rfl, hx0, Or.inl ⟨rfl, rfl, rfl⟩⟩
  · rw [lvMean]
    exact c1
  · simp only [lvEccen s0]
    rintro ⟨u, hu, h1⟩
    injection hu with hu
    rw [← hu] at h1
    refine absurd h1 (not_lt.2 ?_)
    show _ ≤ (22 / 25 : ℝ)
    exact Real.sqrt_le_iff.2 ⟨by norm_num, by norm_num⟩
  · show liftFr (similarity 100 (lvPts (3 / 8)) (lvCurve (3 / 8))) = .ok v
    rw [hv]
    rfl
  · rintro ⟨u, hu, h1⟩
    simp only at hu
    subst hu
    have := (similarity_unit hv).2
    have h2 : strictCriteria.ellipseFit = lvCriteria.ellipseFit := rfl
    linarith

theorem strict_snapshot {prunes : Bool} {nn : List (ℝ × ℝ) → ℝ × ℝ → Nat} (hnn : IsNN haversine nn) : ∃ (e : EddyObj) (C : Tbl Cols),
    pureSnapshot (colsEnv prunes nn) strictCriteria lvLibs lvField [3 / 4, 5 / 8] = .ok C ∧
    C.rows = snapRows [tableRows e.data] ∧ e.level = 5 / 8 ∧ tableRows e.data ≠ [] := by
  obtain ⟨e, h1, h2⟩ := strict_eighths
  have h0 := strict_quarter
  obtain ⟨c1, c2⟩ := lvField_contours lvLibs
  have f1 : foundIn strictCriteria lvLibs lvField (3 / 4) = [] := by
    unfold foundIn
    have hse : storedEddy strictCriteria lvLibs lvField (3 / 4) ((lvPts (1 / 4)).map some) = none := by unfold storedEddy; rw [h0]
    rw [c1, List.filterMap_cons_none hse, List.filterMap_nil]
  have f2 : foundIn strictCriteria lvLibs lvField (5 / 8) = [e] := by
    unfold foundIn
    have hse : storedEddy strictCriteria lvLibs lvField (5 / 8) ((lvPts (3 / 8)).map some) = some e := by unfold storedEddy; rw [h1]
    rw [c2, List.filterMap_cons_some hse, List.filterMap_nil]
  obtain ⟨C, k1, k2⟩ := pureSnapshot_select (prunes := prunes) hnn (c := strictCriteria) rfl (L := lvLibs) lvField_ok (levels := [3 / 4, 5 / 8]) (by
    intro l hl _
    have hl : l = 3 / 4 ∨ l = 5 / 8 := by simpa using hl
    unfold pureLevel
    have hv : ∀ m ∈ levelMeasures strictCriteria lvLibs lvField l, ∃ v, verdict strictCriteria m = .ok v := by
      intro m hm
      unfold levelMeasures at hm
      rcases hl with rfl | rfl
      · rw [c1] at hm
        simp only [List.map_cons, List.map_nil, List.mem_singleton] at hm
        subst hm
        rw [verdict_measures, h0]
        exact ⟨_, rfl⟩
      · rw [c2] at hm
        simp only [List.map_cons, List.map_nil, List.mem_singleton] at hm
        subst hm
        rw [verdict_measures, h1]
        exact ⟨_, rfl⟩
    rw [detectOneLevel_ok _ _ hv]
    exact ⟨_, rfl⟩)
  have e1 : ([3 / 4, 5 / 8] : List ℝ).filter (· ≠ 0) = [3 / 4, 5 / 8] := by norm_num
  have e2 : select NearEddy [[], [e]] = [e] := by classical simp [select]
  rw [e1, List.map_cons, List.map_cons, List.map_nil, f1, f2, e2] at k2
  exact ⟨e, C, k1, k2, h2, foundIn_ne lvField_ok _ e (by rw [f2]; simp)⟩

/-- **C137** is false: for two adjacent grid points with value 1 among zeros and the levels 3/4 and 5/8, a limit of 22/25 for the
eccentricity gives one eddy whose contour is at 5/8; with the limit 1 it is gone, there is one at 3/4 instead. -/
theorem C137_refuted : ∃ (c c' : Criteria ℝ) (L : Libs) (S : Fields), S.Ok ∧ S.Rectilinear ∧ L.Nearest ∧ Relaxes c c' ∧ c.skipGauss = true ∧
    ∀ (prunes : Bool) (nn : List (ℝ × ℝ) → ℝ × ℝ → Nat), IsNN haversine nn → ∃ C C',
      (snapshotOf (colsEnv prunes nn) c L S [3 / 4, 5 / 8] Regs.empty).2 = .ok C ∧
      (snapshotOf (colsEnv prunes nn) c' L S [3 / 4, 5 / 8] Regs.empty).2 = .ok C' ∧ C.rows ≠ [] ∧ C'.rows ≠ [] ∧
      (∀ r ∈ C.rows, column "level" r.val = 5 / 8) ∧ ∀ r ∈ C'.rows, column "level" r.val = 3 / 4 := by
  refine ⟨strictCriteria, lvCriteria, lvLibs, lvField, lvField_ok, lvField_rect, lvLibs_nearest, strict_relaxes, rfl, ?_⟩
  intro prunes nn hnn
  obtain ⟨e, -, C', -, h2, -, h4, -, l1, -, n1, -⟩ := lvSnapshots (prunes := prunes) hnn
  obtain ⟨e', C, h1, h3, l2, n2⟩ := strict_snapshot (prunes := prunes) hnn
  have hv : ∀ (o : EddyObj), ∀ r ∈ snapRows [tableRows o.data], column "level" r.val = o.level := by
    intro o r ho
    unfold snapRows eddyRows at ho
    simp only [List.mapIdx_cons, List.mapIdx_nil, List.flatten_cons, List.flatten_nil, List.append_nil] at ho
    obtain ⟨j, hj, rfl⟩ := List.mem_mapIdx.1 ho
    have := List.getElem_mem (l := tableRows o.data) hj
    obtain ⟨p, -, hp⟩ := List.mem_map.1 this
    simp only
    rw [← hp]
    simp [column, columns, EddyObj.data]
  refine ⟨C, C', by rw [(snapshotOf_pure _ _ _ lvField_ok _ ⟨rfl, rfl⟩).1]; exact h1,
    by rw [(snapshotOf_pure _ _ _ lvField_ok _ ⟨rfl, rfl⟩).1]; exact h2, ?_, ?_, ?_, ?_⟩
  · rw [h3]
    unfold snapRows eddyRows
    simpa using n2
  · rw [h4]
    unfold snapRows eddyRows
    simpa using n1
  · intro r hr
    rw [h3] at hr
    exact (hv e' r hr).trans l2
  · intro r hr
    rw [h4] at hr
    exact (hv e r hr).trans l1

/-- C137 for the example: both runs end, both tables have eddies -/
example : ∃ (nn : List (ℝ × ℝ) → ℝ × ℝ → Nat) (s s' : LoopState Cols), IsNN haversine nn ∧ Relaxes strictCriteria lvCriteria ∧
    strictCriteria.skipGauss = true ∧ lvField.Ok ∧ s.table.rows ≠ [] ∧ s'.table.rows ≠ [] ∧
    (trackFields (colsEnv true nn) strictCriteria lvLibs (fun _ => lvField) [3 / 4, 5 / 8] 0 none 1 1 true Regs.empty).2 = .ok s ∧
    (trackFields (colsEnv true nn) lvCriteria lvLibs (fun _ => lvField) [3 / 4, 5 / 8] 0 none 1 1 true Regs.empty).2 = .ok s' := by
  obtain ⟨nn, hnn⟩ := exists_isNN haversine
  obtain ⟨e, C, h1, h3, -, n2⟩ := strict_snapshot (prunes := true) hnn
  obtain ⟨s, k1, k2⟩ := oneTime_run (E := colsEnv true nn) hnn lvField_ok h1 (by rw [h3]; unfold snapRows eddyRows; simpa using n2) 1
    (regs := Regs.empty) ⟨rfl, rfl⟩
  obtain ⟨s', k1', k2'⟩ := lvRuns (prunes := true) hnn (levels := [3 / 4, 5 / 8]) (by simp)
  exact ⟨nn, s, s', hnn, strict_relaxes, rfl, lvField_ok, k2, k2', k1, k1'⟩

end Trackeddy
