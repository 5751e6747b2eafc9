import Verif.Props.SeveralLevels

/-!
C06, C08 and C10 from maps on: a time without eddies, a late start, and what is written without online tracking
(trackeddy/trackeddy.py:181-224, utils.py:157-190). The map with an eddy is the one of Props/LevelsExample.lean.
-/
namespace Trackeddy
open Spec
open Cntr (Vertex)

def gpqZ : Cntr.NdArr (Option ℚ) := ⟨3, 4, fun _ _ => some 0⟩

/-- a map of zeros on the same grid -/
noncomputable def gpFlat : Fields := ⟨lvField.X, lvField.Y, ⟨3, 4, fun _ _ => some 0⟩⟩

theorem gpFlat_ok : gpFlat.Ok := ⟨rfl, rfl, fun M hM => by cases hM⟩

theorem gpFlat_rect : gpFlat.Rectilinear := lvField_rect

theorem gpq_flat : Cntr.extractContours lvqX lvqY gpqZ (3 / 4) 50 Cntr.exMem = .ok (([] : List (List (Vertex ℚ))).map .points, []) := by
  decide +kernel

theorem gpFlat_contours (L : Libs) : contourList L gpFlat (3 / 4) = [] := by
  obtain ⟨hX, hY, -⟩ := lvField_cast
  have hZ : gpqZ.castO (Rat.castHom ℝ) = gpFlat.data := by
    unfold Cntr.NdArr.castO gpqZ gpFlat
    simp
  obtain ⟨cds, h⟩ := Cntr.extract_cast (Rat.castHom ℝ) Rat.cast_strictMono (X := lvqX) (Y := lvqY) (Z := gpqZ)
    (mem' := L.mem gpFlat.data (3 / 4)) (fuel' := 4 * (4 * 3) + 2)
    ⟨rfl, rfl, fun M hM => by cases hM⟩ (3 / 4) (by decide) (by decide) gpq_flat
  have hl : Rat.castHom ℝ (3 / 4) = 3 / 4 := by norm_num
  rw [hX, hY, hZ, hl] at h
  have hd : 4 * (gpFlat.data.cols * gpFlat.data.rows) + 2 = 4 * (4 * 3) + 2 := rfl
  have h : Cntr.extractContours gpFlat.X gpFlat.Y gpFlat.data (3 / 4) (4 * (4 * 3) + 2) (L.mem gpFlat.data (3 / 4)) = _ := h
  unfold contourList contoursOf
  rw [hd, h]
  simp [vertsOf]

theorem gpFound : foundIn lvCriteria lvLibs lvField (3 / 4) ≠ [] ∧ foundIn lvCriteria lvLibs gpFlat (3 / 4) = [] := by
  obtain ⟨e, e', f1, f2, l1, l2, n1, n2, hok⟩ := lvFound
  refine ⟨by rw [f1]; simp, ?_⟩
  unfold foundIn
  rw [gpFlat_contours]
  rfl

/-- the map of time `t`: zeros at the time 1 -/
noncomputable def gpField (t : Int) : Fields := if t = 1 then gpFlat else lvField

theorem gpReturn (t : Int) : (gpField t).Ok ∧ ∃ x, (detectLevel lvCriteria lvLibs (gpField t) Regs.empty (3 / 4)).2 = .ok x := by
  unfold gpField
  split
  · refine ⟨gpFlat_ok, ?_⟩
    rw [detectLevel_measures gpFlat_ok]
    unfold levelMeasures
    rw [gpFlat_contours, detectOneLevel_ok _ _ (by simp)]
    exact ⟨_, rfl⟩
  · exact ⟨lvField_ok, lvReturn _ (by simp) (by norm_num)⟩

theorem gpLevel : ([3 / 4] : List ℝ).filter (· ≠ 0) = [3 / 4] := by norm_num

/-- **C06** is false from the maps on. The same eddy at the times 0 and 2 and none at 1: the run over the three times raises `KeyError`, for any
`ntimes`, although the detection succeeds at each of them. The same eddy at all times: a run that starts at 1 and looks back one time or more
raises `KeyError` as well. -/
theorem C06_refuted_from_data : ∃ (c : Criteria ℝ) (L : Libs) (S Z : Fields) (l : ℝ), S.Ok ∧ S.Rectilinear ∧ Z.Ok ∧ Z.Rectilinear ∧ L.Nearest ∧
    (∃ x, (detectLevel c L S Regs.empty l).2 = .ok x) ∧ (∃ x, (detectLevel c L Z Regs.empty l).2 = .ok x) ∧
    ∀ (prunes : Bool) (nn : List (ℝ × ℝ) → ℝ × ℝ → Nat), IsNN haversine nn → ∀ (T : Nat) (ntimes : Int),
      (trackFields (colsEnv prunes nn) c L (fun t => if t = 1 then Z else S) [l] 0 (some 3) T ntimes true Regs.empty).2 = .error .keyError ∧
      (1 ≤ ntimes → (trackFields (colsEnv prunes nn) c L (fun _ => S) [l] 1 (some 3) T ntimes true Regs.empty).2 = .error .keyError) := by
  obtain ⟨f1, f2⟩ := gpFound
  have r0 := (gpReturn 0).2
  have r1 := (gpReturn 1).2
  refine ⟨lvCriteria, lvLibs, lvField, gpFlat, 3 / 4, lvField_ok, lvField_rect, gpFlat_ok, gpFlat_rect, lvLibs_nearest, r0, r1, ?_⟩
  intro prunes nn hnn T ntimes
  constructor
  · obtain ⟨-, h1, h2⟩ := C06_partial_from_data (E := colsEnv prunes nn) (c := lvCriteria) (L := lvLibs) (field := gpField) (levels := [3 / 4])
      (t0 := 0) (T := T) (ntimes := ntimes) (regs := Regs.empty) hnn gpLevel (f := 3) le_rfl (by norm_num) (fun t _ _ => gpReturn t) ⟨rfl, rfl⟩
    apply h2
    intro hs
    have := (h1.1 hs 2 (by norm_num) (by norm_num) f1 ⟨0, by norm_num, by norm_num, f1⟩ 1 (Or.inl (by norm_num))).2
    exact this f2
  · intro hn
    obtain ⟨-, h1, h2⟩ := C06_partial_from_data (E := colsEnv prunes nn) (c := lvCriteria) (L := lvLibs) (field := fun _ => lvField) (levels := [3 / 4])
      (t0 := 1) (T := T) (ntimes := ntimes) (regs := Regs.empty) hnn gpLevel (f := 3) (by norm_num) (by norm_num)
      (fun _ _ _ => ⟨lvField_ok, r0⟩) ⟨rfl, rfl⟩
    apply h2
    intro hs
    have := (h1.1 hs 2 (by norm_num) (by norm_num) f1 ⟨1, by norm_num, by norm_num, f1⟩ 0 (Or.inr (by omega))).1
    omega

/-! ### without online tracking -/

theorem offline_steps {α K Pt : Type} [Field K] [LinearOrder K] {E : Env α K Pt} {snap : Int → Except PyErr (Tbl α)} {f ntimes : Int} (hf : f ≠ 0) :
    ∀ (ts : List Int) (s : LoopState α), (∀ t ∈ ts, 0 ≤ t ∧ ∃ C, snap t = .ok C) →
      ∃ s', ts.foldlM (loopStep E snap (some f) ntimes false) s = .ok s'
  | [], s, _ => ⟨s, rfl⟩
  | t :: ts, s, h => by
    obtain ⟨h0, C, hC⟩ := h t List.mem_cons_self
    have hstep : ∃ s1, loopStep E snap (some f) ntimes false s t = .ok s1 := by
      unfold loopStep
      simp only [hC, bind, Except.bind, pure, Except.pure, C09_partial hf h0]
      simp only [Bool.false_eq_true, if_false]
      split_ifs <;> exact ⟨_, rfl⟩
    obtain ⟨s1, h1⟩ := hstep
    obtain ⟨s', h2⟩ := offline_steps (E := E) (snap := snap) (ntimes := ntimes) hf ts s1 fun t ht => h t (List.mem_cons_of_mem _ ht)
    exact ⟨s', by rw [List.foldlM_cons, h1]; exact h2⟩

/-- **C10**, the runs: without online tracking a run with `tf` given succeeds whenever the detection succeeds at each of its times, gaps or not
(the writing of the files is taken to succeed, see `loopStep`). -/
theorem C10_runs {Pt : Type} {E : Env Cols ℝ Pt} {c : Criteria ℝ} {L : Libs} {field : Int → Fields} {l : ℝ} {levels : List ℝ}
    (hl : levels.filter (· ≠ 0) = [l]) {t0 f : Int} (h0 : 0 ≤ t0) (hf : f ≠ 0)
    (h : ∀ t, t0 ≤ t → t < f → (field t).Ok ∧ ∃ x, (detectLevel c L (field t) Regs.empty l).2 = .ok x) {regs : Regs Cols} (hr : StoreEmpty regs)
    (T : Nat) (ntimes : Int) : ∃ s, (trackFields E c L field levels t0 (some f) T ntimes false regs).2 = .ok s := by
  have ht : ∀ t ∈ trackTimes t0 (some f) T, (field t).Ok ∧ ∃ x, (detectLevel c L (field t) Regs.empty l).2 = .ok x :=
    fun t ht => h t ((mem_trackTimes_some hf).1 ht).1 ((mem_trackTimes_some hf).1 ht).2
  rw [run_snapsOf (fun t hx => (ht t hx).1) hr]
  obtain ⟨h1, -, -⟩ := snapsOf_facts (E := E) hl ht
  exact offline_steps hf _ _ fun t hx => ⟨le_trans h0 ((mem_trackTimes_some hf).1 hx).1, h1 t⟩

/-- **C10** is false from the maps on: the same eddy at the times 0 and 2 and none at 1, and without online tracking only the time 2 is written. -/
theorem C10_refuted_from_data : ∃ (c : Criteria ℝ) (L : Libs) (field : Int → Fields) (l : ℝ), (∀ t, (field t).Ok ∧ (field t).Rectilinear) ∧ L.Nearest ∧
    foundIn c L (field 0) l ≠ [] ∧ foundIn c L (field 1) l = [] ∧ foundIn c L (field 2) l ≠ [] ∧
    ∀ (prunes : Bool) (nn : List (ℝ × ℝ) → ℝ × ℝ → Nat) (T : Nat) (ntimes : Int), ∃ s : LoopState Cols,
      (trackFields (colsEnv prunes nn) c L field [l] 0 (some 3) T ntimes false Regs.empty).2 = .ok s ∧ s.written.map Prod.fst = [2] := by
  obtain ⟨f1, f2⟩ := gpFound
  refine ⟨lvCriteria, lvLibs, gpField, 3 / 4, ?_, lvLibs_nearest, f1, f2, f1, ?_⟩
  · intro t
    unfold gpField
    split
    · exact ⟨gpFlat_ok, gpFlat_rect⟩
    · exact ⟨lvField_ok, lvField_rect⟩
  intro prunes nn T ntimes
  obtain ⟨s, hs⟩ := C10_runs (E := colsEnv prunes nn) (c := lvCriteria) (L := lvLibs) (field := gpField) gpLevel (t0 := 0) (f := 3) le_rfl
    (by norm_num) (fun t _ _ => gpReturn t) (regs := Regs.empty) ⟨rfl, rfl⟩ T ntimes
  refine ⟨s, hs, ?_⟩
  obtain ⟨-, h, -⟩ := C10_partial_from_data (E := colsEnv prunes nn) (field := gpField) gpLevel (fun t _ => gpReturn t) ⟨rfl, rfl⟩ hs
  have ht : trackTimes 0 (some 3) T = [0, 1, 2] := by
    have : trackTimes 0 (some 3) T = irange 0 3 := by simp [trackTimes]
    rw [this]
    decide
  have e0 : foundIn lvCriteria lvLibs (gpField 0) (3 / 4) ≠ [] := f1
  have e1 : foundIn lvCriteria lvLibs (gpField 1) (3 / 4) = [] := f2
  have e2 : foundIn lvCriteria lvLibs (gpField 2) (3 / 4) ≠ [] := f1
  have h' := congrArg (List.map Prod.fst) h
  rw [List.map_map, ht] at h'
  simp only [List.filter_cons, e0, e1, e2, List.filter_nil, ne_eq, not_true_eq_false, not_false_eq_true, decide_true, decide_false, if_true,
    List.tail_cons] at h'
  exact h'

/-- the map of time `t`: the eddy at the time 0, zeros afterwards -/
noncomputable def gpFirst (t : Int) : Fields := if t = 0 then lvField else gpFlat

theorem gpFirst_return (t : Int) : (gpFirst t).Ok ∧ ∃ x, (detectLevel lvCriteria lvLibs (gpFirst t) Regs.empty (3 / 4)).2 = .ok x := by
  unfold gpFirst
  split
  · exact gpReturn 0
  · exact gpReturn 1

/-- **C08** is false from the maps on: an eddy at the time 0 and zeros afterwards. Whatever `t0` is, a run with `tf` omitted succeeds, processes
all times, and returns the eddy of the time 0. -/
theorem C08_refuted_from_data : ∃ (c : Criteria ℝ) (L : Libs) (field : Int → Fields) (l : ℝ), (∀ t, (field t).Ok ∧ (field t).Rectilinear) ∧ L.Nearest ∧
    (∀ t, foundIn c L (field t) l ≠ [] ↔ t = 0) ∧
    ∀ (prunes : Bool) (nn : List (ℝ × ℝ) → ℝ × ℝ → Nat), IsNN haversine nn → ∀ (T : Nat) (t0 ntimes : Int), 0 < T → ∃ s : LoopState Cols,
      (trackFields (colsEnv prunes nn) c L field [l] t0 none T ntimes false Regs.empty).2 = .ok s ∧
      (∀ t, t ∈ s.processed ↔ 0 ≤ t ∧ t < T) ∧ s.table.rows ≠ [] ∧ ∀ r ∈ s.table.rows, r.val.1 = 0 := by
  obtain ⟨f1, f2⟩ := gpFound
  have hf : ∀ t, foundIn lvCriteria lvLibs (gpFirst t) (3 / 4) ≠ [] ↔ t = 0 := by
    intro t
    unfold gpFirst
    by_cases ht : t = 0
    · rw [if_pos ht]; exact ⟨fun _ => ht, fun _ => f1⟩
    · rw [if_neg ht]; exact ⟨fun h => absurd f2 h, fun h => absurd h ht⟩
  refine ⟨lvCriteria, lvLibs, gpFirst, 3 / 4, ?_, lvLibs_nearest, hf, ?_⟩
  · intro t
    unfold gpFirst
    split
    · exact ⟨lvField_ok, lvField_rect⟩
    · exact ⟨gpFlat_ok, gpFlat_rect⟩
  intro prunes nn hnn T t0 ntimes hT
  obtain ⟨s, hs⟩ := (C09_refuted_from_data (E := colsEnv prunes nn) (c := lvCriteria) (L := lvLibs) (field := gpFirst) (t0 := t0) (T := T)
    (ntimes := ntimes) (regs := Regs.empty) hnn gpLevel (fun t _ _ => gpFirst_return t) ⟨rfl, rfl⟩ false).2.2 (by
      intro u t hu ht _ _
      by_contra h
      have := (hf t).1 h
      omega)
  refine ⟨s, hs, ?_, ?_⟩
  · have h := hs
    rw [(trackFields_pure _ _ _ (fun t _ => (gpFirst_return t).1) ⟨rfl, rfl⟩).1] at h
    exact (C08_refuted (Or.inl rfl) h).2
  · obtain ⟨-, -, h, -⟩ := C10_partial_from_data (E := colsEnv prunes nn) (field := gpFirst) gpLevel (fun t _ => gpFirst_return t) ⟨rfl, rfl⟩ hs
    have h0 : ((trackTimes t0 none T).filter fun t => foundIn lvCriteria lvLibs (gpFirst t) (3 / 4) ≠ []).head? = some 0 := by
      have e : (fun t : Int => decide (foundIn lvCriteria lvLibs (gpFirst t) (3 / 4) ≠ [])) = fun t => decide (t = 0) := by
        funext t
        exact decide_eq_decide.2 (hf t)
      rw [e]
      have hm : (0 : Int) ∈ (trackTimes t0 none T).filter fun t => decide (t = 0) := by
        rw [List.mem_filter]
        exact ⟨mem_irange.2 ⟨le_rfl, by omega⟩, by simp⟩
      cases hl : (trackTimes t0 none T).filter fun t => decide (t = 0) with
      | nil => rw [hl] at hm; simp at hm
      | cons a as =>
        have ha : a ∈ (trackTimes t0 none T).filter fun t => decide (t = 0) := by rw [hl]; simp
        have := (List.mem_filter.1 ha).2
        simp only [decide_eq_true_eq] at this
        rw [this]
        rfl
    have hp := h 0 h0
    constructor
    · intro hn
      rw [hn, List.nil_perm] at hp
      unfold atTime at hp
      rw [List.map_eq_nil_iff, snapRows_eq_nil (foundIn_ne (gpFirst_return 0).1 _)] at hp
      exact (hf 0).2 rfl hp
    · intro r hr
      have := hp.mem_iff.1 hr
      unfold atTime at this
      obtain ⟨q, -, rfl⟩ := List.mem_map.1 this
      rfl

/-- the hypotheses of `C10_runs` hold for the maps with a gap -/
example : ∃ s, (trackFields (colsEnv true fun _ _ => 0) lvCriteria lvLibs gpField [3 / 4] 0 (some 5) 5 1 false Regs.empty).2 = .ok s :=
  C10_runs gpLevel le_rfl (by norm_num) (fun t _ _ => gpReturn t) ⟨rfl, rfl⟩ 5 1

end Trackeddy
