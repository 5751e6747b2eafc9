import Verif.Props.FromData

/-!
C107: the table returned by `time_tracking` (trackeddy/trackeddy.py:181-224, utils.py:9-33, 96-115, 169-256), seen as a whole:
how each eddy in it is related to the rows of earlier times.
-/
namespace Trackeddy.Spec
variable {α K Pt : Type} [Field K] [LinearOrder K] [IsStrictOrderedRing K]

/-- the rows of the times before `t` -/
def before (t : Int) (rows : List (Row (Int × α))) : List (Row (Int × α)) := rows.filter fun r => r.val.1 < t

/-- At each time with eddies, if there are eddies of earlier times, every eddy continues the track whose last known maximum is nearest, if it is nearer than
the radius of the eddy, and has a new identifier otherwise. -/
def FollowsRule (dist : Pt → Pt → K) (pos : α → Pt) (radius : α → K) (rows : List (Row (Int × α))) : Prop :=
  ∀ t : Int, (∃ r ∈ rows, r.val.1 = t) → before t rows ≠ [] → ∃ ends : List Pt, Contiguous (before t rows) ends.length ∧
    (∀ (i : Nat) p, ends[i]? = some p → IsEnd pos (before t rows) i p) ∧
    ∀ r ∈ rows, r.idx = 0 → r.val.1 = t →
      ((∃ p ∈ ends, dist (pos r.val.2) p * 6371 < radius r.val.2) →
        ∃ p, ends[r.id]? = some p ∧ (∀ q ∈ ends, dist (pos r.val.2) p ≤ dist (pos r.val.2) q) ∧
          dist (pos r.val.2) p * 6371 < radius r.val.2) ∧
      ((¬ ∃ p ∈ ends, dist (pos r.val.2) p * 6371 < radius r.val.2) → ends.length ≤ r.id)

/-- Each eddy of a track other than the earliest ones is within its radius of an eddy of the same track, at the latest time
before it at which the track has been seen. -/
def Continuous (dist : Pt → Pt → K) (pos : α → Pt) (radius : α → K) (rows : List (Row (Int × α))) : Prop :=
  ∀ r ∈ rows, r.idx = 0 → (∀ s ∈ rows, s.id = r.id → r.val.1 ≤ s.val.1) ∨
    ∃ s ∈ rows, s.id = r.id ∧ s.idx = 0 ∧ s.val.1 < r.val.1 ∧
      (∀ s' ∈ rows, s'.id = r.id → s'.val.1 < r.val.1 → s'.val.1 ≤ s.val.1) ∧
      dist (pos r.val.2) (pos s.val.2) * 6371 < radius r.val.2

/-- An eddy that begins a track after the first time with eddies has no end of a known track within its radius. -/
def NewTracksApart (dist : Pt → Pt → K) (pos : α → Pt) (radius : α → K) (rows : List (Row (Int × α))) : Prop :=
  ∀ r ∈ rows, r.idx = 0 → (∀ s ∈ rows, s.id = r.id → r.val.1 ≤ s.val.1) →
    ∀ s ∈ rows, s.val.1 < r.val.1 → ∃ e ∈ rows, e.id = s.id ∧ e.idx = 0 ∧ e.val.1 < r.val.1 ∧
      (∀ s' ∈ rows, s'.id = s.id → s'.val.1 < r.val.1 → s'.val.1 ≤ e.val.1) ∧
      radius r.val.2 ≤ dist (pos r.val.2) (pos e.val.2) * 6371

end Trackeddy.Spec

namespace Trackeddy
open Spec Tbl

section
variable {α K Pt : Type} [Field K] [LinearOrder K] [IsStrictOrderedRing K]

theorem mem_before {t : Int} {rows : List (Row (Int × α))} {r : Row (Int × α)} :
    r ∈ before t rows ↔ r ∈ rows ∧ r.val.1 < t := by
  simp [before]

theorem followsRule_continuous {dist : Pt → Pt → K} {pos : α → Pt} {radius : α → K} {rows : List (Row (Int × α))}
    (h : FollowsRule dist pos radius rows) : Spec.Continuous dist pos radius rows := by
  intro r hr h0
  by_cases hs : ∀ s ∈ rows, s.id = r.id → r.val.1 ≤ s.val.1
  · exact .inl hs
  · right
    push Not at hs
    obtain ⟨s0, hs0, hid, hlt⟩ := hs
    have hb : s0 ∈ before r.val.1 rows := mem_before.2 ⟨hs0, hlt⟩
    obtain ⟨ends, h1, h2, h3⟩ := h r.val.1 ⟨r, hr, rfl⟩ (List.ne_nil_of_mem hb)
    obtain ⟨h4, h5⟩ := h3 r hr h0 rfl
    have hlen : r.id < ends.length := (h1 r.id).1 ⟨s0, hb, hid⟩
    have hex : ∃ p ∈ ends, dist (pos r.val.2) p * 6371 < radius r.val.2 := by
      by_contra hc
      exact absurd (h5 hc) (by omega)
    obtain ⟨p, hp, -, hd⟩ := h4 hex
    obtain ⟨s, hsm, s1, s2, rfl, s4⟩ := h2 _ _ hp
    obtain ⟨hsm, s5⟩ := mem_before.1 hsm
    exact ⟨s, hsm, s1, s2, s5, fun s' hs' hid' hlt' => s4 s' (mem_before.2 ⟨hs', hlt'⟩) hid', hd⟩

theorem followsRule_newTracksApart {dist : Pt → Pt → K} {pos : α → Pt} {radius : α → K} {rows : List (Row (Int × α))}
    (h : FollowsRule dist pos radius rows) : NewTracksApart dist pos radius rows := by
  intro r hr h0 hfirst s hs hlt
  have hb : s ∈ before r.val.1 rows := mem_before.2 ⟨hs, hlt⟩
  obtain ⟨ends, h1, h2, h3⟩ := h r.val.1 ⟨r, hr, rfl⟩ (List.ne_nil_of_mem hb)
  obtain ⟨h4, -⟩ := h3 r hr h0 rfl
  have hno : ¬ ∃ p ∈ ends, dist (pos r.val.2) p * 6371 < radius r.val.2 := by
    intro hc
    obtain ⟨p, hp, -⟩ := h4 hc
    obtain ⟨e, he, e1, -, -, -⟩ := h2 _ _ hp
    obtain ⟨he, e5⟩ := mem_before.1 he
    exact absurd (hfirst e he e1) (by omega)
  have hlen : s.id < ends.length := (h1 s.id).1 ⟨s, hb, rfl⟩
  obtain ⟨e, he, e1, e2, e3, e4⟩ := h2 s.id ends[s.id] (List.getElem?_eq_getElem hlen)
  obtain ⟨he, e5⟩ := mem_before.1 he
  refine ⟨e, he, e1, e2, e5, fun s' hs' hid' hlt' => e4 s' (mem_before.2 ⟨hs', hlt'⟩) hid', ?_⟩
  rw [e3]
  by_contra hc
  exact hno ⟨_, List.getElem_mem hlen, not_le.1 hc⟩

/-- the first row of an eddy holds the value of its head -/
theorem mem_snapRows_first {es : List (Eddy α)} (hes : ∀ e ∈ es, e ≠ []) {r : Row α} (h : r ∈ snapRows es) (h0 : r.idx = 0) :
    (heads es)[r.id]? = some r.val := by
  have hm : r ∈ (snapRows es).filter (fun r => r.idx = 0) := by simp [h, h0]
  rw [first_snapRows hes, List.mem_mapIdx] at hm
  obtain ⟨i, hi, rfl⟩ := hm
  exact List.getElem?_eq_getElem hi

/-- **C107** (partial) The table returned by a run follows the linking rule at every time, if in each snapshot an identifier names
one eddy. Missing: snapshots in which eddies share an identifier (C15), for which it is false (`C107_refuted`). -/
theorem C107_partial {E : Env α K Pt} (hnn : IsNN E.dist E.nn) {snap : Int → Except PyErr (Tbl α)} {t0 f : Int}
    (h0 : 0 ≤ t0) (hf : f ≠ 0) {T : Nat} {ntimes : Int}
    (hsnap : ∀ t, t0 ≤ t → t < f → ∀ C, snap t = .ok C → ∃ es : List (Eddy α), (∀ e ∈ es, e ≠ []) ∧ C.rows = snapRows es)
    {s : LoopState α} (h : timeTracking E snap t0 (some f) T ntimes true = .ok s) :
    FollowsRule E.dist E.pos E.radius s.table.rows := by
  classical
  let snap' : Int → Except PyErr (Tbl α) := fun t => if t0 ≤ t ∧ t < f then snap t else .ok ⟨[], []⟩
  have hs' : ∀ t C, snap' t = .ok C → ∃ es : List (Eddy α), (∀ e ∈ es, e ≠ []) ∧ C.rows = snapRows es := by
    intro t C hC
    by_cases ht : t0 ≤ t ∧ t < f
    · exact hsnap t ht.1 ht.2 C (by simpa [snap', ht] using hC)
    · have : C = ⟨[], []⟩ := by
        have := hC.symm
        simpa [snap', ht] using this
      exact ⟨[], by simp, by rw [this]; rfl⟩
  have hrows : ∀ t C, snap' t = .ok C → SnapRows C.rows := by
    intro t C hC
    obtain ⟨es, h1, h2⟩ := hs' t C hC
    rw [h2]
    exact ⟨snapRows_hasFirst, _, snapRows_contiguous h1⟩
  rw [timeTracking_congr E (snap' := snap') ntimes true (by
    intro t ht
    unfold trackTimes at ht
    simp only [hf, if_false] at ht
    have := mem_irange.1 ht
    simp [snap', this])] at h
  obtain ⟨-, hproc⟩ := C08_partial hf h
  obtain ⟨g, hg⟩ := C03_no_detection_lost_or_invented hnn hrows h
  have htime : ∀ r ∈ s.table.rows, t0 ≤ r.val.1 ∧ r.val.1 < f := by
    intro r hr
    rw [hg.mem_iff, List.mem_flatMap] at hr
    obtain ⟨u, hu, hr⟩ := hr
    unfold tagged at hr
    obtain ⟨q, -, rfl⟩ := List.mem_map.1 hr
    exact (hproc u).1 hu
  rintro t ⟨r0, hr0, rfl⟩ hb
  have ht := htime r0 hr0
  obtain ⟨b, hbm⟩ := List.exists_mem_of_ne_nil _ hb
  obtain ⟨hbm, hbt⟩ := mem_before.1 hbm
  have hb0 := htime b hbm
  generalize r0.val.1 = t at ht hb hbt
  have ht0 : t ≠ 0 := by omega
  have ht1 : t + 1 ≠ 0 := by omega
  obtain ⟨s1, h1, e1⟩ := C02_history_append_only hnn hrows ht0 hf (by omega : t ≤ f) h
  obtain ⟨s2, h2, e2⟩ := C02_history_append_only hnn hrows ht1 hf (by omega : t + 1 ≤ f) h
  have e1' : s1.table.rows = before t s.table.rows := e1
  have hC : ∃ C, snap' t = .ok C := by
    rw [timeTracking_eq_run _ _ _ ht1, irange_append ht.1 (by omega : t ≤ t + 1)] at h2
    have e3 : irange t (t + 1) = [t] := by
      unfold irange; simp [show (t + 1 - t) = 1 by omega]
    rw [e3, run_snoc, ← run_tf E snap' ht0 ht1, ← timeTracking_eq_run _ _ _ ht0, h1] at h2
    cases hC : snap' t with
    | ok C => exact ⟨C, rfl⟩
    | error e =>
      simp only [bind, Except.bind, loopStep, hC] at h2
      cases h2
  obtain ⟨C, hC⟩ := hC
  obtain ⟨es, hes, hCr⟩ := hs' t C hC
  obtain ⟨ends, a, k1, k2, k3, k4⟩ := C04_linking_rule hnn hrows ht0 ht1 ht.1 h1 h2 (by rw [e1']; exact hb) hC hes hCr
  rw [e1'] at k1 k2 k3
  refine ⟨ends, k1, k2, ?_⟩
  intro r hr hr0 hrt
  have hr2 : r ∈ s2.table.rows := by
    rw [e2]
    simp [hr]
    omega
  rw [k3.mem_iff, List.mem_append] at hr2
  rcases hr2 with hr2 | hr2
  · have := (mem_before.1 hr2).2
    omega
  · unfold tagged at hr2
    obtain ⟨q, hq, rfl⟩ := List.mem_map.1 hr2
    have hh := mem_snapRows_first hes hq hr0
    exact ⟨k4.linked q.id q.val hh, k4.fresh q.id q.val hh⟩

/-- **C107** (partial) Under the same condition each eddy of a track other than the earliest ones is within its own radius of an
eddy of the same track, at the latest time before at which the track was seen, and an eddy that begins a track after the first
time with eddies has no end of a known track within its radius. Missing: as in `C107_partial`. -/
theorem C107_partial_steps {E : Env α K Pt} (hnn : IsNN E.dist E.nn) {snap : Int → Except PyErr (Tbl α)} {t0 f : Int}
    (h0 : 0 ≤ t0) (hf : f ≠ 0) {T : Nat} {ntimes : Int}
    (hsnap : ∀ t, t0 ≤ t → t < f → ∀ C, snap t = .ok C → ∃ es : List (Eddy α), (∀ e ∈ es, e ≠ []) ∧ C.rows = snapRows es)
    {s : LoopState α} (h : timeTracking E snap t0 (some f) T ntimes true = .ok s) :
    Spec.Continuous E.dist E.pos E.radius s.table.rows ∧ NewTracksApart E.dist E.pos E.radius s.table.rows :=
  ⟨followsRule_continuous (C107_partial hnn h0 hf hsnap h), followsRule_newTracksApart (C107_partial hnn h0 hf hsnap h)⟩

end

/-- the run `exRun`: an eddy moving to the right, one at rest, one that appears at time 2 -/
example : ∃ s : LoopState (ℤ × ℚ),
    timeTracking exEnv (fun t => .ok (exTbl (if t = 2 then [t, 10, 20] else [t, 10]))) 0 (some 4) 4 5 true = .ok s ∧
    Spec.Continuous exEnv.dist exEnv.pos exEnv.radius s.table.rows ∧ NewTracksApart exEnv.dist exEnv.pos exEnv.radius s.table.rows := by
  obtain ⟨s, hs⟩ := summary_ok exRun
  refine ⟨s, hs, C107_partial_steps exEnv_nn le_rfl (by norm_num) ?_ hs⟩
  intro t _ _ C hC
  injection hC with hC
  subst hC
  exact ⟨_, exEddies_ne _, rfl⟩

instance jumpRowDec : DecidableEq (Row (Int × ℤ × ℚ × ℚ × ℚ)) := inferInstance

/-- eddies of two levels at two times: at time 1 the eddy at 0 of the first level is replaced by two eddies of the second -/
def jumpDetect (t : Int) (l : ℚ) : Except PyErr (Tbl (ℤ × ℚ × ℚ × ℚ)) :=
  if t = 0 then (if l = 1 then .ok (exLTbl [(-2, 1)]) else .ok (exLTbl []))
  else if l = 1 then .ok (exLTbl [(0, 1)]) else .ok (exLTbl [(-1, 1/2), (1, 1/3)])

/-- **C107** is false: an eddy may be put into a track whose last known maximum is farther away than its radius. The snapshot of
time 1 has two eddies with the same identifier (see C15), of which only one is near the track. -/
theorem C107_refuted : (∀ t l C, jumpDetect t l = .ok C → LevelTable C) ∧
    ∃ s, timeTracking exEnvM (fun t => detectSnapshot exEnvM (jumpDetect t) [1, 2]) 0 (some 2) 2 5 true = .ok s ∧
      ¬ Spec.Continuous exEnvM.dist exEnvM.pos exEnvM.radius s.table.rows := by
  refine ⟨?_, ?_⟩
  · intro t l C h
    unfold jumpDetect at h
    split at h
    · split at h <;> (injection h with h; subst h; exact exLTbl_level _)
    · split at h <;> (injection h with h; subst h; exact exLTbl_level _)
  · have hrun : (timeTracking exEnvM (fun t => detectSnapshot exEnvM (jumpDetect t) [1, 2]) 0 (some 2) 2 5 true).toOption.map
        (fun s => s.table.rows) = some [⟨0, 0, 0, -2, 6371 * 2, 1, 1⟩, ⟨0, 1, 0, -2, 6371 * 2, 1, 1⟩,
          ⟨0, 0, 1, -1, 6371 * 2, 1/2, 1/2⟩, ⟨0, 0, 1, 1, 6371 * 2, 1/3, 1/3⟩, ⟨0, 1, 1, -1, 6371 * 2, 1/2, 1/2⟩,
          ⟨0, 1, 1, 1, 6371 * 2, 1/3, 1/3⟩] := by decide +kernel
    cases hs : timeTracking exEnvM (fun t => detectSnapshot exEnvM (jumpDetect t) [1, 2]) 0 (some 2) 2 5 true with
    | error e => rw [hs] at hrun; cases hrun
    | ok s =>
      rw [hs] at hrun
      injection hrun with hrun
      refine ⟨s, rfl, ?_⟩
      have hrun : s.table.rows = _ := hrun
      rw [hrun]
      intro hc
      rcases hc ⟨0, 0, 1, 1, 6371 * 2, 1/3, 1/3⟩ (by simp) rfl with hx | ⟨s', hs', h1, h2, h3, -, h5⟩
      · have := hx ⟨0, 0, 0, -2, 6371 * 2, 1, 1⟩ (by simp) rfl
        norm_num at this
      · simp only [List.mem_cons, List.not_mem_nil, or_false] at hs'
        rcases hs' with rfl | rfl | rfl | rfl | rfl | rfl <;> simp [exEnvM] at h2 h3 h5 <;> norm_num at h5

section
variable {c : Criteria ℝ} {L : Libs} {field : Int → Fields} {levels : List ℝ} {t0 : Int} {T : Nat} {ntimes : Int} {regs : Regs Cols}

/-- C107 from the data, given that in each snapshot an identifier names one eddy -/
theorem continuity_columns {prunes : Bool} {nn : List (ℝ × ℝ) → ℝ × ℝ → Nat} (hnn : IsNN haversine nn) 
    {f : Int} (h0 : 0 ≤ t0) (hf : f ≠ 0) (h : ∀ t, t0 ≤ t → t < f → (field t).Ok)
    (hr : StoreEmpty regs)
    (hsnap : ∀ t, t0 ≤ t → t < f → ∀ C, pureSnapshot (colsEnv prunes nn) c L (field t) levels = .ok C →
      ∃ es : List (Eddy Cols), (∀ e ∈ es, e ≠ []) ∧ C.rows = snapRows es) {s : LoopState Cols}
    (hs : (trackFields (colsEnv prunes nn) c L field levels t0 (some f) T ntimes true regs).2 = .ok s) :
    (∀ r ∈ s.table.rows, r.idx = 0 → (∀ q ∈ s.table.rows, q.id = r.id → r.val.1 ≤ q.val.1) ∨
      ∃ q ∈ s.table.rows, q.id = r.id ∧ q.idx = 0 ∧ q.val.1 < r.val.1 ∧
        (∀ q' ∈ s.table.rows, q'.id = r.id → q'.val.1 < r.val.1 → q'.val.1 ≤ q.val.1) ∧
        ∃ y x y' x' R : ℝ, ("maxima_y", some y) ∈ r.val.2 ∧ ("maxima_x", some x) ∈ r.val.2 ∧ ("radius_eddy", some R) ∈ r.val.2 ∧
          ("maxima_y", some y') ∈ q.val.2 ∧ ("maxima_x", some x') ∈ q.val.2 ∧ centralAngle y x y' x' * 6371 < R) ∧
    ∀ r ∈ s.table.rows, r.idx = 0 → (∀ q ∈ s.table.rows, q.id = r.id → r.val.1 ≤ q.val.1) →
      ∀ p ∈ s.table.rows, p.val.1 < r.val.1 → ∃ q ∈ s.table.rows, q.id = p.id ∧ q.idx = 0 ∧ q.val.1 < r.val.1 ∧
        (∀ q' ∈ s.table.rows, q'.id = p.id → q'.val.1 < r.val.1 → q'.val.1 ≤ q.val.1) ∧
        ∃ y x y' x' R : ℝ, ("maxima_y", some y) ∈ r.val.2 ∧ ("maxima_x", some x) ∈ r.val.2 ∧ ("radius_eddy", some R) ∈ r.val.2 ∧
          ("maxima_y", some y') ∈ q.val.2 ∧ ("maxima_x", some x') ∈ q.val.2 ∧ R ≤ centralAngle y x y' x' * 6371 := by
  have hok : ∀ t ∈ trackTimes t0 (some f) T, (field t).Ok :=
    fun t ht => h t ((mem_trackTimes_some hf).1 ht).1 ((mem_trackTimes_some hf).1 ht).2
  have hcol : ∀ r ∈ s.table.rows, ∃ y x R : ℝ, column "maxima_y" r.val.2 = y ∧ column "maxima_x" r.val.2 = x ∧
      column "radius_eddy" r.val.2 = R ∧ ("maxima_y", some y) ∈ r.val.2 ∧ ("maxima_x", some x) ∈ r.val.2 ∧
      ("radius_eddy", some R) ∈ r.val.2 := by
    intro r hrow
    obtain ⟨e, he⟩ := row_of_table (E := colsEnv prunes nn) hnn hok hr hs hrow
    obtain ⟨c1, c2, c3, c4, c5⟩ := columns_read he
    refine ⟨_, _, _, c1, c2, c3, c4, c5, ?_⟩
    obtain ⟨p, -, hp⟩ := List.mem_map.1 he
    rw [← hp]
    simp [columns, EddyObj.data]
  have hdist : ∀ r q : Row (Int × Cols), (colsEnv prunes nn).dist ((colsEnv prunes nn).pos r.val.2) ((colsEnv prunes nn).pos q.val.2) =
      centralAngle (column "maxima_y" r.val.2) (column "maxima_x" r.val.2) (column "maxima_y" q.val.2) (column "maxima_x" q.val.2) := by
    intro r q
    rw [← C83_great_circle]
    rfl
  rw [(trackFields_pure _ c L hok hr).1] at hs
  obtain ⟨k1, k2⟩ := C107_partial_steps (E := colsEnv prunes nn) hnn h0 hf hsnap hs
  refine ⟨?_, ?_⟩
  · intro r hrow hi
    rcases k1 r hrow hi with hx | ⟨q, hq, q1, q2, q3, q4, q5⟩
    · exact .inl hx
    · obtain ⟨y, x, R, a1, a2, a3, a4, a5, a6⟩ := hcol r hrow
      obtain ⟨y', x', R', b1, b2, b3, b4, b5, b6⟩ := hcol q hq
      refine .inr ⟨q, hq, q1, q2, q3, q4, y, x, y', x', R, a4, a5, a6, b4, b5, ?_⟩
      rw [hdist, a1, a2, b1, b2] at q5
      rw [← a3]
      exact q5
  · intro r hrow hi hfirst p hp hlt
    obtain ⟨q, hq, q1, q2, q3, q4, q5⟩ := k2 r hrow hi hfirst p hp hlt
    obtain ⟨y, x, R, a1, a2, a3, a4, a5, a6⟩ := hcol r hrow
    obtain ⟨y', x', R', b1, b2, b3, b4, b5, b6⟩ := hcol q hq
    refine ⟨q, hq, q1, q2, q3, q4, y, x, y', x', R, a4, a5, a6, b4, b5, ?_⟩
    rw [hdist, a1, a2, b1, b2] at q5
    rw [← a3]
    exact q5

/-- **C107** from the data (partial), for one level other than zero. Each eddy of a track other than the earliest ones lies
within its radius (column `radius_eddy`, km on a sphere of radius 6371 km) of an eddy of the same track, between the extrema
(columns `maxima_y`, `maxima_x`), at the latest time before at which the track was seen. An eddy that begins a track later than the
first has no end of a known track within its radius. Missing: several levels, see `C107_refuted`. -/
theorem C107_partial_from_data {prunes : Bool} {nn : List (ℝ × ℝ) → ℝ × ℝ → Nat} (hnn : IsNN haversine nn) {l : ℝ}
    (hl : levels.filter (· ≠ 0) = [l]) {f : Int} (h0 : 0 ≤ t0) (hf : f ≠ 0) (h : ∀ t, t0 ≤ t → t < f → (field t).Ok)
    (hr : StoreEmpty regs) {s : LoopState Cols}
    (hs : (trackFields (colsEnv prunes nn) c L field levels t0 (some f) T ntimes true regs).2 = .ok s) :
    (∀ r ∈ s.table.rows, r.idx = 0 → (∀ q ∈ s.table.rows, q.id = r.id → r.val.1 ≤ q.val.1) ∨
      ∃ q ∈ s.table.rows, q.id = r.id ∧ q.idx = 0 ∧ q.val.1 < r.val.1 ∧
        (∀ q' ∈ s.table.rows, q'.id = r.id → q'.val.1 < r.val.1 → q'.val.1 ≤ q.val.1) ∧
        ∃ y x y' x' R : ℝ, ("maxima_y", some y) ∈ r.val.2 ∧ ("maxima_x", some x) ∈ r.val.2 ∧ ("radius_eddy", some R) ∈ r.val.2 ∧
          ("maxima_y", some y') ∈ q.val.2 ∧ ("maxima_x", some x') ∈ q.val.2 ∧ centralAngle y x y' x' * 6371 < R) ∧
    ∀ r ∈ s.table.rows, r.idx = 0 → (∀ q ∈ s.table.rows, q.id = r.id → r.val.1 ≤ q.val.1) →
      ∀ p ∈ s.table.rows, p.val.1 < r.val.1 → ∃ q ∈ s.table.rows, q.id = p.id ∧ q.idx = 0 ∧ q.val.1 < r.val.1 ∧
        (∀ q' ∈ s.table.rows, q'.id = p.id → q'.val.1 < r.val.1 → q'.val.1 ≤ q.val.1) ∧
        ∃ y x y' x' R : ℝ, ("maxima_y", some y) ∈ r.val.2 ∧ ("maxima_x", some x) ∈ r.val.2 ∧ ("radius_eddy", some R) ∈ r.val.2 ∧
          ("maxima_y", some y') ∈ q.val.2 ∧ ("maxima_x", some x') ∈ q.val.2 ∧ R ≤ centralAngle y x y' x' * 6371 := by
  refine continuity_columns hnn h0 hf h hr (fun t ht1 ht2 C hC => ?_) hs
  have hne := foundIn_ne (c := c) (L := L) (h t ht1 ht2) l
  refine ⟨_, ?_, snapshot_found (h t ht1 ht2) hl hC⟩
  intro e he
  obtain ⟨o, ho, rfl⟩ := List.mem_map.1 he
  exact hne o ho

end

/-- the hypotheses are met by a run over seven times in which an eddy is found at each -/
example {nn : List (ℝ × ℝ) → ℝ × ℝ → Nat} (hnn : IsNN haversine nn) : exField.Ok ∧ ∃ s : LoopState Cols,
    (trackFields (colsEnv true nn) exCriteria exLibs (fun _ => exField) [1 / 2] 0 (some 7) 7 5 true Regs.empty).2 = .ok s ∧
    s.table.rows ≠ [] := by
  obtain ⟨s, hs⟩ := exLongRun hnn (f := 7) (by norm_num) 7 5
  exact ⟨exField_ok, s, hs, exLongRun_ne hnn (by norm_num) hs⟩

end Trackeddy
