import Verif.Proofs.Step
import Verif.Model.Files
import Mathlib.Algebra.Order.Field.Rat
import Mathlib.Algebra.Order.Ring.Rat
import Mathlib.Tactic.Linarith
import Mathlib.Tactic.NormNum

/-!
C01-C11: `TrackEddy.time_tracking` (trackeddy/trackeddy.py:181-224) and `track_online`
(trackeddy/utils.py:228-256).

`snap t` is the result of `_detect_snapshot` for time `t`; the conditions on it are those proved of
`_detect_snapshot` in C12 (`SnapRows`) or, where identifiers of a snapshot have to name one eddy each,
that the rows are those of a list of eddies (`snapRows`, see C15 for when this holds).
`T` is the number of snapshots of the dataset.
-/
namespace Trackeddy
open Spec Tbl

variable {α K Pt : Type} [Field K] [LinearOrder K] [IsStrictOrderedRing K]

/-! ### a concrete setting for the examples

Positions are integers on a line (distance `|a - b|` radians), a payload is (position, radius). -/

/-- position of the first minimum -/
def argminFrom (q : ℤ) : List ℤ → Nat
  | [] => 0
  | [_] => 0
  | a :: b :: l =>
    let j := argminFrom q (b :: l)
    match (b :: l)[j]? with
    | some c => if |q - a| ≤ |q - c| then 0 else j + 1
    | none => 0

theorem argminFrom_spec (q : ℤ) (l : List ℤ) (h : l ≠ []) :
    ∃ a, l[argminFrom q l]? = some a ∧ ∀ p ∈ l, |q - a| ≤ |q - p| := by
  induction l with
  | nil => exact absurd rfl h
  | cons a l ih =>
    cases l with
    | nil => exact ⟨a, rfl, by simp⟩
    | cons b l =>
      obtain ⟨c, hc, hmin⟩ := ih (by simp)
      unfold argminFrom
      simp only [hc]
      split
      · rename_i hle
        refine ⟨a, rfl, ?_⟩
        intro p hp
        rcases List.mem_cons.1 hp with rfl | hp
        · exact le_refl _
        · exact hle.trans (hmin p hp)
      · rename_i hle
        refine ⟨c, by simpa using hc, ?_⟩
        intro p hp
        rcases List.mem_cons.1 hp with rfl | hp
        · exact (not_le.1 hle).le
        · exact hmin p hp

/-- accessors of the examples -/
def exEnv : Env (ℤ × ℚ) ℚ ℤ where
  prunes := false
  pos := Prod.fst
  radius := Prod.snd
  ellErr := fun _ => some 0
  gauErr := fun _ => some 0
  dist a b := (|a - b| : ℤ)
  nn P q := argminFrom q P

theorem exEnv_nn : IsNN exEnv.dist exEnv.nn := by
  intro P q hP
  obtain ⟨a, h1, h2⟩ := argminFrom_spec q P hP
  exact ⟨a, h1, fun p hp => by simpa [exEnv] using (Int.cast_le (R := ℚ)).2 (h2 p hp)⟩

/-- a snapshot with eddies of radius 2·6371 km and two contour points each -/
def exEddies (l : List ℤ) : List (Eddy (ℤ × ℚ)) := l.map fun p => [(p, 6371 * 2), (p, 6371 * 2)]

/-- the table of these eddies -/
def exTbl (l : List ℤ) : Tbl (ℤ × ℚ) := ⟨List.range l.length, snapRows (exEddies l)⟩

theorem exEddies_ne (l : List ℤ) : ∀ e ∈ exEddies l, e ≠ [] := by
  intro e he; obtain ⟨p, _, rfl⟩ := List.mem_map.1 he; simp

theorem exTbl_rows (l : List ℤ) : SnapRows (exTbl l).rows :=
  ⟨snapRows_hasFirst, _, snapRows_contiguous (exEddies_ne l)⟩

/-- identifier, time and position of the first contour points of the returned table -/
def summary (r : Except PyErr (LoopState (ℤ × ℚ))) : Except PyErr (List (Nat × ℤ × ℤ)) :=
  r.map fun s => (s.table.rows.filter fun r => r.idx = 0).map fun r => (r.id, r.val.1, r.val.2.1)

/-- an eddy moving to the right, a second one resting at 10 -/
def exSnap : Int → Except PyErr (Tbl (ℤ × ℚ)) := fun t => .ok (exTbl [t, 10])

theorem exSnap_ok (l : Int → List ℤ) : ∀ t C, (Except.ok (exTbl (l t)) : Except PyErr _) = .ok C → SnapRows C.rows := by
  intro t C h; injection h with h; subst h; exact exTbl_rows _

/-! ### C01 -/

theorem rowsAt_snapRows {snap : Int → Except PyErr (Tbl α)}
    (hsnap : ∀ t C, snap t = .ok C → SnapRows C.rows) (t : Int) : SnapRows (rowsAt snap t) := by
  unfold rowsAt
  cases h : snap t with
  | ok C => exact hsnap t C h
  | error e => exact ⟨by intro r hr; simp at hr, 0, by intro i; simp⟩

theorem pairwise_trackTimes (t0 : Int) (tf : Option Int) (T : Nat) :
    (trackTimes t0 tf T).Pairwise (· < ·) := by
  unfold trackTimes
  split
  · exact pairwise_irange _ _
  · split <;> exact pairwise_irange _ _

/-- **C01** the identifiers of the returned table are exactly `0..k-1`. -/
theorem C01_identifiers_contiguous {E : Env α K Pt} (hnn : IsNN E.dist E.nn)
    {snap : Int → Except PyErr (Tbl α)} (hsnap : ∀ t C, snap t = .ok C → SnapRows C.rows)
    {t0 : Int} {tf : Option Int} {T : Nat} {ntimes : Int} {s : LoopState α}
    (h : timeTracking E snap t0 tf T ntimes true = .ok s) : ∃ k, Contiguous s.table.rows k := by
  have hinv := run_inv hnn _ (pairwise_trackTimes t0 tf T) (fun t _ => rowsAt_snapRows hsnap t) h
  by_cases he : s.table.rows = []
  · exact ⟨0, by intro i; simp [he]⟩
  · obtain ⟨k, hk⟩ := hinv.good he
    exact ⟨k, hk.ids⟩

/-- **C01** the returned table is also sorted by identifier, time and contour point, and every
identifier has its first contour point at each of its times. -/
theorem C01_table_sorted {E : Env α K Pt} (hnn : IsNN E.dist E.nn)
    {snap : Int → Except PyErr (Tbl α)} (hsnap : ∀ t C, snap t = .ok C → SnapRows C.rows)
    {t0 : Int} {tf : Option Int} {T : Nat} {ntimes : Int} {s : LoopState α}
    (h : timeTracking E snap t0 tf T ntimes true = .ok s) :
    SortedTrack s.table.rows ∧ HasFirstT s.table.rows := by
  have hinv := run_inv hnn _ (pairwise_trackTimes t0 tf T) (fun t _ => rowsAt_snapRows hsnap t) h
  by_cases he : s.table.rows = []
  · rw [he]; exact ⟨List.Pairwise.nil, by intro r hr; simp at hr⟩
  · obtain ⟨k, hk⟩ := hinv.good he
    exact ⟨hk.sorted, hk.firstT⟩

/-- a run in which tracks are continued and new ones started -/
theorem exRun : summary (timeTracking exEnv (fun t => .ok (exTbl (if t = 2 then [t, 10, 20] else [t, 10])))
    0 (some 4) 4 5 true) =
    .ok [(0, 0, 0), (0, 1, 1), (0, 2, 2), (0, 3, 3), (1, 0, 10), (1, 1, 10), (1, 2, 10), (1, 3, 10),
      (2, 2, 20)] := by
  decide +kernel

theorem summary_ok {r : Except PyErr (LoopState (ℤ × ℚ))} {l} (h : summary r = .ok l) :
    ∃ s, r = .ok s := by
  cases r with
  | ok s => exact ⟨s, rfl⟩
  | error e => cases h

/-- C01 hypotheses are met by the run `exRun`; its table has the three identifiers 0, 1, 2. -/
example : ∃ (snap : Int → Except PyErr (Tbl (ℤ × ℚ))) (s : LoopState (ℤ × ℚ)),
    IsNN exEnv.dist exEnv.nn ∧ (∀ t C, snap t = .ok C → SnapRows C.rows) ∧
    timeTracking exEnv snap 0 (some 4) 4 5 true = .ok s ∧ s.table.rows ≠ [] := by
  obtain ⟨s, hs⟩ := summary_ok exRun
  refine ⟨_, s, exEnv_nn, exSnap_ok _, hs, ?_⟩
  have := exRun
  rw [hs] at this
  intro h
  simp [summary, Except.map, h] at this

/-! ### C02 -/

theorem timeTracking_eq_run (E : Env α K Pt) (snap : Int → Except PyErr (Tbl α)) (t0 : Int)
    {f : Int} (hf : f ≠ 0) (T : Nat) (ntimes : Int) (online : Bool) :
    timeTracking E snap t0 (some f) T ntimes online =
      run E snap (some f) ntimes online (irange t0 f) := by
  unfold timeTracking run trackTimes
  simp only [hf, if_false]

/-- **C02** Extending a run to later times keeps the table built so far: the run up to `f` succeeds
and its table is the part of the later table with times before `f`, row for row. -/
theorem C02_history_append_only {E : Env α K Pt} (hnn : IsNN E.dist E.nn)
    {snap : Int → Except PyErr (Tbl α)} (hsnap : ∀ t C, snap t = .ok C → SnapRows C.rows)
    {t0 f f' : Int} (hf : f ≠ 0) (hf' : f' ≠ 0) (hff : f ≤ f') {T : Nat} {ntimes : Int}
    {s' : LoopState α} (h : timeTracking E snap t0 (some f') T ntimes true = .ok s') :
    ∃ s, timeTracking E snap t0 (some f) T ntimes true = .ok s ∧
      s.table.rows = s'.table.rows.filter (fun r => r.val.1 < f) := by
  rw [timeTracking_eq_run _ _ _ hf'] at h
  rw [timeTracking_eq_run _ _ _ hf, run_tf E snap hf hf']
  by_cases ht : t0 ≤ f
  · rw [irange_append ht hff] at h
    obtain ⟨s, h1, h2⟩ := run_prefix hnn (irange t0 f) (irange f f')
      (by rw [← irange_append ht hff]; exact pairwise_irange _ _)
      (fun t _ => rowsAt_snapRows hsnap t) h (b := f) (fun t ht => (mem_irange.1 ht).1)
      (fun t ht => (mem_irange.1 ht).2)
    exact ⟨s, h1, h2.symm⟩
  · have e : irange t0 f = [] := by
      rw [List.eq_nil_iff_forall_not_mem]; intro x hx; have := mem_irange.1 hx; omega
    rw [e]
    obtain ⟨s, h1, h2⟩ := run_prefix hnn [] (irange t0 f') (by simpa using pairwise_irange _ _)
      (fun t _ => rowsAt_snapRows hsnap t) (by simpa using h) (b := f)
      (fun t ht => by have := mem_irange.1 ht; omega) (by simp)
    exact ⟨s, h1, h2.symm⟩

/-- the shorter run of the history `exRun` -/
example : summary (timeTracking exEnv (fun t => .ok (exTbl (if t = 2 then [t, 10, 20] else [t, 10])))
    0 (some 2) 4 5 true) = .ok [(0, 0, 0), (0, 1, 1), (1, 0, 10), (1, 1, 10)] := by
  decide +kernel

/-! ### C03 -/

/-- **C03** The returned table consists of exactly the rows of the snapshots of the processed times,
each once (as multisets), tagged with its time and with identifiers relabelled per snapshot. -/
theorem C03_no_detection_lost_or_invented {E : Env α K Pt} (hnn : IsNN E.dist E.nn)
    {snap : Int → Except PyErr (Tbl α)} (hsnap : ∀ t C, snap t = .ok C → SnapRows C.rows)
    {t0 : Int} {tf : Option Int} {T : Nat} {ntimes : Int} {s : LoopState α}
    (h : timeTracking E snap t0 tf T ntimes true = .ok s) :
    ∃ g : Int → Nat → Nat,
      s.table.rows.Perm (s.processed.flatMap fun u => tagged (g u) u (rowsAt snap u)) := by
  have hinv := run_inv hnn _ (pairwise_trackTimes t0 tf T) (fun t _ => rowsAt_snapRows hsnap t) h
  obtain ⟨g, hg⟩ := hinv.cons
  exact ⟨g, by rw [hinv.proc]; exact hg⟩

/-! ### C04 -/

/-- **C04** One step of tracking. `s` is the state before time `f`, `s'` the state after it, the
snapshot at `f` consists of the eddies `es`.  The table `s'` is the table `s` together with the rows of
`es`, relabelled by a map that follows `LinkRule` with respect to the last known maxima of the tracks
of `s`. -/
theorem C04_linking_rule {E : Env α K Pt} (hnn : IsNN E.dist E.nn)
    {snap : Int → Except PyErr (Tbl α)} (hsnap : ∀ t C, snap t = .ok C → SnapRows C.rows)
    {t0 f : Int} (hf : f ≠ 0) (hf1 : f + 1 ≠ 0) (ht : t0 ≤ f) {T : Nat} {ntimes : Int}
    {s s' : LoopState α} (h : timeTracking E snap t0 (some f) T ntimes true = .ok s)
    (h' : timeTracking E snap t0 (some (f + 1)) T ntimes true = .ok s')
    (hne : s.table.rows ≠ []) {C : Tbl α} (hC : snap f = .ok C) {es : List (Eddy α)}
    (hes : ∀ e ∈ es, e ≠ []) (hrows : C.rows = snapRows es) :
    ∃ (ends : List Pt) (a : Nat → Nat),
      Contiguous s.table.rows ends.length ∧
      (∀ i p, ends[i]? = some p → IsEnd E.pos s.table.rows i p) ∧
      s'.table.rows.Perm (s.table.rows ++ tagged a f (snapRows es)) ∧
      LinkRule E.dist E.pos E.radius ends (heads es) a := by
  rw [timeTracking_eq_run _ _ _ hf, run_tf E snap hf hf1] at h
  rw [timeTracking_eq_run _ _ _ hf1, irange_append ht (by omega : f ≤ f + 1)] at h'
  have e1 : irange f (f + 1) = [f] := by
    unfold irange; simp [show (f + 1 - f) = 1 by omega]
  rw [e1, run_snoc, h] at h'
  have hinv := run_inv hnn _ (pairwise_irange _ _) (fun t _ => rowsAt_snapRows hsnap t) h
  obtain ⟨C', hC', c⟩ := loopStep_cases hnn hinv (rowsAt_snapRows hsnap f) h'
  rw [hC] at hC'
  injection hC' with hC'
  subst hC'
  have hhead : C.first.map Row.val = heads es := by
    unfold Tbl.first
    rw [hrows, first_snapRows hes]
    apply List.ext_getElem?
    intro i
    simp only [List.getElem?_map, List.getElem?_mapIdx, Option.map_map]
    cases (heads es)[i]? <;> rfl
  rcases c with ⟨a1, a2⟩ | ⟨a1, a2, a3⟩ | ⟨a1, a2, k, a3, a4, a5⟩
  · obtain ⟨k, hk⟩ := hinv.good hne
    have hnil : es = [] := by
      by_contra hcon
      obtain ⟨r, hr, _⟩ := (snapRows_contiguous hes 0).2 (List.length_pos_iff.2 hcon)
      rw [← hrows, a1] at hr; simp at hr
    subst hnil
    refine ⟨endsOf E s.table k, fun i => i, ?_, fun i p => endsOf_isEnd hk, ?_, ?_⟩
    · rw [endsOf_length hk]; exact hk.ids
    · rw [a2]; simp [tagged, snapRows]
    · constructor <;> simp [heads]
  · exact absurd a2 hne
  · refine ⟨endsOf E s.table k, stepAssign E s.table k (heads es), ?_, fun i p => endsOf_isEnd a3, ?_,
      linkRule hnn a3 _⟩
    · rw [endsOf_length a3]; exact a3.ids
    · rw [a5, hhead, hrows]; exact perm_sortBy _

/-- C04 on the run `exRun` at time 2: detections at 2, 10 and 20; tracks end at 1 and 10; the first two
are linked, the third gets the identifier 2. -/
example : summary (timeTracking exEnv (fun t => .ok (exTbl (if t = 2 then [t, 10, 20] else [t, 10])))
    0 (some 3) 4 5 true) =
    .ok [(0, 0, 0), (0, 1, 1), (0, 2, 2), (1, 0, 10), (1, 1, 10), (1, 2, 10), (2, 2, 20)] := by
  decide +kernel

/-! ### C05 -/

/-- **C05** is false: two detections within their radius of the same track get the same identifier at
the same time. -/
theorem C05_refuted : ∃ (snap : Int → Except PyErr (Tbl (ℤ × ℚ))) (s : LoopState (ℤ × ℚ)),
    (∀ t, ∃ es, (∀ e ∈ es, e ≠ []) ∧ ∃ C, snap t = .ok C ∧ C.rows = snapRows es) ∧
    timeTracking exEnv snap 0 (some 2) 2 5 true = .ok s ∧ ¬ KeyUnique s.table.rows := by
  have hrun : summary (timeTracking exEnv (fun t => .ok (exTbl (if t = 0 then [0] else [-1, 1])))
      0 (some 2) 2 5 true) = .ok [(0, 0, 0), (0, 1, -1), (0, 1, 1)] := by decide +kernel
  obtain ⟨s, hs⟩ := summary_ok hrun
  refine ⟨_, s, fun t => ⟨exEddies _, exEddies_ne _, _, rfl, rfl⟩, hs, ?_⟩
  rw [hs] at hrun
  intro hk
  injection hrun with hrun
  have hk' := (hk.filter (fun r => decide (r.idx = 0)))
  have hidx : ∀ r ∈ s.table.rows.filter (fun r => decide (r.idx = 0)), r.idx = 0 := by
    intro r hr; simpa using (List.mem_filter.1 hr).2
  have hrun : (s.table.rows.filter (fun r => decide (r.idx = 0))).map
      (fun r => (r.id, r.val.1, r.val.2.1)) = [(0, 0, 0), (0, 1, -1), (0, 1, 1)] := hrun
  obtain ⟨a, l1, hl, _, h1⟩ := List.map_eq_cons_iff.1 hrun
  obtain ⟨b, l2, rfl, hb, h2⟩ := List.map_eq_cons_iff.1 h1
  obtain ⟨c, l3, rfl, hc, h3⟩ := List.map_eq_cons_iff.1 h2
  rw [hl] at hk' hidx
  simp only [Prod.mk.injEq] at hb hc
  refine (List.pairwise_cons.1 (List.pairwise_cons.1 hk').2).1 c (by simp) ⟨?_, ?_, ?_⟩
  · rw [hb.1, hc.1]
  · rw [hb.2.1, hc.2.1]
  · rw [hidx b (by simp), hidx c (by simp)]

/-- **C05** holds when the eddies of each snapshot are farther apart than the sum of their radii (and
the distance is a metric).  Missing for the full claim: snapshots with overlapping eddies, for which it
is false (`C05_refuted`). -/
theorem C05_partial {E : Env α K Pt} (hnn : IsNN E.dist E.nn) (hsym : ∀ a b, E.dist a b = E.dist b a)
    (htri : ∀ a b c, E.dist a c ≤ E.dist a b + E.dist b c) {snap : Int → Except PyErr (Tbl α)}
    (hsnap : ∀ t C, snap t = .ok C → ∃ es, (∀ e ∈ es, e ≠ []) ∧ C.rows = snapRows es ∧
      DisjointDiscs E.dist E.pos E.radius (heads es))
    {t0 : Int} {tf : Option Int} {T : Nat} {ntimes : Int} {s : LoopState α}
    (h : timeTracking E snap t0 tf T ntimes true = .ok s) : KeyUnique s.table.rows := by
  have hsnap' : ∀ t C, snap t = .ok C → SnapRows C.rows := by
    intro t C hC
    obtain ⟨es, h1, h2, _⟩ := hsnap t C hC
    rw [h2]; exact ⟨snapRows_hasFirst, _, snapRows_contiguous h1⟩
  have hpw := pairwise_trackTimes t0 tf T
  change run E snap tf ntimes true (trackTimes t0 tf T) = .ok s at h
  generalize trackTimes t0 tf T = ts at h hpw
  induction ts using List.reverseRecOn generalizing s with
  | nil => injection h with h; subst h; exact List.Pairwise.nil
  | append_singleton ts t ih =>
    rw [run_snoc] at h
    obtain ⟨h1, h2⟩ := pairwise_snoc hpw
    cases hr : run E snap tf ntimes true ts with
    | error e => rw [hr] at h; cases h
    | ok s0 =>
      rw [hr] at h
      have hinv := run_inv hnn ts h1 (fun t _ => rowsAt_snapRows hsnap' t) hr
      have ih := ih hr h1
      obtain ⟨C, hC, c⟩ := loopStep_cases hnn hinv (rowsAt_snapRows hsnap' t) h
      obtain ⟨es, hes, hrows, hdisj⟩ := hsnap t C hC
      have hhead : C.first.map Row.val = heads es := by
        unfold Tbl.first
        rw [hrows, first_snapRows hes]
        apply List.ext_getElem?
        intro i
        simp only [List.getElem?_map, List.getElem?_mapIdx, Option.map_map]
        cases (heads es)[i]? <;> rfl
      rcases c with ⟨a1, a2⟩ | ⟨a1, a2, a3⟩ | ⟨a1, a2, k, a3, a4, a5⟩
      · rw [a2]; exact ih
      · have e : s.table.rows = sortBy key3 (tagged (fun i => i) t (snapRows es)) := by
          rw [a3, ← hrows, ← relab_stamp, relab_id (by simp)]; rfl
        rw [e, keyUnique_perm (perm_sortBy _)]
        exact keyUnique_tagged hes _ _ (fun c _ c' _ h => h)
      · rw [a5, hhead, hrows, keyUnique_perm (perm_sortBy _)]
        unfold KeyUnique
        rw [List.pairwise_append]
        refine ⟨ih, ?_, ?_⟩
        · apply keyUnique_tagged hes
          intro c hc c' hc' heq
          by_contra hcc
          have hlen := heads_length hes
          obtain ⟨v, hv⟩ : ∃ v, (heads es)[c]? = some v :=
            ⟨_, List.getElem?_eq_getElem (by omega)⟩
          obtain ⟨v', hv'⟩ : ∃ v, (heads es)[c']? = some v :=
            ⟨_, List.getElem?_eq_getElem (by omega)⟩
          have hL := linkRule hnn a3 (heads es)
          have hd := hdisj c c' v v' hv hv' hcc
          by_cases n1 : ∃ p ∈ endsOf E s0.table k, E.dist (E.pos v) p * 6371 < E.radius v <;>
            by_cases n2 : ∃ p ∈ endsOf E s0.table k, E.dist (E.pos v') p * 6371 < E.radius v'
          · obtain ⟨p, hp, _, hp2⟩ := hL.linked c v hv n1
            obtain ⟨p', hp', _, hp2'⟩ := hL.linked c' v' hv' n2
            rw [heq, hp'] at hp
            injection hp with hp
            subst hp
            have := htri (E.pos v) p' (E.pos v')
            rw [hsym p' (E.pos v')] at this
            have : E.dist (E.pos v) (E.pos v') * 6371 ≤
                (E.dist (E.pos v) p' + E.dist (E.pos v') p') * 6371 :=
              mul_le_mul_of_nonneg_right this (by norm_num)
            rw [add_mul] at this
            linarith
          · obtain ⟨p, hp, _, _⟩ := hL.linked c v hv n1
            have h3 := hL.fresh c' v' hv' n2
            have := (List.getElem?_eq_some_iff.1 hp).1
            omega
          · obtain ⟨p, hp, _, _⟩ := hL.linked c' v' hv' n2
            have h3 := hL.fresh c v hv n1
            have := (List.getElem?_eq_some_iff.1 hp).1
            omega
          · have h3 := hL.fresh c v hv n1
            have h4 := hL.fresh c' v' hv' n2
            rcases Nat.lt_or_gt_of_ne hcc with hlt | hgt
            · have := hL.order c c' v v' hv hv' hlt h3 h4; omega
            · have := hL.order c' c v' v hv' hv hgt h4 h3; omega
        · intro r hr q hq hcon
          have h3 := (hinv.hasTime r.val.1).1 ⟨r, hr, rfl⟩
          have h4 := h2 _ h3.1
          obtain ⟨q0, _, rfl⟩ := List.mem_map.1 hq
          simp at hcon
          omega

theorem exDisjoint : DisjointDiscs exEnv.dist exEnv.pos exEnv.radius (heads (exEddies [3, 10])) := by
  intro c c' v v' hv hv' hne
  have hl : heads (exEddies [3, 10]) = [(3, 6371 * 2), (10, 6371 * 2)] := rfl
  rw [hl] at hv hv'
  match c, c', hv, hv' with
  | 0, 0, _, _ => exact absurd rfl hne
  | 1, 1, _, _ => exact absurd rfl hne
  | 0, 1, hv, hv' => simp at hv hv'; subst hv; subst hv'; simp [exEnv]; norm_num
  | 1, 0, hv, hv' => simp at hv hv'; subst hv; subst hv'; simp [exEnv]; norm_num

/-- C05: the hypotheses are met by two resting eddies at 3 and 10. -/
example : ∃ (snap : Int → Except PyErr (Tbl (ℤ × ℚ))) (s : LoopState (ℤ × ℚ)),
    (∀ a b, exEnv.dist a b = exEnv.dist b a) ∧
    (∀ a b c, exEnv.dist a c ≤ exEnv.dist a b + exEnv.dist b c) ∧
    (∀ t C, snap t = .ok C → ∃ es, (∀ e ∈ es, e ≠ []) ∧ C.rows = snapRows es ∧
      DisjointDiscs exEnv.dist exEnv.pos exEnv.radius (heads es)) ∧
    timeTracking exEnv snap 0 (some 3) 3 5 true = .ok s := by
  have hrun : summary (timeTracking exEnv (fun _ => .ok (exTbl [3, 10])) 0 (some 3) 3 5 true) =
      .ok [(0, 0, 3), (0, 1, 3), (0, 2, 3), (1, 0, 10), (1, 1, 10), (1, 2, 10)] := by decide +kernel
  obtain ⟨s, hs⟩ := summary_ok hrun
  refine ⟨_, s, ?_, ?_, ?_, hs⟩
  · intro a b; simp only [exEnv]; rw [abs_sub_comm]
  · intro a b c; simp only [exEnv]; exact_mod_cast abs_sub_le a b c
  · intro t C h; injection h with h; subst h; exact ⟨_, exEddies_ne _, rfl, exDisjoint⟩

/-! ### C06 -/

/-- **C06** is false: a single snapshot without eddies aborts the run. -/
theorem C06_refuted : ∃ snap : Int → Except PyErr (Tbl (ℤ × ℚ)),
    (∀ t, ∃ C, snap t = .ok C) ∧ timeTracking exEnv snap 0 (some 3) 3 5 true = .error .keyError := by
  refine ⟨fun t => .ok (exTbl (if t = 1 then [] else [0])), fun t => ⟨_, rfl⟩, ?_⟩
  have hrun : summary (timeTracking exEnv (fun t => .ok (exTbl (if t = 1 then [] else [0])))
      0 (some 3) 3 5 true) = .error .keyError := by decide +kernel
  generalize timeTracking exEnv _ _ _ _ _ _ = r at hrun
  cases r with
  | ok s => cases hrun
  | error e => simpa [summary, Except.map] using hrun

/-- **C06** (partial) Exactly when an online run with `tf` given succeeds: whenever eddies are found at
`t` and at some earlier time, there must be eddies at `t-1` and at each of the `ntimes` times before
`t-1` (cut off at time 0).  Otherwise the run raises `KeyError`.  Missing for the full claim: it is
false for all other patterns. -/
theorem C06_partial {E : Env α K Pt} (hnn : IsNN E.dist E.nn)
    {snap : Int → Except PyErr (Tbl α)} (hok : ∀ t, ∃ C, snap t = .ok C)
    (hsnap : ∀ t C, snap t = .ok C → SnapRows C.rows) {t0 f : Int} (ht : 0 ≤ t0) (hf : f ≠ 0) (T : Nat)
    (ntimes : Int) :
    ((∃ s, timeTracking E snap t0 (some f) T ntimes true = .ok s) ↔
      ∀ t, t0 ≤ t → t < f → rowsAt snap t ≠ [] → (∃ u, t0 ≤ u ∧ u < t ∧ rowsAt snap u ≠ []) →
        ∀ w, (w = t - 1 ∨ t - 1 - min ntimes (t - 1) ≤ w ∧ w < t - 1) → t0 ≤ w ∧ rowsAt snap w ≠ []) ∧
    ((¬ ∃ s, timeTracking E snap t0 (some f) T ntimes true = .ok s) →
      timeTracking E snap t0 (some f) T ntimes true = .error .keyError) := by
  rw [timeTracking_eq_run _ _ _ hf]
  have hp : ∀ t ∈ irange t0 f, progress (some f) t = .ok () := by
    intro t ht'
    have := mem_irange.1 ht'
    unfold progress
    simp only [hf, if_false]
    rw [if_neg (by omega)]
  constructor
  · rw [run_ok_iff hnn _ (pairwise_irange _ _) (fun t _ => hok t) (fun t _ => rowsAt_snapRows hsnap t)]
    have hwin : ∀ t w : Int, w ∈ window (t - 1) ntimes ↔
        (w = t - 1 ∨ t - 1 - min ntimes (t - 1) ≤ w ∧ w < t - 1) := by
      intro t w
      unfold window
      rw [List.mem_cons, mem_irange]
      have : (if t - 1 < ntimes then t - 1 else ntimes) = min ntimes (t - 1) := by
        split <;> omega
      rw [this]
    constructor
    · intro h t h1 h2 h3 ⟨u, h4, h5, h6⟩ w hw
      have := (h t (mem_irange.2 ⟨h1, h2⟩) h3 ⟨u, mem_irange.2 ⟨h4, by omega⟩, h5, h6⟩).1 w
        ((hwin t w).2 hw)
      exact ⟨(mem_irange.1 this.1.1).1, this.2⟩
    · intro h t h1 h3 ⟨u, h4, h5, h6⟩
      have h1' := mem_irange.1 h1
      refine ⟨?_, hp t h1⟩
      intro w hw
      have hw' := (hwin t w).1 hw
      have := h t h1'.1 h1'.2 h3 ⟨u, (mem_irange.1 h4).1, h5, h6⟩ w hw'
      exact ⟨⟨mem_irange.2 ⟨this.1, by omega⟩, by omega⟩, this.2⟩
  · intro hno
    cases hr : run E snap (some f) ntimes true (irange t0 f) with
    | ok s => exact absurd ⟨s, hr⟩ hno
    | error e =>
      rcases run_err hnn _ (pairwise_irange _ _) (fun t _ => hok t) (fun t _ => rowsAt_snapRows hsnap t) hr
        with rfl | ⟨t, ht', h⟩
      · rfl
      · rw [hp t ht'] at h; cases h

/-- **C06** positive part: if every snapshot from time 0 on has eddies, the run succeeds for any
`ntimes`. -/
theorem C06_gap_free_runs_succeed {E : Env α K Pt} (hnn : IsNN E.dist E.nn)
    {snap : Int → Except PyErr (Tbl α)} (hok : ∀ t, ∃ C, snap t = .ok C ∧ C.rows ≠ [])
    (hsnap : ∀ t C, snap t = .ok C → SnapRows C.rows) {f : Int} (hf : f ≠ 0) (T : Nat)
    (ntimes : Int) : ∃ s, timeTracking E snap 0 (some f) T ntimes true = .ok s := by
  refine ((C06_partial hnn (fun t => ?_) hsnap le_rfl hf T ntimes).1).2 ?_
  · obtain ⟨C, hC, _⟩ := hok t; exact ⟨C, hC⟩
  · intro t h1 h2 h3 ⟨u, h4, h5, h6⟩ w hw
    constructor
    · omega
    · obtain ⟨C, hC, hne⟩ := hok w
      simpa [rowsAt, hC] using hne

/-- **C06** negative part: a run starting at `t0 > 0` with `ntimes ≥ 1` (the default is 5) fails as soon
as two of its snapshots have eddies. -/
theorem C06_late_start_fails {E : Env α K Pt} (hnn : IsNN E.dist E.nn)
    {snap : Int → Except PyErr (Tbl α)} (hok : ∀ t, ∃ C, snap t = .ok C)
    (hsnap : ∀ t C, snap t = .ok C → SnapRows C.rows) {t0 f : Int} (ht : 0 < t0) (T : Nat)
    {ntimes : Int} (hn : 1 ≤ ntimes) {u t : Int} (hu : t0 ≤ u) (hut : u < t) (htf : t < f)
    (h1 : rowsAt snap u ≠ []) (h2 : rowsAt snap t ≠ []) :
    timeTracking E snap t0 (some f) T ntimes true = .error .keyError := by
  have hch := C06_partial hnn hok hsnap (by omega : 0 ≤ t0) (show f ≠ 0 by omega) T ntimes
  apply hch.2
  rw [hch.1]
  intro h
  -- going down from `t` every time has eddies, until `t0 - 1` is required
  have key : ∀ n : Nat, ∀ t : Int, t0 < t → t < f → rowsAt snap t ≠ [] →
      (∃ u, t0 ≤ u ∧ u < t ∧ rowsAt snap u ≠ []) → (t - t0).toNat = n → False := by
    intro n
    induction n using Nat.strong_induction_on with
    | _ n ih =>
      intro t h3 h4 h5 h6 h7
      have hw1 := h t (by omega) h4 h5 h6 (t - 1) (Or.inl rfl)
      have hw2 := h t (by omega) h4 h5 h6 (t - 2) (Or.inr ⟨by omega, by omega⟩)
      exact ih (t - 1 - t0).toNat (by omega) (t - 1) (by omega) (by omega) hw1.2
        ⟨t - 2, hw2.1, by omega, hw2.2⟩ rfl
  exact key _ t (by omega) htf h2 ⟨u, hu, hut, h1⟩ rfl

/-- C06: hypotheses of the negative part are met by two snapshots with one eddy each. -/
example : timeTracking exEnv (fun _ => .ok (exTbl [0])) 1 (some 3) 3 5 true = .error .keyError :=
  C06_late_start_fails exEnv_nn (fun t => ⟨_, rfl⟩) (exSnap_ok fun _ => [0]) (by omega) 3 (by omega)
    (u := 1) (t := 2) (by omega) (by omega) (by omega) (by decide +kernel) (by decide +kernel)

/-! ### C07 -/

/-- **C07** is false in general: `ntimes` never influences the returned table.  Two runs that differ in
`ntimes` only and both succeed return the same table. -/
theorem C07_ntimes_has_no_effect {E : Env α K Pt} (hnn : IsNN E.dist E.nn)
    {snap : Int → Except PyErr (Tbl α)} (hsnap : ∀ t C, snap t = .ok C → SnapRows C.rows)
    {t0 : Int} {tf : Option Int} {T : Nat} {n n' : Int} {s s' : LoopState α}
    (h : timeTracking E snap t0 tf T n true = .ok s)
    (h' : timeTracking E snap t0 tf T n' true = .ok s') : s.table = s'.table :=
  run_ntimes hnn _ (pairwise_trackTimes t0 tf T) (fun t _ => rowsAt_snapRows hsnap t) h h'

/-- **C07** witness: with `ntimes = 1` the eddy at position 10, seen only at time 0, is re-linked at
time 8. -/
theorem C07_refuted : summary (timeTracking exEnv
    (fun t => .ok (exTbl (if t = 0 then [0, 10] else if t = 8 then [8, 11] else [t]))) 0 (some 9) 9 1 true) =
    .ok [(0, 0, 0), (0, 1, 1), (0, 2, 2), (0, 3, 3), (0, 4, 4), (0, 5, 5), (0, 6, 6), (0, 7, 7),
      (0, 8, 8), (1, 0, 10), (1, 8, 11)] := by
  decide +kernel

/-! ### C08 -/

/-- **C08** with `tf` given (and not 0) a successful run processes exactly the times `t0..tf-1`, in
increasing order. -/
theorem C08_partial {E : Env α K Pt} {snap : Int → Except PyErr (Tbl α)} {t0 f : Int} (hf : f ≠ 0)
    {T : Nat} {ntimes : Int} {online : Bool} {s : LoopState α}
    (h : timeTracking E snap t0 (some f) T ntimes online = .ok s) :
    s.processed.Pairwise (· < ·) ∧ ∀ t, t ∈ s.processed ↔ t0 ≤ t ∧ t < f := by
  have hp := processed_eq (trackTimes t0 (some f) T) h
  unfold trackTimes at hp
  simp only [hf, if_false] at hp
  rw [hp]
  exact ⟨pairwise_irange _ _, fun t => mem_irange⟩

/-- **C08** with `tf` omitted (or 0) a successful run processes the times `0..T-1`, whatever `t0` is. -/
theorem C08_refuted {E : Env α K Pt} {snap : Int → Except PyErr (Tbl α)} {t0 : Int}
    {tf : Option Int} (htf : tf = none ∨ tf = some 0) {T : Nat} {ntimes : Int} {online : Bool}
    {s : LoopState α} (h : timeTracking E snap t0 tf T ntimes online = .ok s) :
    s.processed.Pairwise (· < ·) ∧ ∀ t, t ∈ s.processed ↔ 0 ≤ t ∧ t < T := by
  have hp := processed_eq (trackTimes t0 tf T) h
  have : trackTimes t0 tf T = irange 0 T := by
    rcases htf with rfl | rfl <;> simp [trackTimes]
  rw [this] at hp
  rw [hp]
  exact ⟨pairwise_irange _ _, fun t => mem_irange⟩

/-- C08: a run with `t0 = 5` and `tf` omitted that processes time 0. -/
example : (timeTracking exEnv (fun _ => .ok (exTbl [])) 5 none 7 5 true).map LoopState.processed =
    .ok [0, 1, 2, 3, 4, 5, 6] := by
  decide +kernel

/-! ### C09 -/

/-- **C09** is false: with `tf` omitted a run succeeds only if at most one snapshot has eddies (online
and offline alike). -/
theorem C09_refuted {E : Env α K Pt} (hnn : IsNN E.dist E.nn)
    {snap : Int → Except PyErr (Tbl α)} (hok : ∀ t, ∃ C, snap t = .ok C)
    (hsnap : ∀ t C, snap t = .ok C → SnapRows C.rows) (t0 : Int) (T : Nat) (ntimes : Int)
    (online : Bool) :
    (∃ s, timeTracking E snap t0 none T ntimes online = .ok s) ↔
      ∀ u t : Int, 0 ≤ u → u < t → t < T → rowsAt snap u ≠ [] → rowsAt snap t = [] := by
  change (∃ s, run E snap none ntimes online (irange 0 T) = .ok s) ↔ _
  cases online with
  | true =>
    rw [run_ok_iff hnn _ (pairwise_irange _ _) (fun t _ => hok t) (fun t _ => rowsAt_snapRows hsnap t)]
    constructor
    · intro h u t h1 h2 h3 h4
      by_contra h5
      have := (h t (mem_irange.2 ⟨by omega, h3⟩) h5 ⟨u, mem_irange.2 ⟨h1, by omega⟩, h2, h4⟩).2
      simp [progress] at this
    · intro h t h1 h2 ⟨u, h3, h4, h5⟩
      exact absurd (h u t (mem_irange.1 h3).1 h4 (mem_irange.1 h1).2 h5) h2
  | false =>
    rw [off_ok_iff _ (pairwise_irange _ _) (fun t _ => hok t)]
    constructor
    · intro h u t h1 h2 h3 h4
      by_contra h5
      have := h t (mem_irange.2 ⟨by omega, h3⟩) h5 ⟨u, mem_irange.2 ⟨h1, by omega⟩, h2, h4⟩
      simp [progress] at this
    · intro h t h1 h2 ⟨u, h3, h4, h5⟩
      exact absurd (h u t (mem_irange.1 h3).1 h4 (mem_irange.1 h1).2 h5) h2

/-- **C09** the exception of a run without gaps is the `TypeError` of the progress report. -/
theorem C09_typeError : summary (timeTracking exEnv (fun t => .ok (exTbl [t])) 0 none 3 5 true) =
    .error .typeError := by
  decide +kernel

/-- **C09** (partial) with `tf` given and non-zero, the progress report never fails at times ≥ 0. -/
theorem C09_partial {f t : Int} (hf : f ≠ 0) (ht : 0 ≤ t) : progress (some f) t = .ok () := by
  unfold progress
  simp only [hf, if_false]
  rw [if_neg (by omega)]

/-! ### C10 -/

/-- **C10** (partial) What a successful offline run stores: every snapshot with eddies *except the first*,
once each, in order, under its own time; the returned table is the first one with eddies.  Missing for
the full claim: the first non-empty snapshot is never written. -/
theorem C10_partial {E : Env α K Pt} {snap : Int → Except PyErr (Tbl α)} {t0 : Int} {tf : Option Int}
    {T : Nat} {ntimes : Int} {s : LoopState α}
    (h : timeTracking E snap t0 tf T ntimes false = .ok s) :
    s.written.map (fun p => (p.1, p.2.rows)) =
      ((s.processed.filter fun t => rowsAt snap t ≠ []).tail.map fun t => (t, atTime t (rowsAt snap t))) ∧
    (∀ t, (s.processed.filter fun t => rowsAt snap t ≠ []).head? = some t →
      s.table.rows.Perm (atTime t (rowsAt snap t))) ∧
    ((s.processed.filter fun t => rowsAt snap t ≠ []) = [] → s.table.rows = []) := by
  have hi := off_run _ h
  have hp := hi.proc
  have htab := hi.tab
  have hwr := hi.wr
  rw [← hp] at htab hwr
  refine ⟨hwr, ?_, ?_⟩
  · intro t ht
    cases hl : s.processed.filter fun t => rowsAt snap t ≠ [] with
    | nil => rw [hl] at ht; cases ht
    | cons a l =>
      rw [hl] at ht htab
      simp at ht; subst ht
      rw [htab]; exact perm_sortBy _
  · intro hl
    rw [hl] at htab; exact htab

/-- **C10** is false: of two snapshots with eddies only the second is written. -/
theorem C10_refuted : (timeTracking exEnv (fun t => .ok (exTbl [t])) 0 (some 2) 2 5 false).map
    (fun s => s.written.map Prod.fst) = .ok [1] := by
  decide +kernel

/-! ### C11 -/

theorem pad5_inj {t t' : Int} (h : pad5 t = pad5 t') : t = t' := by
  have hnum : ∀ (k n : Nat), Nat.ofDigitChars 10 (List.replicate k '0' ++ Nat.toDigits 10 n) 0 = n := by
    intro k n
    rw [Nat.ofDigitChars_append, Nat.ofDigitChars_replicate_zero, Nat.mul_zero,
      Nat.ofDigitChars_ten_toDigits]
  have hdig : ∀ (k n : Nat), ('-' : Char) ∉ List.replicate k '0' ++ Nat.toDigits 10 n := by
    intro k n hm
    rcases List.mem_append.1 hm with hm | hm
    · have := List.eq_of_mem_replicate hm; revert this; decide
    · have := Nat.isDigit_of_mem_toDigits (by omega) (by omega) hm
      revert this; decide
  match t, t' with
  | .ofNat n, .ofNat n' =>
    have := congrArg (fun l => Nat.ofDigitChars 10 l 0) h
    simp only [pad5, hnum] at this
    rw [this]
  | .negSucc n, .negSucc n' =>
    have h : _ = _ := h
    simp only [pad5, List.cons.injEq, true_and] at h
    have := congrArg (fun l => Nat.ofDigitChars 10 l 0) h
    simp only [hnum] at this
    have : n = n' := by omega
    rw [this]
  | .ofNat n, .negSucc n' =>
    exfalso
    have hm : ('-' : Char) ∈ pad5 (.negSucc n') := by simp [pad5]
    rw [← h] at hm
    exact hdig _ _ hm
  | .negSucc n, .ofNat n' =>
    exfalso
    have hm : ('-' : Char) ∈ pad5 (.negSucc n) := by simp [pad5]
    rw [h] at hm
    exact hdig _ _ hm

/-- **C11** for a fixed directory and format, snapshots of different times (of any sign and any number of
digits) are stored under different paths. -/
theorem C11_paths_injective (path fmt : List Char) {t t' : Int}
    (h : outPath path t fmt = outPath path t' fmt) : t = t' := by
  have hname : fileName t fmt = fileName t' fmt := by
    unfold outPath joinPath at h
    split at h <;> simpa using h
  unfold fileName at hname
  rw [List.append_assoc, List.append_assoc] at hname
  have h1 := List.append_cancel_left hname
  exact pad5_inj (List.append_cancel_right h1)

/-- C11 on times wider than the padding -/
example : (String.ofList (outPath "/out".toList 123456 "csv".toList), String.ofList (outPath "/out/".toList 7 "csv".toList)) =
    ("/out/identified_eddies_123456.csv", "/out/identified_eddies_00007.csv") := by decide +kernel

/-- the integer written by decimal digits, with a minus sign in front if it is negative -/
def Spec.WritesInt (l : List Char) (t : Int) : Prop :=
  (0 ≤ t ∧ l.all Char.isDigit = true ∧ (Nat.ofDigitChars 10 l 0 : Int) = t) ∨
    ∃ d, l = '-' :: d ∧ t < 0 ∧ d.all Char.isDigit = true ∧ -(Nat.ofDigitChars 10 d 0 : Int) = t

theorem pad5_writes (t : Int) : Spec.WritesInt (pad5 t) t ∧ 5 ≤ (pad5 t).length := by
  have hnum : ∀ (k n : Nat), Nat.ofDigitChars 10 (List.replicate k '0' ++ Nat.toDigits 10 n) 0 = n := by
    intro k n
    rw [Nat.ofDigitChars_append, Nat.ofDigitChars_replicate_zero, Nat.mul_zero,
      Nat.ofDigitChars_ten_toDigits]
  have hdig : ∀ (k n : Nat), (List.replicate k '0' ++ Nat.toDigits 10 n).all Char.isDigit = true := by
    intro k n
    rw [List.all_eq_true]
    intro x hm
    rcases List.mem_append.1 hm with hm | hm
    · rw [List.eq_of_mem_replicate hm]; decide
    · exact Nat.isDigit_of_mem_toDigits (by omega) (by omega) hm
  match t with
  | .ofNat n =>
    refine ⟨Or.inl ⟨by simp, hdig _ _, ?_⟩, ?_⟩
    · simp only [pad5, hnum]; rfl
    · simp only [pad5, List.length_append, List.length_replicate]; omega
  | .negSucc n =>
    refine ⟨Or.inr ⟨_, rfl, Int.negSucc_lt_zero n, hdig _ _, ?_⟩, ?_⟩
    · simp only [hnum]; omega
    · simp only [pad5, List.length_cons, List.length_append, List.length_replicate]; omega

/-- **C11** the path under which a snapshot is stored: the directory, a slash unless the directory is empty or ends with one,
`identified_eddies_`, the time as a number of at least five characters, a dot and the format. -/
theorem C11_path {path fmt p : List Char} {t : Int} (h : storeSnapshot path t fmt = .ok (some p)) :
    ∃ sep num, p = path ++ sep ++ "identified_eddies_".toList ++ num ++ ['.'] ++ fmt ∧ Spec.WritesInt num t ∧
      5 ≤ num.length ∧ (sep = [] ∨ sep = ['/']) ∧ (sep = [] ↔ path = [] ∨ ∃ q, path = q ++ ['/']) := by
  have hp : p = outPath path t fmt := by
    unfold storeSnapshot at h
    split at h
    · simpa using h.symm
    · split at h
      · simpa using h.symm
      · split at h <;> simp at h
  subst hp
  obtain ⟨h1, h2⟩ := pad5_writes t
  have hl : path.getLast? = some '/' ↔ ∃ q, path = q ++ ['/'] := by
    rw [List.getLast?_eq_some_iff]
  unfold outPath joinPath fileName
  split
  · rename_i hc
    rw [hl] at hc
    exact ⟨[], pad5 t, by simp, h1, h2, Or.inl rfl, by simp [hc]⟩
  · rename_i hc
    rw [hl] at hc
    exact ⟨['/'], pad5 t, by simp, h1, h2, Or.inr rfl, by simp [hc]⟩

/-- negative times, and a directory without a slash at its end -/
example : storeSnapshot "out".toList (-7) "json".toList = .ok (some "out/identified_eddies_-0007.json".toList) ∧
    storeSnapshot [] 7 "csv".toList = .ok (some "identified_eddies_00007.csv".toList) := by decide +kernel

/-! ### C62: formats -/

/-- **C62** (partial) with format `csv` or `json` each stored snapshot is written to its own path. -/
theorem C62_partial (path fmt : List Char) (h : fmt = "csv".toList ∨ fmt = "json".toList) (t : Int) :
    storeSnapshot path t fmt = .ok (some (outPath path t fmt)) := by
  rcases h with rfl | rfl
  · rfl
  · unfold storeSnapshot; simp

/-- **C62** is false: the third format `hd5` always raises, and any other format silently stores
nothing. -/
theorem C62_refuted (path : List Char) (t : Int) :
    storeSnapshot path t "hd5".toList = .error .typeError ∧
    ∀ fmt, fmt ≠ "csv".toList → fmt ≠ "json".toList → fmt ≠ "hd5".toList →
      storeSnapshot path t fmt = .ok none := by
  constructor
  · unfold storeSnapshot; simp
  · intro fmt h1 h2 h3
    unfold storeSnapshot; simp only [h1, h2, h3, if_false]

end Trackeddy
