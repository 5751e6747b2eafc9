import Verif.Spec.Asked
import Verif.Props.EndToEnd

/-!
C03, time by time: what the table of `time_tracking` (trackeddy/trackeddy.py:181-224) holds for each of the times asked for, and that it
holds nothing else.
-/
namespace Trackeddy
open Spec Tbl

variable {α K Pt : Type} [Field K] [LinearOrder K] [IsStrictOrderedRing K]

theorem mem_trackTimes_iff {t0 : Int} {tf : Option Int} {T : Nat} {t : Int} : t ∈ trackTimes t0 tf T ↔ Asked t0 tf T t := by
  unfold trackTimes Asked
  cases tf with
  | none => simp [mem_irange]
  | some f =>
    by_cases hf : f = 0
    · subst hf
      simp [mem_irange]
    · simp [hf, mem_irange]

/-- the part of a concatenation that belongs to one time -/
theorem filter_time_flatMap {ts : List Int} (hnd : ts.Nodup) {t : Int} (ht : t ∈ ts) (f : Int → List (Row (Int × α)))
    (hf : ∀ u, ∀ r ∈ f u, r.val.1 = u) : (ts.flatMap f).filter (fun r => r.val.1 = t) = f t := by
  induction ts with
  | nil => simp at ht
  | cons u ts ih =>
    rw [List.flatMap_cons, List.filter_append]
    obtain ⟨hu, hnd⟩ := List.nodup_cons.1 hnd
    by_cases hut : u = t
    · subst hut
      have h1 : (f u).filter (fun r => r.val.1 = u) = f u := List.filter_eq_self.2 fun r hr => by simpa using hf u r hr
      have h2 : (ts.flatMap f).filter (fun r => r.val.1 = u) = [] := by
        refine List.filter_eq_nil_iff.2 fun r hr => ?_
        obtain ⟨v, hv, hr⟩ := List.mem_flatMap.1 hr
        have := hf v r hr
        simp only [decide_eq_true_eq]
        rintro rfl
        exact hu (this ▸ hv)
      rw [h1, h2, List.append_nil]
    · have h1 : (f u).filter (fun r => r.val.1 = t) = [] := by
        refine List.filter_eq_nil_iff.2 fun r hr => ?_
        have := hf u r hr
        simp only [decide_eq_true_eq]
        rintro h
        exact hut (this.symm.trans h)
      rw [h1, List.nil_append]
      exact ih hnd ((List.mem_cons.1 ht).resolve_left (Ne.symm hut))

/-- **C03** time by time: every row of the table belongs to one of the times asked for; for each of these the detection has succeeded, and
the rows of this time are those of the detection, each once, with its values and its number in the contour; rows of one identifier of the
detection keep a common identifier. -/
theorem C03_time_by_time {E : Env α K Pt} (hnn : IsNN E.dist E.nn)
    {snap : Int → Except PyErr (Tbl α)} (hsnap : ∀ t C, snap t = .ok C → SnapRows C.rows)
    {t0 : Int} {tf : Option Int} {T : Nat} {ntimes : Int} {s : LoopState α}
    (h : timeTracking E snap t0 tf T ntimes true = .ok s) :
    (∀ r ∈ s.table.rows, Asked t0 tf T r.val.1) ∧
    ∀ t, Asked t0 tf T t → ∃ (C : Tbl α) (g : Nat → Nat), snap t = .ok C ∧
      (s.table.rows.filter fun r => r.val.1 = t).Perm (C.rows.map fun r => ⟨g r.id, r.idx, (t, r.val)⟩) := by
  obtain ⟨g, hg⟩ := C03_no_detection_lost_or_invented hnn hsnap h
  rw [processed_eq _ h] at hg
  have htag : ∀ u, ∀ r ∈ tagged (g u) u (rowsAt snap u), r.val.1 = u := by
    intro u r hr
    obtain ⟨q, _, rfl⟩ := List.mem_map.1 hr
    rfl
  refine ⟨fun r hr => ?_, fun t ht => ?_⟩
  · obtain ⟨u, hu, hr⟩ := List.mem_flatMap.1 (hg.mem_iff.1 hr)
    rw [htag u r hr]
    exact mem_trackTimes_iff.1 hu
  · have ht := mem_trackTimes_iff.2 ht
    obtain ⟨C, hC⟩ := run_snaps_ok _ h t ht
    refine ⟨C, g t, hC, ?_⟩
    have := hg.filter fun r => r.val.1 = t
    rw [filter_time_flatMap ((pairwise_trackTimes t0 tf T).imp ne_of_lt) ht _ htag] at this
    simpa only [tagged, rowsAt, hC] using this

/-- **C03** from the data: the same with the detection of each time as a call with the same levels on the data of this time alone, in a
fresh session. -/
theorem C03_from_data {Pt : Type} {E : Env Cols ℝ Pt} (hnn : IsNN E.dist E.nn) {c : Criteria ℝ} {L : Libs} {field : Int → Fields}
    {levels : List ℝ} {t0 : Int} {tf : Option Int} {T : Nat} {ntimes : Int} {regs : Regs Cols}
    (h : ∀ t, Asked t0 tf T t → (field t).Ok) (hr : StoreEmpty regs) {s : LoopState Cols}
    (hs : (trackFields E c L field levels t0 tf T ntimes true regs).2 = .ok s) :
    (∀ r ∈ s.table.rows, Asked t0 tf T r.val.1) ∧
    ∀ t, Asked t0 tf T t → ∃ (C : Tbl Cols) (g : Nat → Nat), (snapshotOf E c L (field t) levels Regs.empty).2 = .ok C ∧
      (s.table.rows.filter fun r => r.val.1 = t).Perm (C.rows.map fun r => ⟨g r.id, r.idx, (t, r.val)⟩) := by
  rw [(trackFields_pure E c L (fun t ht => h t (mem_trackTimes_iff.1 ht)) hr).1] at hs
  obtain ⟨h1, h2⟩ := C03_time_by_time hnn (fun t C hC => pureSnapshot_rows hC) hs
  refine ⟨h1, fun t ht => ?_⟩
  obtain ⟨C, g, hC, hg⟩ := h2 t ht
  exact ⟨C, g, by rw [(snapshotOf_pure E c L (h t ht) levels (regs := Regs.empty) ⟨rfl, rfl⟩).1]; exact hC, hg⟩

/-- C03 for a run over two times, with an eddy at the second one -/
example : ∃ (nn : List (ℝ × ℝ) → ℝ × ℝ → Nat) (s : LoopState Cols) (C : Tbl Cols) (g : Nat → Nat), IsNN haversine nn ∧
    (trackFields (colsEnv true nn) exCriteria exLibs (fun _ => exField) [1 / 2] 0 (some 2) 2 1 true Regs.empty).2 = .ok s ∧ C.rows ≠ [] ∧
    (s.table.rows.filter fun r => r.val.1 = 1).Perm (C.rows.map fun r => ⟨g r.id, r.idx, (1, r.val)⟩) := by
  obtain ⟨nn, hnn⟩ := exists_isNN haversine
  obtain ⟨s, hs⟩ := exLongRun hnn (f := 2) (by norm_num) 2 1
  obtain ⟨C, g, hC, hg⟩ := (C03_from_data (E := colsEnv true nn) hnn (fun _ _ => exField_ok) ⟨rfl, rfl⟩ hs).2 1
    (Or.inl ⟨2, rfl, by norm_num, by norm_num, by norm_num⟩)
  obtain ⟨C', hC', hne⟩ := exSnapshot (colsEnv true nn)
  rw [(snapshotOf_pure _ _ _ exField_ok _ (regs := Regs.empty) ⟨rfl, rfl⟩).1, hC'] at hC
  cases hC
  exact ⟨nn, s, _, g, hnn, hs, hne, hg⟩

end Trackeddy
