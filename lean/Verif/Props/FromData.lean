import Verif.Props.EndToEnd
import Verif.Props.Level
import Verif.Props.Robust
import Verif.Props.Report
import Verif.Props.Distance

/-!
C04-C06, C08-C10, C16 and C19-C21 for the whole detection (Model/Pipeline.lean): sessions of calls on gridded data, and the columns
by which eddies are linked.
-/
namespace Trackeddy
open Spec

/-! ### sessions -/

/-- One call of `_detect_one_level` (trackeddy.py:274-395) by any object: its criteria, the answers of the libraries, the data
and the level. -/
structure LevelCall where
  crit : Criteria ℝ
  libs : Libs
  data : Fields
  level : ℝ

/-- the call with the registers its predecessors left -/
noncomputable def LevelCall.run (k : LevelCall) (r : Regs Cols) :
    Regs Cols × Except PyErr (List (Nat × List Cols) × List (Nat × Reason)) :=
  detectLevel k.crit k.libs k.data r k.level

/-- the registers after a session: calls one after the other, exceptions caught by the caller -/
noncomputable def afterCalls (h : List LevelCall) : Regs Cols := h.foldl (fun r k => (k.run r).1) Regs.empty

/-- the call, made in a fresh session, returns -/
def LevelCall.Returns (k : LevelCall) : Prop := k.data.Ok ∧ ∃ x, (k.run Regs.empty).2 = .ok x

noncomputable def LevelCall.measured (k : LevelCall) : Criteria ℝ × List (Measures Cols ℝ) :=
  (k.crit, levelMeasures k.crit k.libs k.data k.level)

theorem history_append {α K : Type} [Field K] [LinearOrder K] (h h' : List (Criteria K × List (Measures α K))) (r : Regs α) :
    history r (h ++ h') = history (history r h) h' := by
  induction h generalizing r with
  | nil => rfl
  | cons p h ih => obtain ⟨c, ms⟩ := p; exact ih _

theorem afterCalls_history (h : List LevelCall) (hh : ∀ k ∈ h, k.data.Ok) :
    afterCalls h = history Regs.empty (h.map LevelCall.measured) := by
  induction h using List.reverseRecOn with
  | nil => rfl
  | append_singleton h k ih =>
    have ih := ih fun k hk => hh k (by simp [hk])
    have hk := hh k (by simp)
    unfold afterCalls at ih ⊢
    rw [List.foldl_append, ih, List.map_append, history_append]
    simp only [List.foldl_cons, List.foldl_nil, List.map_cons, List.map_nil, history, LevelCall.run, LevelCall.measured]
    rw [detectLevel_measures hk]

theorem LevelCall.Returns.completes {k : LevelCall} (h : k.Returns) : Completes k.measured.1 k.measured.2 := by
  obtain ⟨h1, x, hx⟩ := h
  unfold LevelCall.run at hx
  rw [detectLevel_measures h1] at hx
  exact completes_iff.2 (detectOneLevel_complete hx)

/-- the eddies of the contour lines of a call -/
theorem accepted_contours {c : Criteria ℝ} {L : Libs} {S : Fields} (h : S.Ok) {l : ℝ} {ess : List (List Side)}
    (he : contourList L S l = ess.map fun es => es.map (S.grid.point l)) :
    (accepted c (levelMeasures c L S l)).map points =
      (ess.filterMap fun cl => storedEddy c L S l (cl.map (S.grid.point l))).map fun e => tableRows e.data := by
  rw [← storedOf_eq, storedOf_contours h, he, List.filterMap_map]
  rfl

/-- **C19** from the data: after any session of calls that return, a call that returns gives the table it gives in a fresh
session: the eddies of the contour lines of its own data at its own level that meet its own criteria, in the order of the lines,
numbered from zero. -/
theorem C19_from_data (h : List LevelCall) (hh : ∀ k ∈ h, k.Returns) (k : LevelCall) (hk : k.Returns) :
    ∃ (lines : List (List Side)) (pick : List Side → Option EddyObj) (disc : List (Nat × Reason)),
      Contours k.data.grid k.level lines ∧
      (∀ cl ∈ lines, ∀ e, pick cl = some e ↔
        ∃ pts, cl.map (k.data.grid.point k.level) = pts.map some ∧ Qualifies k.crit k.libs k.data k.level pts e) ∧
      (k.run (afterCalls h)).2 = .ok (numbered 0 ((lines.filterMap pick).map fun e => tableRows e.data), disc) := by
  obtain ⟨-, ess, h1, h2⟩ := contourList_lines k.libs hk.1 k.level
  rw [afterCalls_history h fun k hk => (hh k hk).1]
  obtain ⟨disc, hd⟩ := C19_level_independent_of_history (h.map LevelCall.measured) k.measured.1 k.measured.2
    (by
      intro p hp
      obtain ⟨k, hk, rfl⟩ := List.mem_map.1 hp
      exact (hh k hk).completes) hk.completes
  refine ⟨ess, fun cl => storedEddy k.crit k.libs k.data k.level (cl.map (k.data.grid.point k.level)), disc, h1,
    fun cl _ e => storedEddy_iff, ?_⟩
  unfold LevelCall.run
  rw [detectLevel_measures hk.1]
  rw [← accepted_contours hk.1 h2]
  exact hd

theorem exists_first {β : Type} {P : β → Prop} {l : List β} (h : ∃ x ∈ l, ¬ P x) :
    ∃ pre x post, l = pre ++ x :: post ∧ ¬ P x ∧ ∀ y ∈ pre, P y := by
  classical
  induction l with
  | nil => simp at h
  | cons a l ih =>
    by_cases ha : P a
    · obtain ⟨pre, x, post, rfl, h2, h3⟩ := ih (by
        obtain ⟨x, hx, hn⟩ := h
        rcases List.mem_cons.1 hx with rfl | hx
        · exact absurd ha hn
        · exact ⟨x, hx, hn⟩)
      refine ⟨a :: pre, x, post, rfl, h2, ?_⟩
      intro y hy
      rcases List.mem_cons.1 hy with rfl | hy
      · exact ha
      · exact h3 y hy
    · exact ⟨[], a, l, rfl, ha, by simp⟩

/-- **C20** from the data: what a call returns after a call that raised. The lines of the interrupted level up to the one that
raised have been examined; the eddies found among them precede the eddies of the next level that has some, and everything is
numbered from zero. -/
theorem C20_from_data (h : List LevelCall) (hh : ∀ k ∈ h, k.Returns) (k' : LevelCall) (hk' : k'.data.Ok) {err : PyErr}
    (he : (k'.run Regs.empty).2 = .error err) (k : LevelCall) (hk : k.Returns) :
    (k'.run (afterCalls h)).2 = .error err ∧
    ∃ (before after : List (List Side)) (bad : List Side) (lines : List (List Side))
      (pick' pick : List Side → Option EddyObj) (disc : List (Nat × Reason)),
      Contours k'.data.grid k'.level (before ++ bad :: after) ∧ Contours k.data.grid k.level lines ∧
      (∀ cl ∈ before, ∃ o, examine k'.crit k'.libs k'.data k'.level (cl.map (k'.data.grid.point k'.level)) = .ok o) ∧
      examine k'.crit k'.libs k'.data k'.level (bad.map (k'.data.grid.point k'.level)) = .error err ∧
      (∀ cl ∈ before, ∀ e, pick' cl = some e ↔
        ∃ pts, cl.map (k'.data.grid.point k'.level) = pts.map some ∧ Qualifies k'.crit k'.libs k'.data k'.level pts e) ∧
      (∀ cl ∈ lines, ∀ e, pick cl = some e ↔
        ∃ pts, cl.map (k.data.grid.point k.level) = pts.map some ∧ Qualifies k.crit k.libs k.data k.level pts e) ∧
      (k.run (afterCalls (h ++ [k']))).2 = .ok (if lines.filterMap pick = [] then [] else
        numbered 0 ((before.filterMap pick' ++ lines.filterMap pick).map fun e => tableRows e.data), disc) := by
  obtain ⟨-, ess, h1, h2⟩ := contourList_lines k.libs hk.1 k.level
  obtain ⟨-, ess', h1', h2'⟩ := contourList_lines k'.libs hk' k'.level
  set ex := fun cl : List Side => examine k'.crit k'.libs k'.data k'.level (cl.map (k'.data.grid.point k'.level)) with hex
  have hbad : ∃ cl ∈ ess', ¬ ∃ o, ex cl = .ok o := by
    by_contra hc
    push Not at hc
    obtain ⟨x, hx⟩ := ((detectLevel_total (c := k'.crit) (L := k'.libs) hk' k'.level Regs.empty).1).2 (by
      intro vs hvs
      rw [h2'] at hvs
      obtain ⟨cl, hcl, rfl⟩ := List.mem_map.1 hvs
      exact hc cl hcl)
    unfold LevelCall.run at he
    rw [hx] at he
    cases he
  obtain ⟨before, bad, after, hsplit, hb1, hb2⟩ := exists_first hbad
  obtain ⟨e', he'⟩ : ∃ e', ex bad = .error e' := by
    cases hx : ex bad with
    | ok o => exact absurd ⟨o, hx⟩ hb1
    | error e => exact ⟨e, rfl⟩
  set M := fun cl : List Side => measures k'.crit k'.libs k'.data k'.level (cl.map (k'.data.grid.point k'.level)) with hM
  have hver : ∀ cl, verdict k'.crit (M cl) = (ex cl).map Outcome.kind := fun cl => verdict_measures _ _ _ _ _
  have hlm : levelMeasures k'.crit k'.libs k'.data k'.level = before.map M ++ M bad :: after.map M := by
    unfold levelMeasures
    rw [h2', hsplit, hM]
    simp only [List.map_append, List.map_cons, List.map_map, Function.comp_def]
  have hpre : Completes k'.crit (before.map M) := by
    rw [completes_iff]
    intro m hm
    obtain ⟨cl, hcl, rfl⟩ := List.mem_map.1 hm
    obtain ⟨o, ho⟩ := hb2 cl hcl
    rw [hver, ho]
    exact ⟨_, rfl⟩
  have hm : verdict k'.crit (M bad) = .error e' := by rw [hver, he']; rfl
  have hcon := fun (h : List LevelCall) (hh : ∀ k ∈ h, k.Returns) =>
    C20_exact_contamination (h.map LevelCall.measured) (by
      intro p hp
      obtain ⟨k, hk, rfl⟩ := List.mem_map.1 hp
      exact (hh k hk).completes) k'.crit (before.map M) (M bad) (after.map M) hpre hm k.measured.1 k.measured.2 hk.completes
  have hrun : ∀ h : List LevelCall, (∀ k ∈ h, k.Returns) → (k'.run (afterCalls h)).2 = .error e' := by
    intro h hh
    unfold LevelCall.run
    rw [detectLevel_measures hk', hlm, afterCalls_history h fun k hk => (hh k hk).1]
    exact (hcon h hh).1
  have hee : e' = err := by
    have := hrun [] (by simp)
    have h0 : afterCalls [] = Regs.empty := rfl
    rw [h0, he] at this
    injection this with this
    exact this.symm
  subst hee
  refine ⟨hrun h hh, ?_⟩
  obtain ⟨-, disc, hd⟩ := hcon h hh
  refine ⟨before, after, bad, ess, fun cl => storedEddy k'.crit k'.libs k'.data k'.level (cl.map (k'.data.grid.point k'.level)),
    fun cl => storedEddy k.crit k.libs k.data k.level (cl.map (k.data.grid.point k.level)), disc, hsplit ▸ h1', h1, hb2, he',
    fun cl _ e => storedEddy_iff, fun cl _ e => storedEddy_iff, ?_⟩
  have hstored : (accepted k'.crit (before.map M)).map points =
      (before.filterMap fun cl => storedEddy k'.crit k'.libs k'.data k'.level (cl.map (k'.data.grid.point k'.level))).map
        fun e => tableRows e.data := by
    rw [← storedOf_eq]
    have hne : ∀ cl ∈ before, cl.map (k'.data.grid.point k'.level) ≠ [] := by
      intro cl hcl
      refine contourList_ne k'.libs hk' k'.level _ ?_
      rw [h2', hsplit]
      exact List.mem_map_of_mem (by simp [hcl])
    have := storedOf_measures (c := k'.crit) (L := k'.libs) (S := k'.data) (l := k'.level)
      (cs := before.map fun cl => cl.map (k'.data.grid.point k'.level)) (by
        intro vs hvs
        obtain ⟨cl, hcl, rfl⟩ := List.mem_map.1 hvs
        exact hne cl hcl)
    rw [List.map_map, List.filterMap_map] at this
    exact this
  unfold LevelCall.run
  rw [detectLevel_measures hk.1, afterCalls_history _ (by
    intro k hk
    rcases List.mem_append.1 hk with hk | hk
    · exact (hh k hk).1
    · obtain rfl := List.mem_singleton.1 hk
      exact hk')]
  have hk'm : k'.measured = (k'.crit, before.map M ++ M bad :: after.map M) := by
    unfold LevelCall.measured
    rw [hlm]
  rw [List.map_append, List.map_cons, List.map_nil, hk'm]
  refine hd.trans ?_
  have hemp : accepted k.measured.1 k.measured.2 = [] ↔
      (ess.filterMap fun cl => storedEddy k.crit k.libs k.data k.level (cl.map (k.data.grid.point k.level))) = [] := by
    rw [← List.map_eq_nil_iff (f := points), ← List.map_eq_nil_iff (f := fun e : EddyObj => tableRows e.data)]
    exact Eq.congr_left (accepted_contours hk.1 h2)
  have hacc : (accepted k.measured.1 k.measured.2).map points = _ := accepted_contours hk.1 h2
  by_cases hz : accepted k.measured.1 k.measured.2 = []
  · rw [if_pos hz, if_pos (hemp.1 hz)]
  · rw [if_neg hz, if_neg fun h0 => hz (hemp.2 h0), List.map_append, List.map_append, hstored, hacc]
    rfl

/-- **C21** from the data: after a session in which every call returned and stored an eddy or discarded nothing, the list of
discarded contours has, in the order of the contour lines of this call, one entry for each line that fails a test, with the first
test it fails, numbered from zero. Missing: sessions with a call that discarded contours and stored none (false, see
`C21_refuted`). -/
theorem C21_partial_from_data (h : List LevelCall)
    (hh : ∀ k ∈ h, k.data.Ok ∧ ∃ eddies disc, (k.run Regs.empty).2 = .ok (eddies, disc) ∧ (eddies ≠ [] ∨ disc = []))
    (k : LevelCall) (hk : k.Returns) :
    ∃ (lines : List (List Side)) (why : List Side → Option Reason) (tbl : List (Nat × List Cols)),
      Contours k.data.grid k.level lines ∧
      (∀ cl ∈ lines, ∀ r, why cl = some r ↔
        Cntr.skipsContour (cl.map (k.data.grid.point k.level)) = false ∧
        FirstFailed k.crit (measures k.crit k.libs k.data k.level (cl.map (k.data.grid.point k.level))) r) ∧
      (k.run (afterCalls h)).2 = .ok (tbl, numbered 0 (lines.filterMap why)) := by
  obtain ⟨-, ess, h1, h2⟩ := contourList_lines k.libs hk.1 k.level
  have hdis : DiscEmpty (afterCalls h) := by
    have key : ∀ (h : List LevelCall) (r : Regs Cols), DiscEmpty r → (∀ k ∈ h, k.data.Ok ∧ ∃ eddies disc,
        (k.run Regs.empty).2 = .ok (eddies, disc) ∧ (eddies ≠ [] ∨ disc = [])) →
        DiscEmpty (h.foldl (fun r k => (k.run r).1) r) := by
      intro h
      induction h with
      | nil => intro r hr _; exact hr
      | cons k h ih =>
        intro r hr hh
        refine ih _ ?_ fun k hk => hh k (List.mem_cons_of_mem _ hk)
        obtain ⟨hok, eddies, disc, he, hor⟩ := hh k List.mem_cons_self
        unfold LevelCall.run at he ⊢
        dsimp only
        rw [detectLevel_measures hok] at he ⊢
        have hall := detectOneLevel_complete he
        rw [detectOneLevel_ok _ _ hall] at he
        injection he with he
        rw [Prod.mk.injEq] at he
        unfold detectOneLevel
        rw [contourLoop_ok _ _ hall]
        by_cases hst : storedOf k.crit (levelMeasures k.crit k.libs k.data k.level) = []
        · have hd : discardedOf k.crit (levelMeasures k.crit k.libs k.data k.level) = [] := by
            by_contra hd
            rw [if_pos hst, if_neg hd] at he
            rcases hor with hor | hor
            · exact hor he.1.symm
            · rw [hor] at he
              have := he.2
              simp only [Regs.empty, List.nil_append] at this
              cases hx : discardedOf k.crit (levelMeasures k.crit k.libs k.data k.level) with
              | nil => exact hd hx
              | cons a l => rw [hx, numbered_cons] at this; cases this
          simp only [hst, hd, if_true, List.length_nil, Nat.add_zero, numbered_nil, List.append_nil]
          exact hr
        · simp only [hst, if_false]
          exact ⟨rfl, rfl⟩
    exact key h _ ⟨rfl, rfl⟩ hh
  have hcomp := completes_iff.1 hk.completes
  have hres := detectOneLevel_ok k.measured.1 k.measured.2 hcomp (afterCalls h)
  generalize (if storedOf k.measured.1 k.measured.2 = [] then [] else _ : List (Nat × List Cols)) = tbl at hres
  refine ⟨ess, fun cl => whyOf k.crit k.libs k.data k.level (cl.map (k.data.grid.point k.level)), tbl, h1, ?_, ?_⟩
  · intro cl hcl r
    rw [whyOf_some]
    have hv := verdict_measures k.crit k.libs k.data k.level (cl.map (k.data.grid.point k.level))
    have hd : (measures k.crit k.libs k.data k.level (cl.map (k.data.grid.point k.level))).degenerate =
        Cntr.skipsContour (cl.map (k.data.grid.point k.level)) := by
      unfold measures
      cases Cntr.skipsContour (cl.map (k.data.grid.point k.level)) with
      | true => rfl
      | false =>
        simp only [Bool.false_eq_true, if_false]
        cases allPoints (cl.map (k.data.grid.point k.level)) <;> rfl
    rw [← hd]
    refine Iff.trans ?_ ((C18_reason_is_first_failed k.crit
      (measures k.crit k.libs k.data k.level (cl.map (k.data.grid.point k.level)))).2.2 r)
    rw [hv]
    cases examine k.crit k.libs k.data k.level (cl.map (k.data.grid.point k.level)) with
    | error e => simp [Except.map]
    | ok o => cases o <;> simp [Except.map, Outcome.kind]
  · unfold LevelCall.run
    rw [detectLevel_measures hk.1]
    refine hres.trans ?_
    have hdd : discardedOf k.measured.1 k.measured.2 =
        ess.filterMap fun cl => whyOf k.crit k.libs k.data k.level (cl.map (k.data.grid.point k.level)) := by
      unfold discardedOf LevelCall.measured levelMeasures
      simp only
      rw [h2, List.map_map, List.filterMap_map]
      apply List.filterMap_congr
      intro cl _
      simp only [Function.comp_apply, verdict_measures, whyOf]
      cases examine k.crit k.libs k.data k.level (cl.map (k.data.grid.point k.level)) with
      | error e => rfl
      | ok o => cases o <;> rfl
    rw [hdd, hdis.1, hdis.2, List.nil_append]
    by_cases hz : (ess.filterMap fun cl => whyOf k.crit k.libs k.data k.level (cl.map (k.data.grid.point k.level))) = []
    · rw [if_pos hz, hz]
      rfl
    · rw [if_neg hz]

/-! ### C16 -/

/-- **C16** from the data: zeros among the levels do not matter. -/
theorem C16_from_data {Pt : Type} (E : Env Cols ℝ Pt) (c : Criteria ℝ) (L : Libs) (S : Fields) (levels : List ℝ) (regs : Regs Cols) :
    snapshotOf E c L S levels regs = snapshotOf E c L S (levels.filter (· ≠ 0)) regs := by
  unfold snapshotOf
  rw [List.filter_filter]
  simp

/-- **C16** from the data, for whole runs: zeros among the levels do not matter. -/
theorem C16_from_data_runs {Pt : Type} (E : Env Cols ℝ Pt) (c : Criteria ℝ) (L : Libs) (field : Int → Fields) (levels : List ℝ)
    (t0 : Int) (tf : Option Int) (T : Nat) (ntimes : Int) (online : Bool) (regs : Regs Cols) :
    trackFields E c L field levels t0 tf T ntimes online regs =
      trackFields E c L field (levels.filter (· ≠ 0)) t0 tf T ntimes online regs := by
  unfold trackFields
  simp only [C16_from_data E c L _ levels]

/-- **C16** from the data: the levels are processed in the given order. A further level other than zero is merged into the
snapshot of the preceding ones; what is merged are the eddies of its own contour lines that meet the criteria. -/
theorem C16_from_data_order {Pt : Type} {E : Env Cols ℝ Pt} {c : Criteria ℝ} {L : Libs} {S : Fields} (h : S.Ok) {levels : List ℝ}
    {l : ℝ} (hl : l ≠ 0) {regs : Regs Cols} (hr : StoreEmpty regs) {C : Tbl Cols}
    (hC : (snapshotOf E c L S (levels ++ [l]) regs).2 = .ok C) :
    ∃ (C' : Tbl Cols) (lines : List (List Side)) (pick : List Side → Option EddyObj),
      (snapshotOf E c L S levels regs).2 = .ok C' ∧ Contours S.grid l lines ∧
      (∀ cl ∈ lines, ∀ e, pick cl = some e ↔ ∃ pts, cl.map (S.grid.point l) = pts.map some ∧ Qualifies c L S l pts e) ∧
      levelStep E (fun _ => .ok (levelFrame (numbered 0 ((lines.filterMap pick).map fun e => tableRows e.data)))) C' l = .ok C := by
  obtain ⟨-, ess, h1, h2⟩ := contourList_lines L h l
  rw [(snapshotOf_pure E c L h _ hr).1] at hC
  unfold pureSnapshot at hC
  rw [C16_levels_in_order E _ _ hl] at hC
  cases hp : detectSnapshot E (fun l => pureLevel c (levelMeasures c L S l)) levels with
  | error e => rw [hp] at hC; cases hC
  | ok C' =>
    rw [hp] at hC
    refine ⟨C', ess, fun cl => storedEddy c L S l (cl.map (S.grid.point l)),
      (snapshotOf_pure E c L h _ hr).1.trans hp, h1, fun cl _ e => storedEddy_iff, ?_⟩
    simp only [Except.bind] at hC
    cases hq : (detectOneLevel c Regs.empty (levelMeasures c L S l)).2 with
    | error e =>
      simp only [levelStep, pureLevel, hq, Except.map, bind, Except.bind] at hC
      cases hC
    | ok x =>
      have hall := detectOneLevel_complete hq
      have hx : x.1 = numbered 0 (storedOf c (levelMeasures c L S l)) := by
        rw [detectOneLevel_ok _ _ hall] at hq
        injection hq with hq
        rw [← hq]
        simp only [Regs.empty, List.nil_append]
        split
        · rename_i h0; rw [h0]; rfl
        · rfl
      rw [← accepted_contours h h2, ← storedOf_eq, ← hx]
      rw [← hC]
      unfold levelStep pureLevel
      dsimp only
      rw [hq]
      rfl

/-! ### the columns of the linking -/

theorem columns_read {e : EddyObj} {row : Cols} (h : row ∈ tableRows e.data) :
    column "maxima_y" row = e.maxima.2.1 ∧ column "maxima_x" row = e.maxima.2.2 ∧ column "radius_eddy" row = e.radius ∧
      ("maxima_y", some e.maxima.2.1) ∈ row ∧ ("maxima_x", some e.maxima.2.2) ∈ row := by
  obtain ⟨p, -, rfl⟩ := List.mem_map.1 h
  refine ⟨?_, ?_, ?_, ?_, ?_⟩
  · simp [column, columns, EddyObj.data]
  · simp [column, columns, EddyObj.data]
  · simp [column, columns, EddyObj.data]
  · simp [columns, EddyObj.data]
  · simp [columns, EddyObj.data]

/-- latitude and longitude of the extremum of an eddy -/
def EddyObj.place (e : EddyObj) : ℝ × ℝ := (e.maxima.2.1, e.maxima.2.2)

theorem heads_tableRows {es : List EddyObj} (hne : ∀ e ∈ es, tableRows e.data ≠ []) :
    List.Forall₂ (fun (e : EddyObj) row => row ∈ tableRows e.data) es (heads (es.map fun e => tableRows e.data)) := by
  induction es with
  | nil => exact .nil
  | cons e es ih =>
    have h1 := hne e List.mem_cons_self
    unfold heads at ih ⊢
    rw [List.map_cons, List.filterMap_cons]
    cases hr : tableRows e.data with
    | nil => exact absurd hr h1
    | cons row rest =>
      simp only [List.head?_cons]
      refine .cons ?_ (ih fun e he => hne e (List.mem_cons_of_mem _ he))
      rw [hr]
      exact List.mem_cons_self

theorem forall₂_getElem? {β γ : Type} {R : β → γ → Prop} {l : List β} {r : List γ} (h : List.Forall₂ R l r) :
    (∀ (i : Nat) b, l[i]? = some b → ∃ c, r[i]? = some c ∧ R b c) ∧
      ∀ (i : Nat) c, r[i]? = some c → ∃ b, l[i]? = some b ∧ R b c := by
  induction h with
  | nil => simp
  | cons h1 h2 ih =>
    refine ⟨?_, ?_⟩
    · intro i b hb
      cases i with
      | zero => simp at hb; subst hb; exact ⟨_, rfl, h1⟩
      | succ i => simpa using ih.1 i b (by simpa using hb)
    · intro i c hc
      cases i with
      | zero => simp at hc; subst hc; exact ⟨_, rfl, h1⟩
      | succ i => simpa using ih.2 i c (by simpa using hc)

/-- the linking rule for the table rows is the linking rule for the eddies, with great circle distances -/
theorem linkRule_eddies {prunes : Bool} {nn : List (ℝ × ℝ) → ℝ × ℝ → Nat} {ends : List (ℝ × ℝ)} {es : List EddyObj}
    {rows : List Cols} (hf : List.Forall₂ (fun (e : EddyObj) row => row ∈ tableRows e.data) es rows) {a : Nat → Nat}
    (h : LinkRule (colsEnv prunes nn).dist (colsEnv prunes nn).pos (colsEnv prunes nn).radius
      (ends.map fun p => ballTreePoint p.1 p.2) rows a) :
    LinkRule (fun p q : ℝ × ℝ => centralAngle p.1 p.2 q.1 q.2) EddyObj.place EddyObj.radius ends es a := by
  have hd : ∀ {e : EddyObj} {row : Cols}, row ∈ tableRows e.data → ∀ q : ℝ × ℝ,
      (colsEnv prunes nn).dist ((colsEnv prunes nn).pos row) (ballTreePoint q.1 q.2) =
        centralAngle e.place.1 e.place.2 q.1 q.2 := by
    intro e row hr q
    obtain ⟨c1, c2, -⟩ := columns_read hr
    rw [← C83_great_circle]
    simp only [colsEnv, realEnv, c1, c2, EddyObj.place]
  have hrad : ∀ {e : EddyObj} {row : Cols}, row ∈ tableRows e.data → (colsEnv prunes nn).radius row = e.radius :=
    fun hr => (columns_read hr).2.2.1
  have hex : ∀ {e : EddyObj} {row : Cols}, row ∈ tableRows e.data →
      ((∃ p ∈ ends.map fun p => ballTreePoint p.1 p.2,
        (colsEnv prunes nn).dist ((colsEnv prunes nn).pos row) p * 6371 < (colsEnv prunes nn).radius row) ↔
      ∃ p ∈ ends, centralAngle e.place.1 e.place.2 p.1 p.2 * 6371 < e.radius) := by
    intro e row hr
    simp only [List.mem_map, exists_exists_and_eq_and, hd hr, hrad hr]
  obtain ⟨f1, -⟩ := forall₂_getElem? hf
  refine ⟨?_, ?_, ?_⟩
  · intro c e he hp
    obtain ⟨row, hrow, hr⟩ := f1 c e he
    obtain ⟨p, h1, h2, h3⟩ := h.linked c row hrow ((hex hr).2 hp)
    rw [List.getElem?_map, Option.map_eq_some_iff] at h1
    obtain ⟨q, hq, rfl⟩ := h1
    refine ⟨q, hq, ?_, ?_⟩
    · intro q' hq'
      have := h2 _ (List.mem_map_of_mem hq')
      rwa [hd hr, hd hr] at this
    · rwa [hd hr, hrad hr] at h3
  · intro c e he hp
    obtain ⟨row, hrow, hr⟩ := f1 c e he
    simpa using h.fresh c row hrow (fun hx => hp ((hex hr).1 hx))
  · intro c c' e e' he he' hlt h1 h2
    obtain ⟨row, hrow, -⟩ := f1 c e he
    obtain ⟨row', hrow', -⟩ := f1 c' e' he'
    exact h.order c c' row row' hrow hrow' hlt (by simpa using h1) (by simpa using h2)

section
variable {c : Criteria ℝ} {L : Libs} {field : Int → Fields} {levels : List ℝ} {t0 : Int} {T : Nat} {ntimes : Int} {regs : Regs Cols}

/-- every row of the table is a row of a stored contour -/
theorem row_of_table {Pt : Type} {E : Env Cols ℝ Pt} {tf : Option Int} (hnn : IsNN E.dist E.nn)
    (h : ∀ t ∈ trackTimes t0 tf T, (field t).Ok) (hr : StoreEmpty regs) {s : LoopState Cols}
    (hs : (trackFields E c L field levels t0 tf T ntimes true regs).2 = .ok s) {r : Row (Int × Cols)} (hrow : r ∈ s.table.rows) :
    ∃ e : EddyObj, r.val.2 ∈ tableRows e.data := by
  obtain ⟨l, h1, h2⟩ := trackFields_made hnn h hr hs
  rw [h2.mem_iff, List.mem_flatMap] at hrow
  obtain ⟨p, hp, hrp⟩ := hrow
  obtain ⟨-, -, -, vs, -, e, -, he, -⟩ := h1 p hp
  refine ⟨e, ?_⟩
  obtain ⟨q, hq, rfl⟩ := List.mem_map.1 hrp
  rw [he] at hq
  unfold eddyRows at hq
  rw [List.mem_mapIdx] at hq
  obtain ⟨i, hi, rfl⟩ := hq
  exact List.getElem_mem hi

/-- **C04** from the data, for one level other than zero, in terms of the columns of the table: the table up to `f` included is
the table before `f` together with the eddies of the contour lines of time `f` that meet the criteria. `ends` are latitude and
longitude of the extremum of each track at its latest time (columns `maxima_y`, `maxima_x`). An eddy continues the track whose end
is nearest on the sphere, if it is nearer than the radius of the eddy (6371 km to the unit), and starts a new track otherwise. -/
theorem C04_from_data_columns {prunes : Bool} {nn : List (ℝ × ℝ) → ℝ × ℝ → Nat} (hnn : IsNN haversine nn) {l : ℝ}
    (hl : levels.filter (· ≠ 0) = [l]) {f : Int} (hf : f ≠ 0) (hf1 : f + 1 ≠ 0)
    (h0 : t0 ≤ f) (h : ∀ t, t0 ≤ t → t ≤ f → (field t).Ok) (hr : StoreEmpty regs) {s s' : LoopState Cols}
    (hs : (trackFields (colsEnv prunes nn) c L field levels t0 (some f) T ntimes true regs).2 = .ok s)
    (hs' : (trackFields (colsEnv prunes nn) c L field levels t0 (some (f + 1)) T ntimes true regs).2 = .ok s')
    (hne : s.table.rows ≠ []) :
    ∃ (lines : List (List Side)) (pick : List Side → Option EddyObj) (ends : List (ℝ × ℝ)) (a : Nat → Nat),
      Contours (field f).grid l lines ∧
      (∀ cl ∈ lines, ∀ e, pick cl = some e ↔
        ∃ pts, cl.map ((field f).grid.point l) = pts.map some ∧ Qualifies c L (field f) l pts e) ∧
      Contiguous s.table.rows ends.length ∧
      (∀ (i : Nat) p, ends[i]? = some p → ∃ r ∈ s.table.rows, r.id = i ∧ r.idx = 0 ∧ ("maxima_y", some p.1) ∈ r.val.2 ∧
        ("maxima_x", some p.2) ∈ r.val.2 ∧ ∀ r' ∈ s.table.rows, r'.id = i → r'.val.1 ≤ r.val.1) ∧
      s'.table.rows.Perm (s.table.rows ++ tagged a f (snapRows ((lines.filterMap pick).map fun e => tableRows e.data))) ∧
      LinkRule (fun p q : ℝ × ℝ => centralAngle p.1 p.2 q.1 q.2) EddyObj.place EddyObj.radius ends (lines.filterMap pick) a := by
  obtain ⟨lines, pick, ends, a, h1, h2, h3, h4, h5, h6⟩ :=
    C04_from_data (E := colsEnv prunes nn) hnn hl hf hf1 h0 h hr hs hs' hne
  have hends : (ends.map fun p => (p.1 * (180 / Real.pi), p.2 * (180 / Real.pi))).map (fun p => ballTreePoint p.1 p.2) = ends := by
    rw [List.map_map]
    conv_rhs => rw [← List.map_id ends]
    exact List.map_congr_left fun p _ => direction_eq p
  refine ⟨lines, pick, ends.map fun p => (p.1 * (180 / Real.pi), p.2 * (180 / Real.pi)), a, h1, h2, ?_, ?_, h5, ?_⟩
  · rwa [List.length_map]
  · intro i p hp
    rw [List.getElem?_map, Option.map_eq_some_iff] at hp
    obtain ⟨q, hq, rfl⟩ := hp
    obtain ⟨r, hrow, r1, r2, r3, r4⟩ := h4 i q hq
    have htimes : ∀ t ∈ trackTimes t0 (some f) T, (field t).Ok := by
      intro t ht
      unfold trackTimes at ht
      simp only [hf, if_false] at ht
      have := mem_irange.1 ht
      exact h t this.1 (by omega)
    obtain ⟨e, he⟩ := row_of_table (E := colsEnv prunes nn) hnn htimes hr hs hrow
    obtain ⟨c1, c2, -, c4, c5⟩ := columns_read he
    have hpi := Real.pi_ne_zero
    have hq1 : q.1 * (180 / Real.pi) = e.maxima.2.1 := by
      rw [← r3]
      simp only [colsEnv, realEnv, ballTreePoint, c1]
      field_simp
    have hq2 : q.2 * (180 / Real.pi) = e.maxima.2.2 := by
      rw [← r3]
      simp only [colsEnv, realEnv, ballTreePoint, c2]
      field_simp
    refine ⟨r, hrow, r1, r2, ?_, ?_, r4⟩
    · simp only [hq1]; exact c4
    · simp only [hq2]; exact c5
  · refine linkRule_eddies (prunes := prunes) (nn := nn) (heads_tableRows ?_) (by rw [hends]; exact h6)
    intro e he
    obtain ⟨cl, hcl, hst⟩ := List.mem_filterMap.1 he
    obtain ⟨pts, h7, h8, curve, i, h9⟩ := (h2 cl hcl e).1 hst
    unfold tableRows
    have : e.contour ≠ [] := by
      rw [h9.contour]
      rintro rfl
      have := (h1.each cl hcl).two
      rw [List.map_nil, List.map_eq_nil_iff] at h7
      rw [h7] at this
      simp at this
    simpa [EddyObj.data] using this

/-- the snapshots matter only at the times of the run -/
theorem timeTracking_congr {α K Pt : Type} [Field K] [LinearOrder K] [IsStrictOrderedRing K] (E : Env α K Pt)
    {snap snap' : Int → Except PyErr (Tbl α)} {t0 : Int} {tf : Option Int} {T : Nat} (ntimes : Int) (online : Bool)
    (h : ∀ t ∈ trackTimes t0 tf T, snap t = snap' t) :
    timeTracking E snap t0 tf T ntimes online = timeTracking E snap' t0 tf T ntimes online := by
  unfold timeTracking
  generalize trackTimes t0 tf T = ts at h
  generalize (⟨⟨[], []⟩, [], []⟩ : LoopState α) = s
  induction ts generalizing s with
  | nil => rfl
  | cons t ts ih =>
    rw [List.foldlM_cons, List.foldlM_cons]
    have h1 : loopStep E snap tf ntimes online s t = loopStep E snap' tf ntimes online s t := by
      unfold loopStep
      rw [h t List.mem_cons_self]
    rw [h1]
    congr 1
    funext s'
    exact ih (fun t ht => h t (List.mem_cons_of_mem _ ht)) s'

/-- `es` are the eddies of the contour lines that meet the criteria, in the order of a listing of all contour lines -/
def Found (c : Criteria ℝ) (L : Libs) (S : Fields) (l : ℝ) (es : List EddyObj) : Prop :=
  ∃ (lines : List (List Side)) (pick : List Side → Option EddyObj), Contours S.grid l lines ∧
    (∀ cl ∈ lines, ∀ e, pick cl = some e ↔ ∃ pts, cl.map (S.grid.point l) = pts.map some ∧ Qualifies c L S l pts e) ∧
    es = lines.filterMap pick

/-- the eddies found in the data -/
noncomputable def foundIn (c : Criteria ℝ) (L : Libs) (S : Fields) (l : ℝ) : List EddyObj :=
  (contourList L S l).filterMap (storedEddy c L S l)

theorem foundIn_found {S : Fields} (h : S.Ok) (l : ℝ) : Found c L S l (foundIn c L S l) := by
  obtain ⟨-, ess, h1, h2⟩ := contourList_lines L h l
  refine ⟨ess, fun cl => storedEddy c L S l (cl.map (S.grid.point l)), h1, fun cl _ e => storedEddy_iff, ?_⟩
  unfold foundIn
  rw [h2, List.filterMap_map]
  rfl

theorem foundIn_ne {S : Fields} (h : S.Ok) (l : ℝ) : ∀ e ∈ foundIn c L S l, tableRows e.data ≠ [] := by
  intro e he
  obtain ⟨vs, hvs, hst⟩ := List.mem_filterMap.1 he
  obtain ⟨pts, rfl, h8, curve, i, h9⟩ := storedEddy_iff.1 hst
  have hp := contourList_ne L h l _ hvs
  unfold tableRows
  have hc := h9.contour
  simp only [ne_eq, List.map_eq_nil_iff, EddyObj.data, hc]
  simpa using hp

/-- the snapshot of a time, for one level other than zero -/
theorem snapshot_found {Pt : Type} {E : Env Cols ℝ Pt} {S : Fields} (h : S.Ok) {l : ℝ} (hl : levels.filter (· ≠ 0) = [l]) {C : Tbl Cols}
    (hC : pureSnapshot E c L S levels = .ok C) : C.rows = snapRows ((foundIn c L S l).map fun e => tableRows e.data) :=
  snapshot_one_level h hl hC

/-- with one level other than zero the snapshot succeeds if the detection of the level does -/
theorem snapshot_returns {Pt : Type} {E : Env Cols ℝ Pt} {S : Fields} (h : S.Ok) {l : ℝ} (hl : levels.filter (· ≠ 0) = [l])
    (hx : ∃ x, (detectLevel c L S Regs.empty l).2 = .ok x) : ∃ C, pureSnapshot E c L S levels = .ok C := by
  obtain ⟨x, hx⟩ := hx
  rw [detectLevel_measures h] at hx
  unfold pureSnapshot detectSnapshot
  rw [hl]
  simp only [List.foldlM_cons, List.foldlM_nil, levelStep, pureLevel, hx, Except.map, bind, Except.bind, pure, Except.pure, if_true]
  by_cases h0 : (levelFrame x.1).rows = []
  · simp only [h0, if_true]
    exact ⟨_, rfl⟩
  · simp only [h0, if_false]
    exact ⟨_, rfl⟩

theorem snapRows_eq_nil {es : List EddyObj} (hne : ∀ e ∈ es, tableRows e.data ≠ []) :
    snapRows (es.map fun e => tableRows e.data) = [] ↔ es = [] := by
  constructor
  · intro h
    cases es with
    | nil => rfl
    | cons e es =>
      exfalso
      have h1 := hne e List.mem_cons_self
      unfold snapRows at h
      simp only [List.map_cons, List.mapIdx_cons, List.flatten_cons, List.append_eq_nil_iff] at h
      have := h.1
      unfold eddyRows at this
      rw [List.mapIdx_eq_nil_iff] at this
      exact h1 this
  · rintro rfl; rfl

/-- **C05** from the data (partial), for one level other than zero: if the eddies found at each time are at least the sum of their
radii apart on the sphere, no two rows of the table have the same identifier, time and point number. Missing: overlapping eddies
(false, see `C05_refuted`). -/
theorem C05_partial_from_data {prunes : Bool} {nn : List (ℝ × ℝ) → ℝ × ℝ → Nat} (hnn : IsNN haversine nn) {l : ℝ}
    (hl : levels.filter (· ≠ 0) = [l]) {tf : Option Int} (h : ∀ t ∈ trackTimes t0 tf T, (field t).Ok) (hr : StoreEmpty regs)
    {s : LoopState Cols} (hs : (trackFields (colsEnv prunes nn) c L field levels t0 tf T ntimes true regs).2 = .ok s) :
    (∀ t ∈ trackTimes t0 tf T, Found c L (field t) l (foundIn c L (field t) l)) ∧
      ((∀ t ∈ trackTimes t0 tf T, (foundIn c L (field t) l).Pairwise fun e e' =>
        e.radius + e'.radius ≤ centralAngle e.place.1 e.place.2 e'.place.1 e'.place.2 * 6371) → KeyUnique s.table.rows) := by
  classical
  refine ⟨fun t ht => foundIn_found (h t ht) l, fun hd => ?_⟩
  rw [(trackFields_pure _ c L h hr).1, timeTracking_congr (snap' := fun t => if t ∈ trackTimes t0 tf T then
    pureSnapshot (colsEnv prunes nn) c L (field t) levels else .ok ⟨[], []⟩) _ _ _ (fun t ht => by rw [if_pos ht])] at hs
  refine C05_partial_great_circle (prunes := prunes) (my := column "maxima_y") (mx := column "maxima_x")
    (radius := column "radius_eddy") hnn ?_ hs
  intro t C hC
  by_cases ht : t ∈ trackTimes t0 tf T
  · simp only [ht, if_true] at hC
    have hne := foundIn_ne (c := c) (L := L) (h t ht) l
    refine ⟨_, ?_, snapshot_found (h t ht) hl hC, ?_⟩
    · intro e he
      obtain ⟨o, ho, rfl⟩ := List.mem_map.1 he
      exact hne o ho
    · have hf := (forall₂_getElem? (heads_tableRows hne)).2
      have key : ∀ (i j : Nat) (v v' : Cols), (heads ((foundIn c L (field t) l).map fun e => tableRows e.data))[i]? = some v →
          (heads ((foundIn c L (field t) l).map fun e => tableRows e.data))[j]? = some v' → i < j →
          column "radius_eddy" v + column "radius_eddy" v' ≤
            centralAngle (column "maxima_y" v) (column "maxima_x" v) (column "maxima_y" v') (column "maxima_x" v') * 6371 := by
        intro i j v v' hv hv' hij
        obtain ⟨e, he, hev⟩ := hf i v hv
        obtain ⟨e', he', hev'⟩ := hf j v' hv'
        obtain ⟨c1, c2, c3, -⟩ := columns_read hev
        obtain ⟨d1, d2, d3, -⟩ := columns_read hev'
        rw [c1, c2, c3, d1, d2, d3]
        obtain ⟨hi, rfl⟩ := List.getElem?_eq_some_iff.1 he
        obtain ⟨hj, rfl⟩ := List.getElem?_eq_some_iff.1 he'
        exact List.pairwise_iff_getElem.1 (hd t ht) i j hi hj hij
      intro i j v v' hv hv' hne'
      rcases lt_or_gt_of_ne hne' with hij | hij
      · exact key i j v v' hv hv' hij
      · have := key j i v' v hv' hv hij
        rw [← C83_great_circle, haversine_symm, C83_great_circle] at this
        linarith
  · simp only [ht, if_false] at hC
    injection hC with hC
    subst hC
    exact ⟨[], by simp, rfl, by simp [heads]⟩

/-- the snapshots of a run for one level other than zero, completed by empty ones -/
noncomputable def snapsOf {Pt : Type} (E : Env Cols ℝ Pt) (c : Criteria ℝ) (L : Libs) (field : Int → Fields) (levels : List ℝ)
    (ts : List Int) (t : Int) : Except PyErr (Tbl Cols) :=
  if t ∈ ts then pureSnapshot E c L (field t) levels else .ok ⟨[], []⟩

theorem snapsOf_facts {Pt : Type} {E : Env Cols ℝ Pt} {l : ℝ} (hl : levels.filter (· ≠ 0) = [l]) {ts : List Int}
    (h : ∀ t ∈ ts, (field t).Ok ∧ ∃ x, (detectLevel c L (field t) Regs.empty l).2 = .ok x) :
    (∀ t, ∃ C, snapsOf E c L field levels ts t = .ok C) ∧
    (∀ t C, snapsOf E c L field levels ts t = .ok C → SnapRows C.rows) ∧
    ∀ t ∈ ts, rowsAt (snapsOf E c L field levels ts) t = snapRows ((foundIn c L (field t) l).map fun e => tableRows e.data) := by
  refine ⟨?_, ?_, ?_⟩
  · intro t
    unfold snapsOf
    split
    · rename_i ht
      exact snapshot_returns (h t ht).1 hl (h t ht).2
    · exact ⟨_, rfl⟩
  · intro t C hC
    unfold snapsOf at hC
    split at hC
    · exact pureSnapshot_rows hC
    · injection hC with hC
      subst hC
      exact ⟨fun r hr => by simp at hr, 0, by simp [Contiguous]⟩
  · intro t ht
    obtain ⟨C, hC⟩ := snapshot_returns (E := E) (h t ht).1 hl (h t ht).2
    unfold rowsAt snapsOf
    rw [if_pos ht, hC]
    exact snapshot_found (h t ht).1 hl hC

/-- the run in terms of the completed snapshots -/
theorem run_snapsOf {Pt : Type} {E : Env Cols ℝ Pt} {tf : Option Int} (h : ∀ t ∈ trackTimes t0 tf T, (field t).Ok)
    (hr : StoreEmpty regs) (online : Bool) :
    (trackFields E c L field levels t0 tf T ntimes online regs).2 =
      timeTracking E (snapsOf E c L field levels (trackTimes t0 tf T)) t0 tf T ntimes online := by
  rw [(trackFields_pure E c L h hr).1]
  refine timeTracking_congr _ _ _ fun t ht => ?_
  unfold snapsOf
  rw [if_pos ht]

theorem mem_trackTimes_some {f : Int} (hf : f ≠ 0) {t : Int} : t ∈ trackTimes t0 (some f) T ↔ t0 ≤ t ∧ t < f := by
  unfold trackTimes
  simp only [hf, if_false]
  exact mem_irange

/-- **C06** from the data (partial), for one level other than zero whose detection succeeds at each time. With `tf` given the run
succeeds exactly if, whenever eddies are found at `t` and at some earlier time, eddies are found at `t-1` and at each of the
`ntimes` times before (cut off at time 0); otherwise it raises `KeyError`. Missing: it is false that a run succeeds for all other
patterns. -/
theorem C06_partial_from_data {Pt : Type} {E : Env Cols ℝ Pt} (hnn : IsNN E.dist E.nn) {l : ℝ} (hl : levels.filter (· ≠ 0) = [l])
    {f : Int} (h0 : 0 ≤ t0) (hf : f ≠ 0)
    (h : ∀ t, t0 ≤ t → t < f → (field t).Ok ∧ ∃ x, (detectLevel c L (field t) Regs.empty l).2 = .ok x) (hr : StoreEmpty regs) :
    (∀ t, t0 ≤ t → t < f → Found c L (field t) l (foundIn c L (field t) l)) ∧
      ((∃ s, (trackFields E c L field levels t0 (some f) T ntimes true regs).2 = .ok s) ↔
        ∀ t, t0 ≤ t → t < f → foundIn c L (field t) l ≠ [] → (∃ u, t0 ≤ u ∧ u < t ∧ foundIn c L (field u) l ≠ []) →
          ∀ w, (w = t - 1 ∨ t - 1 - min ntimes (t - 1) ≤ w ∧ w < t - 1) → t0 ≤ w ∧ foundIn c L (field w) l ≠ []) ∧
      ((¬ ∃ s, (trackFields E c L field levels t0 (some f) T ntimes true regs).2 = .ok s) →
        (trackFields E c L field levels t0 (some f) T ntimes true regs).2 = .error .keyError) := by
  have ht : ∀ t ∈ trackTimes t0 (some f) T, (field t).Ok ∧ ∃ x, (detectLevel c L (field t) Regs.empty l).2 = .ok x :=
    fun t ht => h t ((mem_trackTimes_some hf).1 ht).1 ((mem_trackTimes_some hf).1 ht).2
  rw [run_snapsOf (fun t hx => (ht t hx).1) hr]
  obtain ⟨h1, h2, h3⟩ := snapsOf_facts (E := E) hl ht
  obtain ⟨h4, h5⟩ := C06_partial hnn h1 h2 h0 hf T ntimes
  refine ⟨fun t ha hb => foundIn_found (h t ha hb).1 l, ?_, h5⟩
  rw [h4]
  have hrow : ∀ t, t0 ≤ t → t < f → (rowsAt (snapsOf E c L field levels (trackTimes t0 (some f) T)) t ≠ [] ↔
      foundIn c L (field t) l ≠ []) := by
    intro t ha hb
    rw [h3 t ((mem_trackTimes_some hf).2 ⟨ha, hb⟩), ne_eq, snapRows_eq_nil (foundIn_ne (h t ha hb).1 l)]
  constructor
  · intro hx t ha hb he hu w hw
    obtain ⟨u, u1, u2, u3⟩ := hu
    have := hx t ha hb ((hrow t ha hb).2 he) ⟨u, u1, u2, (hrow u u1 (by omega)).2 u3⟩ w hw
    exact ⟨this.1, (hrow w this.1 (by omega)).1 this.2⟩
  · intro hx t ha hb he hu w hw
    obtain ⟨u, u1, u2, u3⟩ := hu
    have := hx t ha hb ((hrow t ha hb).1 he) ⟨u, u1, u2, (hrow u u1 (by omega)).1 u3⟩ w hw
    exact ⟨this.1, (hrow w this.1 (by omega)).2 this.2⟩

/-- **C08** from the data (partial): with `tf` given, and not 0, a successful run processes exactly the times `t0..tf-1`. -/
theorem C08_partial_from_data {Pt : Type} {E : Env Cols ℝ Pt} {f : Int} (hf : f ≠ 0) {online : Bool}
    (h : ∀ t, t0 ≤ t → t < f → (field t).Ok) (hr : StoreEmpty regs) {s : LoopState Cols}
    (hs : (trackFields E c L field levels t0 (some f) T ntimes online regs).2 = .ok s) :
    s.processed.Pairwise (· < ·) ∧ ∀ t, t ∈ s.processed ↔ t0 ≤ t ∧ t < f := by
  rw [(trackFields_pure E c L (fun t ht => h t ((mem_trackTimes_some hf).1 ht).1 ((mem_trackTimes_some hf).1 ht).2) hr).1] at hs
  exact C08_partial hf hs

/-- **C09** from the data: with `tf` omitted, for one level other than zero whose detection succeeds at each time, the run
succeeds exactly if eddies are found at one time at most. -/
theorem C09_refuted_from_data {Pt : Type} {E : Env Cols ℝ Pt} (hnn : IsNN E.dist E.nn) {l : ℝ} (hl : levels.filter (· ≠ 0) = [l])
    (h : ∀ t : Int, 0 ≤ t → t < T → (field t).Ok ∧ ∃ x, (detectLevel c L (field t) Regs.empty l).2 = .ok x) (hr : StoreEmpty regs)
    (online : Bool) :
    (∀ t : Int, 0 ≤ t → t < T → Found c L (field t) l (foundIn c L (field t) l)) ∧
      ((∃ s, (trackFields E c L field levels t0 none T ntimes online regs).2 = .ok s) ↔
        ∀ u t : Int, 0 ≤ u → u < t → t < T → foundIn c L (field u) l ≠ [] → foundIn c L (field t) l = []) := by
  have hmem : ∀ t, t ∈ trackTimes t0 none T ↔ 0 ≤ t ∧ t < T := fun t => by
    unfold trackTimes
    exact mem_irange
  have ht : ∀ t ∈ trackTimes t0 none T, (field t).Ok ∧ ∃ x, (detectLevel c L (field t) Regs.empty l).2 = .ok x :=
    fun t ht => h t ((hmem t).1 ht).1 ((hmem t).1 ht).2
  rw [run_snapsOf (fun t hx => (ht t hx).1) hr]
  obtain ⟨h1, h2, h3⟩ := snapsOf_facts (E := E) hl ht
  refine ⟨fun t ha hb => foundIn_found (h t ha hb).1 l, ?_⟩
  rw [C09_refuted hnn h1 h2]
  have hrow : ∀ t : Int, 0 ≤ t → t < T → (rowsAt (snapsOf E c L field levels (trackTimes t0 none T)) t = [] ↔
      foundIn c L (field t) l = []) := by
    intro t ha hb
    rw [h3 t ((hmem t).2 ⟨ha, hb⟩), snapRows_eq_nil (foundIn_ne (h t ha hb).1 l)]
  constructor
  · intro hx u t ha hb hc he
    exact (hrow t (by omega) hc).1 (hx u t ha hb hc (fun h0 => he ((hrow u ha (by omega)).1 h0)))
  · intro hx u t ha hb hc he
    exact (hrow t (by omega) hc).2 (hx u t ha hb hc (fun h0 => he ((hrow u ha (by omega)).2 h0)))

/-- **C10** from the data (partial), for one level other than zero: what a successful run without online tracking writes, namely
the eddies of each time at which some are found, except for the first such time. The returned table holds those. Missing: the
first time with eddies is never written. -/
theorem C10_partial_from_data {Pt : Type} {E : Env Cols ℝ Pt} {l : ℝ} (hl : levels.filter (· ≠ 0) = [l]) {tf : Option Int}
    (h : ∀ t ∈ trackTimes t0 tf T, (field t).Ok ∧ ∃ x, (detectLevel c L (field t) Regs.empty l).2 = .ok x) (hr : StoreEmpty regs)
    {s : LoopState Cols} (hs : (trackFields E c L field levels t0 tf T ntimes false regs).2 = .ok s) :
    (∀ t ∈ trackTimes t0 tf T, Found c L (field t) l (foundIn c L (field t) l)) ∧
      s.written.map (fun p => (p.1, p.2.rows)) = (((trackTimes t0 tf T).filter fun t => foundIn c L (field t) l ≠ []).tail.map fun t =>
        (t, atTime t (snapRows ((foundIn c L (field t) l).map fun e => tableRows e.data)))) ∧
      (∀ t, ((trackTimes t0 tf T).filter fun t => foundIn c L (field t) l ≠ []).head? = some t →
        s.table.rows.Perm (atTime t (snapRows ((foundIn c L (field t) l).map fun e => tableRows e.data)))) ∧
      ((∀ t ∈ trackTimes t0 tf T, foundIn c L (field t) l = []) → s.table.rows = []) := by
  rw [run_snapsOf (fun t hx => (h t hx).1) hr] at hs
  obtain ⟨h1, h2, h3⟩ := snapsOf_facts (E := E) hl h
  have hp : s.processed = trackTimes t0 tf T := processed_eq _ hs
  obtain ⟨h4, h5, h6⟩ := C10_partial hs
  rw [hp] at h4 h5 h6
  have hrow : ∀ t ∈ trackTimes t0 tf T, (rowsAt (snapsOf E c L field levels (trackTimes t0 tf T)) t = [] ↔
      foundIn c L (field t) l = []) := by
    intro t ht
    rw [h3 t ht, snapRows_eq_nil (foundIn_ne (h t ht).1 l)]
  have hfil : ((trackTimes t0 tf T).filter fun t => rowsAt (snapsOf E c L field levels (trackTimes t0 tf T)) t ≠ []) =
      (trackTimes t0 tf T).filter fun t => foundIn c L (field t) l ≠ [] := by
    apply List.filter_congr
    intro t ht
    simp only [ne_eq, hrow t ht]
  rw [hfil] at h4 h5 h6
  refine ⟨fun t ht => foundIn_found (h t ht).1 l, ?_, ?_, ?_⟩
  · rw [h4]
    apply List.map_congr_left
    intro t ht
    rw [h3 t (List.mem_filter.1 (List.mem_of_mem_tail ht)).1]
  · intro t ht
    have := h5 t ht
    rwa [h3 t (List.mem_filter.1 (List.mem_of_mem_head? ht)).1] at this
  · intro hall
    apply h6
    rw [List.filter_eq_nil_iff]
    intro t ht
    simp [hall t ht]

end

/-! ### examples -/

/-- the detection of the contour line of the example -/
noncomputable def exCall : LevelCall := ⟨exCriteria, exLibs, exField, 1 / 2⟩

theorem exCall_eddy : ∃ e, foundIn exCriteria exLibs exField (1 / 2) = [e] := by
  obtain ⟨e, he⟩ := exStored
  refine ⟨e, ?_⟩
  unfold foundIn
  rw [exField_contours]
  simp only [List.filterMap_cons, List.filterMap_nil, storedEddy, he]

theorem exCall_returns : exCall.Returns := by
  refine ⟨exField_ok, ?_⟩
  obtain ⟨e, he⟩ := exStored
  refine ((detectLevel_total exField_ok (1 / 2) Regs.empty).1).2 ?_
  intro vs hvs
  rw [exField_contours, List.mem_singleton] at hvs
  subst hvs
  exact ⟨_, he⟩

/-- C19: the third call of a session -/
example : ∃ e : EddyObj, ∃ disc, (exCall.run (afterCalls [exCall, exCall])).2 = .ok ([(0, tableRows e.data)], disc) := by
  obtain ⟨e, he⟩ := exCall_eddy
  obtain ⟨lines, pick, disc, h1, h2, h3⟩ := C19_from_data [exCall, exCall] (by simp [exCall_returns]) exCall exCall_returns
  have hex := (exCall_returns).2
  refine ⟨e, disc, ?_⟩
  have hst : storedOf exCriteria (levelMeasures exCriteria exLibs exField (1 / 2)) = [tableRows e.data] := by
    rw [storedOf_contours exField_ok]
    show (foundIn exCriteria exLibs exField (1 / 2)).map EddyObj.rows = _
    rw [he]
    rfl
  have hres := C19_level_independent_of_history ([exCall, exCall].map LevelCall.measured) exCall.measured.1 exCall.measured.2
    (by
      intro p hp
      obtain ⟨k, hk, rfl⟩ := List.mem_map.1 hp
      have : k = exCall := by simpa using hk
      subst this
      exact exCall_returns.completes) exCall_returns.completes
  obtain ⟨disc', hd⟩ := hres
  rw [← storedOf_eq] at hd
  have hrun : (exCall.run (afterCalls [exCall, exCall])).2 = .ok (numbered 0 (storedOf exCriteria (levelMeasures exCriteria exLibs exField (1 / 2))), disc') := by
    unfold LevelCall.run
    rw [afterCalls_history _ (by simp [exCall_returns.1])]
    rw [detectLevel_measures exCall_returns.1]
    exact hd
  rw [hst] at hrun
  rw [hrun] at h3
  injection h3 with h3
  rw [Prod.mk.injEq] at h3
  rw [hrun, ← h3.2]
  rfl

/-- C20: a call that returns after one that raises -/
example : ∃ k' : LevelCall, k'.data.Ok ∧ (∃ err, (k'.run Regs.empty).2 = .error err) ∧ exCall.Returns :=
  ⟨⟨exCriteria, exLibs, frontField, 1 / 2⟩, frontField_ok,
    C89_aborts frontField_ok (1 / 2) Regs.empty (pts := [(0, 1), (0, 2)]) (by rw [front_contours]; exact List.mem_singleton.2 rfl)
      (by
        simp only [Cntr.skipsContour, Cntr.meanOf, Cntr.closeNan, List.map_cons, List.map_nil]
        norm_num)
      (by
        unfold TooLarge
        rw [front_area, zero_div, Real.sqrt_zero, not_lt]
        exact mul_nonneg (div_nonneg (Real.sqrt_nonneg _) (C56_bounds _).1.le) (C56_bounds _).1.le) (Or.inr ⟨{(0, 1), (0, 2)}, Finset.card_le_two.trans (by norm_num), by simp⟩), exCall_returns⟩

/-- C21: the hypotheses on the session -/
example : exCall.data.Ok ∧ ∃ eddies disc, (exCall.run Regs.empty).2 = .ok (eddies, disc) ∧ (eddies ≠ [] ∨ disc = []) := by
  obtain ⟨x, hx⟩ := exCall_returns.2
  refine ⟨exField_ok, x.1, x.2, hx, Or.inl ?_⟩
  obtain ⟨e, he⟩ := exCall_eddy
  have hst : storedOf exCriteria (levelMeasures exCriteria exLibs exField (1 / 2)) = [tableRows e.data] := by
    rw [storedOf_contours exField_ok]
    show (foundIn exCriteria exLibs exField (1 / 2)).map EddyObj.rows = _
    rw [he]
    rfl
  have hx' : (detectLevel exCriteria exLibs exField Regs.empty (1 / 2)).2 = .ok x := hx
  rw [detectLevel_measures exField_ok] at hx'
  have hall := detectOneLevel_complete hx'
  rw [detectOneLevel_ok _ _ hall, hst] at hx'
  injection hx' with hx'
  rw [← hx', if_neg (List.cons_ne_nil _ _)]
  simp [Regs.empty, numbered]

/-- C06, C09, C10: the detection succeeds at each time, and eddies are found -/
example : exField.Ok ∧ (∃ x, (detectLevel exCriteria exLibs exField Regs.empty (1 / 2)).2 = .ok x) ∧
    foundIn exCriteria exLibs exField (1 / 2) ≠ [] := by
  obtain ⟨e, he⟩ := exCall_eddy
  refine ⟨exField_ok, exCall_returns.2, ?_⟩
  rw [he]
  exact List.cons_ne_nil _ _

/-- C09: with the example at all times, a run over two times without `tf` fails -/
example {nn : List (ℝ × ℝ) → ℝ × ℝ → Nat} (hnn : IsNN haversine nn) :
    ¬ ∃ s, (trackFields (colsEnv true nn) exCriteria exLibs (fun _ => exField) [1 / 2] 0 none 2 5 true Regs.empty).2 = .ok s := by
  obtain ⟨e, he⟩ := exCall_eddy
  have hne : foundIn exCriteria exLibs exField (1 / 2) ≠ [] := by
    rw [he]
    exact List.cons_ne_nil _ _
  have := (C09_refuted_from_data (E := colsEnv true nn) (c := exCriteria) (L := exLibs) (field := fun _ => exField)
    (levels := [1 / 2]) (l := 1 / 2) (t0 := 0) (T := 2) (ntimes := 5) (regs := Regs.empty) hnn (by norm_num)
    (fun t _ _ => ⟨exField_ok, exCall_returns.2⟩) ⟨rfl, rfl⟩ true).2
  rw [this]
  intro h
  exact hne (h 0 1 le_rfl (by norm_num) (by norm_num) hne)

/-- C06: with the example at all times, a run from time 0 on succeeds -/
example {nn : List (ℝ × ℝ) → ℝ × ℝ → Nat} (hnn : IsNN haversine nn) :
    ∃ s, (trackFields (colsEnv true nn) exCriteria exLibs (fun _ => exField) [1 / 2] 0 (some 7) 7 5 true Regs.empty).2 = .ok s := by
  obtain ⟨e, he⟩ := exCall_eddy
  have hne : foundIn exCriteria exLibs exField (1 / 2) ≠ [] := by
    rw [he]
    exact List.cons_ne_nil _ _
  refine ((C06_partial_from_data (E := colsEnv true nn) (c := exCriteria) (L := exLibs) (field := fun _ => exField)
    (levels := [1 / 2]) (l := 1 / 2) (t0 := 0) (T := 7) (ntimes := 5) (regs := Regs.empty) (f := 7) hnn (by norm_num) le_rfl
    (by norm_num) (fun t _ _ => ⟨exField_ok, exCall_returns.2⟩) ⟨rfl, rfl⟩).2.1).2 ?_
  intro t _ _ _ _ w hw
  exact ⟨by omega, hne⟩

/-- C05: a run over two times in which an eddy is found at each, alone -/
example {nn : List (ℝ × ℝ) → ℝ × ℝ → Nat} (hnn : IsNN haversine nn) : ∃ s : LoopState Cols,
    (trackFields (colsEnv true nn) exCriteria exLibs (fun _ => exField) [1 / 2] 0 (some 2) 2 5 true Regs.empty).2 = .ok s ∧
    s.table.rows ≠ [] ∧ KeyUnique s.table.rows := by
  obtain ⟨s, hs⟩ := exLongRun hnn (f := 2) (by norm_num) 2 5
  obtain ⟨h1, h2⟩ := C05_partial_from_data hnn (l := 1 / 2) (by norm_num) (fun _ _ => exField_ok) ⟨rfl, rfl⟩ hs
  refine ⟨s, hs, exLongRun_ne hnn (by norm_num) hs, h2 ?_⟩
  obtain ⟨e, he⟩ := exCall_eddy
  intro t _
  rw [he]
  exact List.pairwise_singleton _ _

end Trackeddy
