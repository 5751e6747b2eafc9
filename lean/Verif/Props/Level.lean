import Verif.Proofs.Level
import Verif.Props.Snapshot
import Mathlib.Algebra.Order.Field.Rat
import Mathlib.Algebra.Order.Ring.Rat

/-!
C17-C23: detection at one level (trackeddy/trackeddy.py:275-395, decorators.py:6-37, 72-90). C64.
-/
namespace Trackeddy
open Spec

variable {α K : Type} [Field K] [LinearOrder K] [IsStrictOrderedRing K]

/-! ### examples -/

/-- default criteria (trackeddy.py:46-51), 2π rounded -/
def exCrit : Criteria ℚ := ⟨85/100, 85/100, 8/10, 628/100, false⟩

/-- a contour that meets the default criteria -/
def exGood (k : ℕ) : Measures ℕ ℚ :=
  { degenerate := false, radius := .ok 50, area := 7854, rd := 30, areaEllipse := .ok 7800,
    eccen := .ok (1/2), ellSim := .ok (4/5), maxima := .ok 3, gauss := .ok (some (9/10)),
    row0 := k, rows := [k + 1, k + 2] }

/-- one that is too large -/
def exLarge : Measures ℕ ℚ := { exGood 0 with radius := .ok 500 }

/-- one whose ellipse fit raises (singular matrix) -/
def exRaises : Measures ℕ ℚ := { exGood 0 with areaEllipse := .error .valueError }

/-- a single point -/
def exPoint : Measures ℕ ℚ := { exGood 0 with degenerate := true }

/-! ### C17 -/

/-- **C17** a contour is stored iff it meets every criterion. -/
theorem C17_stored_iff_all_criteria (c : Criteria K) (m : Measures α K) :
    verdict c m = .ok .stored ↔ m.degenerate = false ∧
      (∃ R, m.radius = .ok R ∧ R ≤ c.maxArea * m.rd) ∧
      (∃ A, m.areaEllipse = .ok A ∧ |m.area - A| ≤ 1 / 100000000 + 1 / 10 * c.ellipseFit * |A|) ∧
      (∃ e, m.eccen = .ok e ∧ e ≤ c.eccen) ∧
      (∃ s, m.ellSim = .ok s ∧ s ≤ c.ellipseFit) ∧
      (∃ x, m.maxima = .ok x ∧ x ≠ 0) ∧
      (c.skipGauss = true ∨ ∃ g, m.gauss = .ok (some g) ∧ c.gaussFit ≤ g) := by
  rw [verdict_stored]
  refine and_congr_right fun _ => ⟨fun h => ⟨h .area, h .ellipseArea, h .eccentricity, h .similarity,
    h .island, h .gaussCheck⟩, ?_⟩
  rintro ⟨h1, h2, h3, h4, h5, h6⟩ r
  cases r with
  | area => exact h1
  | ellipseArea => exact h2
  | eccentricity => exact h3
  | similarity => exact h4
  | island => exact h5
  | gaussCheck => exact h6
  | gaussFailed => exact h6.imp_right fun ⟨g, hg, _⟩ => ⟨g, hg⟩

/-- **C17** for a level: after any history of completed detections, the contours in the returned table
are exactly those that meet every criterion. -/
theorem C17_level (h : List (Criteria K × List (Measures α K))) (c : Criteria K)
    (ms : List (Measures α K)) (hh : ∀ p ∈ h, Completes p.1 p.2) (hc : Completes c ms) :
    ∃ tbl disc, (detectOneLevel c (history Regs.empty h) ms).2 = .ok (tbl, disc) ∧
      ∀ rows, rows ∈ tbl.map Prod.snd ↔
        ∃ m ∈ ms, (m.degenerate = false ∧ ∀ r, Passes c m r) ∧ rows = points m := by
  have hs : StoreEmpty (history (K := K) (Regs.empty : Regs α) h) :=
    storeEmpty_history h ⟨rfl, rfl⟩ fun p hp => completes_iff.1 (hh p hp)
  refine ⟨_, _, detectOneLevel_ok c ms (completes_iff.1 hc) _, ?_⟩
  intro rows
  rw [hs.1, hs.2, storedOf_eq]
  have : (if (accepted c ms).map points = [] then [] else
      [] ++ numbered 0 ((accepted c ms).map points)).map Prod.snd = (accepted c ms).map points := by
    split
    · rename_i h; rw [h]; rfl
    · apply List.ext_getElem?
      intro i
      simp [numbered, List.getElem?_mapIdx, Option.map_map, Function.comp_def]
  rw [this, List.mem_map]
  unfold accepted
  simp only [List.mem_filter, decide_eq_true_eq]
  constructor
  · rintro ⟨m, ⟨h1, h2⟩, rfl⟩; exact ⟨m, h1, h2, rfl⟩
  · rintro ⟨m, h1, h2, rfl⟩; exact ⟨m, ⟨h1, h2⟩, rfl⟩

example : verdict exCrit (exGood 0) = .ok .stored := by decide +kernel
example : verdict exCrit exLarge = .ok (.discarded .area) := by decide +kernel
example : verdict exCrit exRaises = .error .valueError := by decide +kernel
example : verdict { exCrit with skipGauss := true } { exGood 0 with gauss := .ok none } = .ok .stored := by
  decide +kernel

theorem exCompletes : Completes exCrit [exPoint, exGood 0, exLarge, exGood 7] := by
  rw [completes_iff]
  intro m hm
  simp only [List.mem_cons, List.not_mem_nil, or_false] at hm
  rcases hm with rfl | rfl | rfl | rfl
  · exact ⟨.skipped, by decide +kernel⟩
  · exact ⟨.stored, by decide +kernel⟩
  · exact ⟨.discarded .area, by decide +kernel⟩
  · exact ⟨.stored, by decide +kernel⟩

/-- hypotheses of C17-C19 are met, with a history -/
example : (∀ p ∈ [(exCrit, [exLarge, exGood 3]), (exCrit, [exLarge])], Completes p.1 p.2) ∧
    Completes exCrit [exPoint, exGood 0, exLarge, exGood 7] := by
  refine ⟨?_, exCompletes⟩
  intro p hp
  simp only [List.mem_cons, List.not_mem_nil, or_false] at hp
  rcases hp with rfl | rfl
  · rw [completes_iff]
    intro m hm
    simp only [List.mem_cons, List.not_mem_nil, or_false] at hm
    rcases hm with rfl | rfl
    · exact ⟨.discarded .area, by decide +kernel⟩
    · exact ⟨.stored, by decide +kernel⟩
  · intro m hm; apply exCompletes; simp at hm; simp [hm]

/-! ### C18 -/

/-- **C18** every contour whose processing does not raise is skipped, stored or discarded; the reason
reported is that of the first failed test. -/
theorem C18_reason_is_first_failed (c : Criteria K) (m : Measures α K) :
    (verdict c m = .ok .skipped ↔ m.degenerate = true) ∧
    (verdict c m = .ok .stored ↔ m.degenerate = false ∧ ∀ r, Passes c m r) ∧
    (∀ r, verdict c m = .ok (.discarded r) ↔ m.degenerate = false ∧ Fails c m r ∧
      ∀ r' ∈ order.takeWhile (· ≠ r), Passes c m r') :=
  ⟨verdict_skipped, verdict_stored, fun _ => verdict_discarded⟩

/-- passing and failing a test exclude each other -/
theorem C18_passes_fails_exclusive (c : Criteria K) (m : Measures α K) (r : Reason)
    (h1 : Passes c m r) (h2 : Fails c m r) : False := by
  cases r with
  | area => obtain ⟨x, a, b⟩ := h1; obtain ⟨y, d, e⟩ := h2; rw [a] at d; injection d with d; exact e (d ▸ b)
  | ellipseArea =>
    obtain ⟨x, a, b⟩ := h1; obtain ⟨y, d, e⟩ := h2; rw [a] at d; injection d with d; exact e (d ▸ b)
  | eccentricity =>
    obtain ⟨x, a, b⟩ := h1; obtain ⟨y, d, e⟩ := h2; rw [a] at d; injection d with d; exact e (d ▸ b)
  | similarity =>
    obtain ⟨x, a, b⟩ := h1; obtain ⟨y, d, e⟩ := h2; rw [a] at d; injection d with d; exact e (d ▸ b)
  | island =>
    obtain ⟨x, a, b⟩ := h1
    have h2 : m.maxima = .ok 0 := h2
    rw [a] at h2; injection h2 with d; exact b d
  | gaussFailed =>
    obtain ⟨h3, h4⟩ := h2
    rcases h1 with h | ⟨x, hx⟩
    · rw [h3] at h; cases h
    · rw [h4] at hx; cases hx
  | gaussCheck =>
    obtain ⟨h3, y, h4, h5⟩ := h2
    rcases h1 with h | ⟨x, hx, h6⟩
    · rw [h3] at h; cases h
    · rw [h4] at hx; injection hx with hx; injection hx with hx; exact h5 (hx ▸ h6)

/-- **C18** the counts add up: in a fresh session each contour is either degenerate, in the table of
stored eddies or in the table of discarded contours; the discarded table lists, in contour order, the
first failed test of each contour that fails one. -/
theorem C18_counts_add_up (c : Criteria K) (ms : List (Measures α K)) (hc : Completes c ms) :
    ∃ tbl disc, (detectOneLevel c Regs.empty ms).2 = .ok (tbl, disc) ∧
      ms.countP (·.degenerate) + tbl.length + disc.length = ms.length ∧
      ∃ rejected : List (Measures α K), rejected.Sublist ms ∧
        (∀ m ∈ ms, m ∈ rejected ↔ m.degenerate = false ∧ ∃ r, FirstFailed c m r) ∧
        List.Forall₂ (FirstFailed c) rejected (disc.map Prod.snd) := by
  have hok := completes_iff.1 hc
  refine ⟨_, _, detectOneLevel_ok c ms hok _, ?_, ?_⟩
  · have h1 : (if storedOf c ms = [] then [] else
        (Regs.empty : Regs α).sTable ++ numbered (Regs.empty : Regs α).sCalls (storedOf c ms)).length =
        (storedOf c ms).length := by
      split
      · rename_i h; rw [h]; rfl
      · simp [Regs.empty, numbered_length]
    have h2 : (if discardedOf c ms = [] then [] else
        (Regs.empty : Regs α).dTable ++ numbered (Regs.empty : Regs α).dCalls
          (discardedOf c ms)).length = (discardedOf c ms).length := by
      split
      · rename_i h; rw [h]; rfl
      · simp [Regs.empty, numbered_length]
    rw [h1, h2]
    clear h1 h2 hc
    induction ms with
    | nil => rfl
    | cons m ms ih =>
      have ih := ih fun m hm => hok m (by simp [hm])
      obtain ⟨v, hv⟩ := hok m (by simp)
      cases v with
      | skipped =>
        have hd := verdict_skipped.1 hv
        have e1 : storedOf c (m :: ms) = storedOf c ms := by simp [storedOf, hv]
        have e2 : discardedOf c (m :: ms) = discardedOf c ms := by simp [discardedOf, hv]
        rw [e1, e2, List.countP_cons, List.length_cons, hd]
        simp only [if_true]; omega
      | stored =>
        have hd := (verdict_stored.1 hv).1
        have e1 : storedOf c (m :: ms) = (m.row0 :: m.rows) :: storedOf c ms := by simp [storedOf, hv]
        have e2 : discardedOf c (m :: ms) = discardedOf c ms := by simp [discardedOf, hv]
        rw [e1, e2, List.countP_cons, List.length_cons, List.length_cons, hd]
        simp only [Bool.false_eq_true, if_false]; omega
      | discarded rr =>
        have hd := (verdict_discarded.1 hv).1
        have e1 : storedOf c (m :: ms) = storedOf c ms := by simp [storedOf, hv]
        have e2 : discardedOf c (m :: ms) = rr :: discardedOf c ms := by simp [discardedOf, hv]
        rw [e1, e2, List.countP_cons, List.length_cons, List.length_cons, hd]
        simp only [Bool.false_eq_true, if_false]; omega
  · have h2 : (if discardedOf c ms = [] then [] else
        (Regs.empty : Regs α).dTable ++ numbered (Regs.empty : Regs α).dCalls
          (discardedOf c ms)).map Prod.snd = discardedOf c ms := by
      split
      · rename_i h; rw [h]; rfl
      · apply List.ext_getElem?
        intro i
        simp [Regs.empty, numbered, List.getElem?_mapIdx, Option.map_map, Function.comp_def]
    rw [h2]
    refine ⟨ms.filter fun m => match verdict c m with | .ok (.discarded _) => true | _ => false,
      List.filter_sublist, ?_, ?_⟩
    · intro m hm
      rw [List.mem_filter]
      constructor
      · rintro ⟨_, h⟩
        split at h
        · rename_i r hv; exact ⟨(verdict_discarded'.1 hv).1, r, (verdict_discarded'.1 hv).2⟩
        · cases h
      · rintro ⟨hd, r, hr⟩
        refine ⟨hm, ?_⟩
        rw [verdict_discarded'.2 ⟨hd, hr⟩]
    · clear h2 hc
      induction ms with
      | nil => exact List.Forall₂.nil
      | cons m ms ih =>
        have ih := ih fun m hm => hok m (by simp [hm])
        obtain ⟨v, hv⟩ := hok m (by simp)
        cases v with
        | skipped =>
          have e2 : discardedOf c (m :: ms) = discardedOf c ms := by simp [discardedOf, hv]
          rw [e2, List.filter_cons]; simp only [hv]; exact ih
        | stored =>
          have e2 : discardedOf c (m :: ms) = discardedOf c ms := by simp [discardedOf, hv]
          rw [e2, List.filter_cons]; simp only [hv]; exact ih
        | discarded rr =>
          have e2 : discardedOf c (m :: ms) = rr :: discardedOf c ms := by simp [discardedOf, hv]
          rw [e2, List.filter_cons]; simp only [hv]
          exact List.Forall₂.cons (verdict_discarded'.1 hv).2 ih

example : (detectOneLevel exCrit Regs.empty [exPoint, exGood 0, exLarge, exGood 7]).2 =
    .ok ([(0, [0, 1, 2]), (1, [7, 8, 9])], [(0, .area)]) := by decide +kernel

/-! ### C19 -/

/-- **C19** whatever levels have been detected before (by any object, with any criteria), the table
returned for a level lists exactly the contours of that level that meet the criteria, numbered
0,1,2,... in contour order. -/
theorem C19_level_independent_of_history (h : List (Criteria K × List (Measures α K)))
    (c : Criteria K) (ms : List (Measures α K)) (hh : ∀ p ∈ h, Completes p.1 p.2)
    (hc : Completes c ms) :
    ∃ disc, (detectOneLevel c (history Regs.empty h) ms).2 =
      .ok (numbered 0 ((accepted c ms).map points), disc) := by
  have hs : StoreEmpty (history (K := K) (Regs.empty : Regs α) h) :=
    storeEmpty_history h ⟨rfl, rfl⟩ fun p hp => completes_iff.1 (hh p hp)
  have e := detectOneLevel_ok c ms (completes_iff.1 hc) (history Regs.empty h)
  have e2 : (if storedOf c ms = [] then [] else (history Regs.empty h).sTable ++
      numbered (history Regs.empty h).sCalls (storedOf c ms)) =
      numbered 0 ((accepted c ms).map points) := by
    rw [hs.1, hs.2, storedOf_eq]
    split
    · rename_i h; rw [h]; rfl
    · simp
  rw [e2] at e
  exact ⟨_, e⟩

/-- **C19** as a table: rows of eddies numbered 0,1,2,..., the condition under which C12, C13, C15 speak
of a level. -/
theorem C19_level_table (h : List (Criteria K × List (Measures α K)))
    (c : Criteria K) (ms : List (Measures α K)) (hh : ∀ p ∈ h, Completes p.1 p.2)
    (hc : Completes c ms) :
    ∃ tbl disc, (detectOneLevel c (history Regs.empty h) ms).2 = .ok (tbl, disc) ∧
      (levelFrame tbl).rows = snapRows ((accepted c ms).map points) ∧ LevelTable (levelFrame tbl) := by
  obtain ⟨disc, hd⟩ := C19_level_independent_of_history h c ms hh hc
  refine ⟨_, disc, hd, levelFrame_rows _, levelFrame_level ?_⟩
  intro e he
  obtain ⟨m, _, rfl⟩ := List.mem_map.1 he
  simp [points]

/-- **C19** end to end: a snapshot detected with the shared registers, after any completed history,
equals the snapshot computed with every level detected in a fresh session; so C12-C16 apply to it. -/
theorem C19_snapshot {Pt : Type} (E : Env α K Pt)
    (h : List (Criteria K × List (Measures α K))) (hh : ∀ p ∈ h, Completes p.1 p.2) (c : Criteria K)
    (contours : K → List (Measures α K)) (levels : List K) :
    (detectSnapshotR E c contours levels (history Regs.empty h)).2 =
      detectSnapshot E (fun l => (detectOneLevel c Regs.empty (contours l)).2.map
        fun x => levelFrame x.1) levels ∧
    ∀ l t, ((detectOneLevel c Regs.empty (contours l)).2.map fun x => levelFrame x.1) = .ok t →
      LevelTable t :=
  ⟨(detectSnapshotR_refines E c contours levels
    (storeEmpty_history h ⟨rfl, rfl⟩ fun p hp => completes_iff.1 (hh p hp))).1,
   fun _ _ ht => pureLevel_level ht⟩

/-- **C19/C12** identifiers of a snapshot detected with the shared registers are exactly `0..k-1`. -/
theorem C19_snapshot_contiguous {Pt : Type} (E : Env α K Pt)
    (h : List (Criteria K × List (Measures α K))) (hh : ∀ p ∈ h, Completes p.1 p.2) (c : Criteria K)
    (contours : K → List (Measures α K)) (levels : List K) {t : Tbl α}
    (ht : (detectSnapshotR E c contours levels (history Regs.empty h)).2 = .ok t) :
    (∃ k, Contiguous t.rows k) ∧ SortedSnap t.rows ∧ HasFirst t.rows := by
  obtain ⟨h1, h2⟩ := C19_snapshot E h hh c contours levels
  rw [h1] at ht
  exact C12_snapshot_contiguous_sorted h2 levels ht

/-! ### C20 -/

/-- **C20** is false: a level that raises after having stored an eddy leaves it in the register, and the
next level (of any object) returns it as its own. -/
theorem C20_refuted :
    ¬ ∀ (c : Criteria ℚ) (pre ms : List (Measures ℕ ℚ)), Completes c ms →
      ∃ disc, (detectOneLevel c (history Regs.empty [(c, pre)]) ms).2 =
        .ok (numbered 0 ((accepted c ms).map points), disc) := by
  intro h
  have hc : Completes exCrit [exGood 7] := by
    intro m hm; apply exCompletes; simp at hm; simp [hm]
  obtain ⟨disc, hd⟩ := h exCrit [exGood 0, exRaises] [exGood 7] hc
  rw [← storedOf_eq] at hd
  have h1 : (detectOneLevel exCrit (history Regs.empty [(exCrit, [exGood 0, exRaises])]) [exGood 7]).2 =
    .ok ([(0, [0, 1, 2]), (1, [7, 8, 9])], []) := by decide +kernel
  rw [h1] at hd
  injection hd with hd
  injection hd with hd _
  revert hd
  decide +kernel

/-- What a level returns after an interrupted one, in general: if the interrupted level had stored
eddies and this one stores some too, both are returned, numbered consecutively; the interrupted level's
eddies stay in the register until a level stores an eddy. -/
theorem C20_exact_contamination (h : List (Criteria K × List (Measures α K)))
    (hh : ∀ p ∈ h, Completes p.1 p.2) (c : Criteria K) (pre : List (Measures α K)) (m : Measures α K)
    (post : List (Measures α K)) {e : PyErr} (hpre : Completes c pre) (hm : verdict c m = .error e)
    (c' : Criteria K) (ms : List (Measures α K)) (hc : Completes c' ms) :
    (detectOneLevel c (history Regs.empty h) (pre ++ m :: post)).2 = .error e ∧
    ∃ disc, (detectOneLevel c' (history Regs.empty (h ++ [(c, pre ++ m :: post)])) ms).2 =
      .ok (if accepted c' ms = [] then [] else
        numbered 0 ((accepted c pre ++ accepted c' ms).map points), disc) := by
  have hs : StoreEmpty (history (K := K) (Regs.empty : Regs α) h) :=
    storeEmpty_history h ⟨rfl, rfl⟩ fun p hp => completes_iff.1 (hh p hp)
  have happ : ∀ (h h' : List (Criteria K × List (Measures α K))) (r : Regs α),
      history r (h ++ h') = history (history r h) h' := by
    intro h h'
    induction h with
    | nil => intro r; rfl
    | cons p h ih => intro r; obtain ⟨c, ms⟩ := p; exact ih _
  have hloop := contourLoop_err c pre m post (completes_iff.1 hpre) hm
    (history (K := K) (Regs.empty : Regs α) h) ⟨none, none⟩
  refine ⟨by unfold detectOneLevel; rw [hloop], ?_⟩
  rw [happ]
  simp only [history]
  have h1 : (detectOneLevel c (history Regs.empty h) (pre ++ m :: post)).1 =
      (contourLoop c (pre ++ m :: post) (history Regs.empty h, ⟨none, none⟩)).1 := by
    unfold detectOneLevel; rw [hloop]
  rw [h1, hloop]
  have e := detectOneLevel_ok c' ms (completes_iff.1 hc)
    ⟨(history (K := K) (Regs.empty : Regs α) h).sCalls + (storedOf c pre).length,
      (history Regs.empty h).sTable ++ numbered (history Regs.empty h).sCalls (storedOf c pre),
      (history Regs.empty h).dCalls + (discardedOf c pre).length,
      (history Regs.empty h).dTable ++ numbered (history Regs.empty h).dCalls (discardedOf c pre)⟩
  have key : ∀ (A B : List (Nat × List α)) (D : List (Nat × Reason)), A = B →
      ∃ disc, (Except.ok (A, D) : Except PyErr _) = .ok (B, disc) := fun A B D h => ⟨D, by rw [h]⟩
  rw [e]
  apply key
  rw [storedOf_eq, storedOf_eq]
  simp only [hs.1, hs.2, List.nil_append, List.map_eq_nil_iff, Nat.zero_add, List.length_map]
  split
  · rfl
  · rw [List.map_append]
    unfold numbered
    rw [List.mapIdx_append]
    simp [Nat.add_comm]

/-- **C20, partial**: holds if the interrupted level had stored nothing before the exception.
Missing: interruption after an eddy was stored (false, see `C20_refuted`). -/
theorem C20_partial (h : List (Criteria K × List (Measures α K)))
    (hh : ∀ p ∈ h, Completes p.1 p.2) (c : Criteria K) (pre : List (Measures α K)) (m : Measures α K)
    (post : List (Measures α K)) {e : PyErr} (hpre : Completes c pre) (hm : verdict c m = .error e)
    (hnone : accepted c pre = []) (c' : Criteria K) (ms : List (Measures α K)) (hc : Completes c' ms) :
    ∃ disc, (detectOneLevel c' (history Regs.empty (h ++ [(c, pre ++ m :: post)])) ms).2 =
      .ok (numbered 0 ((accepted c' ms).map points), disc) := by
  obtain ⟨_, disc, hd⟩ := C20_exact_contamination h hh c pre m post hpre hm c' ms hc
  refine ⟨disc, ?_⟩
  rw [hd, hnone]
  congr 2
  split
  · rename_i h; rw [h]; rfl
  · simp

example : Completes exCrit [exPoint, exLarge] ∧ verdict exCrit exRaises = .error .valueError ∧
    accepted exCrit [exPoint, exLarge] = [] := by
  refine ⟨fun m hm => exCompletes m ?_, by decide +kernel, ?_⟩
  · simp at hm; rcases hm with rfl | rfl <;> simp
  · rw [← List.map_eq_nil_iff (f := points), ← storedOf_eq]; decide +kernel

/-! ### C21 -/

/-- **C21** is false: discarded contours of a level without stored eddies are reported again by the next
level. -/
theorem C21_refuted :
    ¬ ∀ (h : List (Criteria ℚ × List (Measures ℕ ℚ))) (c : Criteria ℚ) (ms : List (Measures ℕ ℚ)),
      (∀ p ∈ h, Completes p.1 p.2) → Completes c ms →
      ∀ tbl disc, (detectOneLevel c (history Regs.empty h) ms).2 = .ok (tbl, disc) →
        ∃ rejected : List (Measures ℕ ℚ), rejected.Sublist ms ∧
          List.Forall₂ (FirstFailed c) rejected (disc.map Prod.snd) := by
  intro h
  have hc : Completes exCrit [exLarge] := by
    intro m hm; apply exCompletes; simp at hm; simp [hm]
  obtain ⟨rej, h1, h2⟩ := h [(exCrit, [exLarge])] exCrit [exLarge] (by simpa using hc) hc []
    [(0, .area), (1, .area)] (by decide +kernel)
  have h3 := h1.length_le
  have h4 := h2.length_eq
  simp at h3 h4
  omega

/-- the discarded register is empty -/
def DiscEmpty (r : Regs α) : Prop := r.dCalls = 0 ∧ r.dTable = []

/-- **C21, partial**: in a session in which every earlier level stored an eddy or discarded nothing, the
discarded table lists exactly the contours of this level that fail a test, in order, with their first
failed test, numbered 0,1,2,.... Missing: histories with a level that discarded contours but stored none
(false, see `C21_refuted`). -/
theorem C21_partial (h : List (Criteria K × List (Measures α K)))
    (hh : ∀ p ∈ h, Completes p.1 p.2)
    (hstored : ∀ p ∈ h, accepted p.1 p.2 ≠ [] ∨
      ∀ m ∈ p.2, m.degenerate = true ∨ ∀ r, Passes p.1 m r)
    (c : Criteria K) (ms : List (Measures α K)) (hc : Completes c ms) :
    ∃ tbl, ∃ rejected : List (Measures α K), ∃ reasons : List Reason,
      (detectOneLevel c (history Regs.empty h) ms).2 = .ok (tbl, numbered 0 reasons) ∧
      rejected.Sublist ms ∧
      (∀ m ∈ ms, m ∈ rejected ↔ m.degenerate = false ∧ ∃ r, FirstFailed c m r) ∧
      List.Forall₂ (FirstFailed c) rejected reasons := by
  have hne : ∀ p ∈ h, storedOf p.1 p.2 ≠ [] ∨ discardedOf p.1 p.2 = [] := by
    intro p hp
    rcases hstored p hp with h1 | h1
    · left; rw [storedOf_eq]; simpa using h1
    · right
      unfold discardedOf
      rw [List.filterMap_eq_nil_iff]
      intro m hm
      rcases h1 m hm with h2 | h2
      · rw [verdict_skipped.2 h2]
      · cases hd : m.degenerate with
        | true => rw [verdict_skipped.2 hd]
        | false => rw [verdict_stored.2 ⟨hd, h2⟩]
  have hdis : ∀ (r : Regs α), DiscEmpty r → DiscEmpty (history r h) := by
    clear hstored
    induction h with
    | nil => intro r hr; exact hr
    | cons p h ih =>
      intro r hr
      obtain ⟨c0, ms0⟩ := p
      unfold history
      apply ih (fun p hp => hh p (by simp [hp])) (fun p hp => hne p (by simp [hp]))
      have hok := completes_iff.1 (hh (c0, ms0) (by simp))
      unfold detectOneLevel
      rw [contourLoop_ok c0 ms0 hok]
      rcases hne (c0, ms0) (by simp) with h1 | h1
      · simp only at h1
        simp only [h1, if_false]
        exact ⟨rfl, rfl⟩
      · simp only at h1
        by_cases h2 : storedOf c0 ms0 = []
        · simp only [h2, if_true, h1]
          exact ⟨by simp [hr.1], by simp [hr.2, numbered_nil]⟩
        · simp only [h2, if_false]
          exact ⟨rfl, rfl⟩
  have hd := hdis Regs.empty ⟨rfl, rfl⟩
  obtain ⟨t0, d0, h0, _, rej, h1, h2, h3⟩ := C18_counts_add_up c ms hc
  have hok := completes_iff.1 hc
  have e := detectOneLevel_ok c ms hok (history Regs.empty h)
  have e2 : (if discardedOf c ms = [] then [] else (history Regs.empty h).dTable ++
      numbered (history Regs.empty h).dCalls (discardedOf c ms)) = numbered 0 (discardedOf c ms) := by
    rw [hd.1, hd.2]
    split
    · rename_i h; rw [h]; rfl
    · simp
  rw [e2] at e
  refine ⟨_, rej, discardedOf c ms, e, h1, h2, ?_⟩
  · rw [detectOneLevel_ok c ms hok] at h0
    injection h0 with h0
    injection h0 with _ h0
    rw [← h0] at h3
    have h5 : (if discardedOf c ms = [] then [] else
        (Regs.empty : Regs α).dTable ++ numbered (Regs.empty : Regs α).dCalls
          (discardedOf c ms)).map Prod.snd = discardedOf c ms := by
      split
      · rename_i h; rw [h]; rfl
      · apply List.ext_getElem?
        intro i
        simp [Regs.empty, numbered, List.getElem?_mapIdx, Option.map_map, Function.comp_def]
    rwa [h5] at h3

/-- hypotheses of C21_partial are met with a history that discards a contour -/
example : ∀ p ∈ [(exCrit, [exLarge, exGood 3])], Completes p.1 p.2 ∧ accepted p.1 p.2 ≠ [] := by
  intro p hp
  simp only [List.mem_cons, List.not_mem_nil, or_false] at hp
  subst hp
  constructor
  · rw [completes_iff]
    intro m hm
    simp only [List.mem_cons, List.not_mem_nil, or_false] at hm
    rcases hm with rfl | rfl
    · exact ⟨.discarded .area, by decide +kernel⟩
    · exact ⟨.stored, by decide +kernel⟩
  · rw [ne_eq, ← List.map_eq_nil_iff (f := points), ← storedOf_eq]; decide +kernel

/-! ### C22 -/

theorem passes_mono {c c' : Criteria K} (hr : Relaxes c c') {m : Measures α K} (hrd : 0 ≤ m.rd)
    {r : Reason} (h : Passes c m r) : Passes c' m r := by
  cases r with
  | area =>
    obtain ⟨x, h1, h2⟩ := h
    exact ⟨x, h1, h2.trans (mul_le_mul_of_nonneg_right hr.maxArea hrd)⟩
  | ellipseArea =>
    obtain ⟨x, h1, h2⟩ := h
    refine ⟨x, h1, h2.trans ?_⟩
    have : 1 / 10 * c.ellipseFit * |x| ≤ 1 / 10 * c'.ellipseFit * |x| := by
      apply mul_le_mul_of_nonneg_right _ (abs_nonneg x)
      exact mul_le_mul_of_nonneg_left hr.ellipseFit (by norm_num)
    linarith
  | eccentricity => obtain ⟨x, h1, h2⟩ := h; exact ⟨x, h1, h2.trans hr.eccen⟩
  | similarity => obtain ⟨x, h1, h2⟩ := h; exact ⟨x, h1, h2.trans hr.ellipseFit⟩
  | island => exact h
  | gaussFailed => exact h.imp_left fun h => hr.skip ▸ h
  | gaussCheck =>
    rcases h with h | ⟨x, h1, h2⟩
    · exact Or.inl (hr.skip ▸ h)
    · exact Or.inr ⟨x, h1, hr.gaussFit.trans h2⟩

/-- **C22** relaxing the criteria keeps every stored eddy, in the same relative order. (Positivity of
the deformation radius is C56.) -/
theorem C22_relaxing_keeps_eddies (h h' : List (Criteria K × List (Measures α K)))
    (hh : ∀ p ∈ h, Completes p.1 p.2) (hh' : ∀ p ∈ h', Completes p.1 p.2)
    {c c' : Criteria K} (hr : Relaxes c c') {ms : List (Measures α K)} (hrd : ∀ m ∈ ms, 0 ≤ m.rd)
    (hc : Completes c ms) (hc' : Completes c' ms) :
    ∃ t t' d d', (detectOneLevel c (history Regs.empty h) ms).2 = .ok (t, d) ∧
      (detectOneLevel c' (history Regs.empty h') ms).2 = .ok (t', d') ∧
      (t.map Prod.snd).Sublist (t'.map Prod.snd) := by
  obtain ⟨d, h1⟩ := C19_level_independent_of_history h c ms hh hc
  obtain ⟨d', h2⟩ := C19_level_independent_of_history h' c' ms hh' hc'
  refine ⟨_, _, d, d', h1, h2, ?_⟩
  have hn : ∀ l : List (List α), (numbered 0 l).map Prod.snd = l := by
    intro l
    apply List.ext_getElem?
    intro i
    simp [numbered, List.getElem?_mapIdx, Option.map_map, Function.comp_def]
  rw [hn, hn]
  apply List.Sublist.map
  unfold accepted
  classical
  apply List.Sublist.trans (l₂ := (ms.filter fun m => decide (m.degenerate = false ∧
    ∀ r, Passes c' m r)).filter fun m => decide (m.degenerate = false ∧ ∀ r, Passes c m r))
  · rw [List.filter_filter]
    refine (List.filter_congr ?_).symm ▸ List.Sublist.refl _
    intro m hm
    have : (m.degenerate = false ∧ ∀ r, Passes c m r) →
        (m.degenerate = false ∧ ∀ r, Passes c' m r) :=
      fun h => ⟨h.1, fun r => passes_mono hr (hrd m hm) (h.2 r)⟩
    by_cases hp : m.degenerate = false ∧ ∀ r, Passes c m r
    · simp [hp, this hp]
    · simp [hp]
  · exact List.filter_sublist

example : Relaxes exCrit ⟨9/10, 9/10, 7/10, 1000, false⟩ ∧
    (storedOf exCrit [exPoint, exGood 0, exLarge, exGood 7]).length = 2 ∧
    (storedOf ⟨9/10, 9/10, 7/10, 1000, false⟩ [exPoint, exGood 0, exLarge, exGood 7]).length = 3 := by
  refine ⟨⟨?_, ?_, ?_, ?_, rfl⟩, ?_, ?_⟩ <;> decide +kernel

/-! ### C23 -/

/-- **C23** is false: a contour that coincides with its fitted ellipse (similarity 1) is rejected by the
similarity test for every threshold below 1, in particular the default 0.85. -/
theorem C23_refuted (c : Criteria K) (hc : c.ellipseFit < 1) (m : Measures α K)
    (hd : m.degenerate = false) (h1 : Passes c m .area) (h2 : Passes c m .ellipseArea)
    (h3 : Passes c m .eccentricity) (hsim : m.ellSim = .ok 1) :
    verdict c m = .ok (.discarded .similarity) := by
  rw [verdict_discarded]
  refine ⟨hd, ⟨1, hsim, not_le.2 hc⟩, ?_⟩
  simpa [order, List.takeWhile] using ⟨h1, h2, h3⟩

example : verdict exCrit { exGood 0 with ellSim := .ok 1 } = .ok (.discarded .similarity) := by
  decide +kernel

/-- **C23** the direction of the test is reversed: of two contours that differ only in their similarity
with the ellipse, whenever the more similar one is stored so is the less similar one. -/
theorem C23_less_similar_preferred (c : Criteria K) (m : Measures α K) {s s' : K} (hss : s' ≤ s)
    (h : verdict c { m with ellSim := .ok s } = .ok .stored) :
    verdict c { m with ellSim := .ok s' } = .ok .stored := by
  rw [verdict_stored] at h ⊢
  refine ⟨h.1, fun r => ?_⟩
  cases r with
  | similarity =>
    obtain ⟨x, h1, h2⟩ := h.2 .similarity
    injection h1 with h1
    exact ⟨s', rfl, hss.trans (h1 ▸ h2)⟩
  | area => exact h.2 .area
  | ellipseArea => exact h.2 .ellipseArea
  | eccentricity => exact h.2 .eccentricity
  | island => exact h.2 .island
  | gaussFailed => exact h.2 .gaussFailed
  | gaussCheck => exact h.2 .gaussCheck

/-- **C23, partial**: with `ellipse_fit ≥ 1` no contour is rejected by the similarity test (similarities
are at most 1, C28). Missing: thresholds below 1 (false, see `C23_refuted`). -/
theorem C23_partial (c : Criteria K) (hc : 1 ≤ c.ellipseFit) (m : Measures α K) {s : K}
    (hs : m.ellSim = .ok s) (hs1 : s ≤ 1) : verdict c m ≠ .ok (.discarded .similarity) := by
  intro h
  obtain ⟨_, ⟨x, h1, h2⟩, _⟩ := verdict_discarded.1 h
  rw [hs] at h1
  injection h1 with h1
  exact h2 (h1 ▸ hs1.trans hc)

example : verdict { exCrit with ellipseFit := 1 } { exGood 0 with ellSim := .ok 1 } = .ok .stored := by
  decide +kernel

/-! ### C64 -/

/-- **C64** is false: with the Gaussian fit skipped (every stored eddy has Gaussian score 0) no duplicate
ever replaces an existing eddy, however much better its ellipse score is; the merged snapshot is the
old one followed by the new eddies without neighbour. -/
theorem C64_refuted {Pt : Type} {E : Env α K Pt} (hnn : IsNN E.dist E.nn) {joint cur : Tbl α}
    {Js Ns : List (Eddy α)} (hJ : ∀ e ∈ Js, e ≠ []) (hN : ∀ e ∈ Ns, e ≠ [])
    (hJ0 : Js ≠ []) (hN0 : Ns ≠ []) (hjoint : joint.rows = snapRows Js) (hjwf : joint.WF)
    (hcur : cur.rows = snapRows Ns) (hcwf : cur.WF)
    (h0 : ∀ v ∈ heads Js ++ heads Ns, E.gauErr v = some 0) :
    ∃ (t : Tbl α) (tgt : Nat → Nat) (is : List Nat), mergeLevel E joint cur = .ok t ∧
      NearestChoice E.dist E.pos (heads Js) (heads Ns) tgt ∧
      (∀ i, i ∈ is ↔ i < Ns.length ∧ ¬ Near E.dist E.pos E.radius (heads Js) (heads Ns) tgt i) ∧
      is.Pairwise (· < ·) ∧ t.rows = snapRows (Js ++ is.filterMap fun i => Ns[i]?) := by
  have hno : ∀ tgt i, ¬ Lower E.ellErr E.gauErr (heads Js) (heads Ns) tgt i := by
    rintro tgt i ⟨v, u, hv, hu, _, h⟩
    rw [h0 v (List.mem_append_right _ (List.mem_of_getElem? hv)),
      h0 u (List.mem_append_left _ (List.mem_of_getElem? hu))] at h
    obtain ⟨x, y, hx, hy, hlt⟩ := h
    rw [← Option.some.inj hx, ← Option.some.inj hy] at hlt
    exact lt_irrefl _ hlt
  obtain ⟨t, R, tgt, h1, _, h2, _, h3, h4⟩ := C13_merge_rule hnn hJ hN hJ0 hN0 hjoint hjwf hcur hcwf
    (fun tgt _ i _ i' _ _ h => absurd h (hno tgt i))
  obtain ⟨is, hp, hm, R', hR, hl⟩ := h4.appended
  refine ⟨t, tgt, is, h1, h3, hm, hp, ?_⟩
  rw [h2, hR]
  congr 2
  apply List.ext_getElem?
  intro j
  by_cases hj : j < Js.length
  · have := h4.kept j hj (fun i _ _ h => absurd h (hno tgt i))
    rw [← this, hR, List.getElem?_append_left (by omega)]
  · rw [List.getElem?_eq_none (by omega), List.getElem?_eq_none (by omega)]

/-- the duplicate at 1 has the lower ellipse score but does not replace the eddy at 0 -/
example : summaryM (mergeLevel exEnvM
    (Tbl.resetSet ⟨[], snapRows [[(0, 6371 * 2, 9/10, 0)]]⟩)
    (Tbl.resetSet ⟨[], snapRows [[(1, 6371 * 2, 1/10, 0)], [(30, 6371 * 2, 1/10, 0)]]⟩)) =
    .ok [(0, 0, 9/10), (1, 30, 1/10)] := by decide +kernel

end Trackeddy
