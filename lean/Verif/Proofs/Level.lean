import Verif.Spec.Level
import Verif.Proofs.Snapshot
import Mathlib.Algebra.Order.Ring.Abs
import Mathlib.Tactic.Linarith

/-! Lemmas on the detection of one level. -/
namespace Trackeddy
open Spec

variable {α K : Type} [Field K] [LinearOrder K] [IsStrictOrderedRing K]

theorem verdict_stored {c : Criteria K} {m : Measures α K} :
    verdict c m = .ok .stored ↔ m.degenerate = false ∧ ∀ r, Passes c m r := by
  constructor
  · intro h
    unfold verdict at h
    cases hd : m.degenerate with
    | true => simp [hd] at h
    | false =>
      simp only [hd, Bool.false_eq_true, if_false] at h
      refine ⟨rfl, ?_⟩
      cases h1 : m.radius with
      | error e => rw [h1] at h; cases h
      | ok x1 =>
      simp only [h1, bind, Except.bind] at h
      split at h
      · cases h
      rename_i n1
      cases h2 : m.areaEllipse with
      | error e => simp only [h2] at h; cases h
      | ok x2 =>
      simp only [h2] at h
      split at h
      · cases h
      rename_i n2
      cases h3 : m.eccen with
      | error e => simp only [h3] at h; cases h
      | ok x3 =>
      simp only [h3] at h
      split at h
      · cases h
      rename_i n3
      cases h4 : m.ellSim with
      | error e => simp only [h4] at h; cases h
      | ok x4 =>
      simp only [h4] at h
      split at h
      · cases h
      rename_i n4
      cases h5 : m.maxima with
      | error e => simp only [h5] at h; cases h
      | ok x5 =>
      simp only [h5] at h
      split at h
      · cases h
      rename_i n5
      have base : ∀ r, r ≠ .gaussFailed → r ≠ .gaussCheck → Passes c m r := by
        intro r hr1 hr2
        cases r with
        | area => exact ⟨x1, h1, not_lt.1 n1⟩
        | ellipseArea => exact ⟨x2, h2, by simpa [isclose] using n2⟩
        | eccentricity => exact ⟨x3, h3, not_lt.1 n3⟩
        | similarity => exact ⟨x4, h4, not_lt.1 n4⟩
        | island => exact ⟨x5, h5, n5⟩
        | gaussFailed => exact absurd rfl hr1
        | gaussCheck => exact absurd rfl hr2
      split at h
      · rename_i n6
        intro r
        cases r <;> first | exact base _ (by decide) (by decide) | exact Or.inl n6
      · cases h6 : m.gauss with
        | error e => simp only [h6] at h; cases h
        | ok g =>
          cases g with
          | none => simp only [h6] at h; cases h
          | some g =>
            simp only [h6] at h
            split at h
            · cases h
            rename_i n7
            intro r
            cases r <;> first | exact base _ (by decide) (by decide) | skip
            · exact Or.inr ⟨g, h6⟩
            · exact Or.inr ⟨g, h6, not_lt.1 n7⟩
  · rintro ⟨hd, h⟩
    obtain ⟨x1, h1, n1⟩ := h .area
    obtain ⟨x2, h2, n2⟩ := h .ellipseArea
    obtain ⟨x3, h3, n3⟩ := h .eccentricity
    obtain ⟨x4, h4, n4⟩ := h .similarity
    obtain ⟨x5, h5, n5⟩ := h .island
    unfold verdict
    have n2' : isclose m.area x2 (1 / 10 * c.ellipseFit) = true := by simpa [isclose] using n2
    simp only [hd, Bool.false_eq_true, if_false, h1, h2, h3, h4, h5, bind, Except.bind, not_lt.2 n1,
      n2', not_lt.2 n3, not_lt.2 n4, n5, Bool.not_true, gt_iff_lt]
    rcases h .gaussCheck with n6 | ⟨g, h6, n7⟩
    · simp [n6, pure, Except.pure]
    · cases n6 : c.skipGauss
      · simp [h6, not_lt.2 n7, pure, Except.pure]
      · simp [pure, Except.pure]

theorem verdict_skipped {c : Criteria K} {m : Measures α K} :
    verdict c m = .ok .skipped ↔ m.degenerate = true := by
  unfold verdict
  cases hd : m.degenerate with
  | true => simp
  | false =>
    simp only [Bool.false_eq_true, if_false, iff_false]
    intro h
    cases h1 : m.radius with
    | error e => rw [h1] at h; cases h
    | ok x1 =>
    simp only [h1, bind, Except.bind] at h
    split at h
    · cases h
    cases h2 : m.areaEllipse with
    | error e => simp only [h2] at h; cases h
    | ok x2 =>
    simp only [h2] at h
    split at h
    · cases h
    cases h3 : m.eccen with
    | error e => simp only [h3] at h; cases h
    | ok x3 =>
    simp only [h3] at h
    split at h
    · cases h
    cases h4 : m.ellSim with
    | error e => simp only [h4] at h; cases h
    | ok x4 =>
    simp only [h4] at h
    split at h
    · cases h
    cases h5 : m.maxima with
    | error e => simp only [h5] at h; cases h
    | ok x5 =>
    simp only [h5] at h
    split at h
    · cases h
    split at h
    · cases h
    cases h6 : m.gauss with
    | error e => simp only [h6] at h; cases h
    | ok g =>
      cases g with
      | none => simp only [h6] at h; cases h
      | some g =>
        simp only [h6] at h
        split at h <;> cases h

theorem verdict_discarded {c : Criteria K} {m : Measures α K} {r : Reason} :
    verdict c m = .ok (.discarded r) ↔ m.degenerate = false ∧ Fails c m r ∧
      ∀ r' ∈ order.takeWhile (· ≠ r), Passes c m r' := by
  constructor
  · intro h
    unfold verdict at h
    cases hd : m.degenerate with
    | true => simp [hd] at h
    | false =>
      refine ⟨rfl, ?_⟩
      simp only [hd, Bool.false_eq_true, if_false] at h
      cases h1 : m.radius with
      | error e => rw [h1] at h; cases h
      | ok x1 =>
      simp only [h1, bind, Except.bind] at h
      split at h
      · rename_i n1
        injection h with h; injection h with h; subst h
        exact ⟨⟨x1, h1, not_le.2 n1⟩, by simp [order]⟩
      rename_i n1
      have p1 : Passes c m .area := ⟨x1, h1, not_lt.1 n1⟩
      cases h2 : m.areaEllipse with
      | error e => simp only [h2] at h; cases h
      | ok x2 =>
      simp only [h2] at h
      split at h
      · rename_i n2
        injection h with h; injection h with h; subst h
        refine ⟨⟨x2, h2, by simpa [isclose] using n2⟩, ?_⟩
        simpa [order, List.takeWhile] using p1
      rename_i n2
      have p2 : Passes c m .ellipseArea := ⟨x2, h2, by simpa [isclose] using n2⟩
      cases h3 : m.eccen with
      | error e => simp only [h3] at h; cases h
      | ok x3 =>
      simp only [h3] at h
      split at h
      · rename_i n3
        injection h with h; injection h with h; subst h
        refine ⟨⟨x3, h3, not_le.2 n3⟩, ?_⟩
        simpa [order, List.takeWhile] using ⟨p1, p2⟩
      rename_i n3
      have p3 : Passes c m .eccentricity := ⟨x3, h3, not_lt.1 n3⟩
      cases h4 : m.ellSim with
      | error e => simp only [h4] at h; cases h
      | ok x4 =>
      simp only [h4] at h
      split at h
      · rename_i n4
        injection h with h; injection h with h; subst h
        refine ⟨⟨x4, h4, not_le.2 n4⟩, ?_⟩
        simpa [order, List.takeWhile] using ⟨p1, p2, p3⟩
      rename_i n4
      have p4 : Passes c m .similarity := ⟨x4, h4, not_lt.1 n4⟩
      cases h5 : m.maxima with
      | error e => simp only [h5] at h; cases h
      | ok x5 =>
      simp only [h5] at h
      split at h
      · rename_i n5
        injection h with h; injection h with h; subst h
        refine ⟨by unfold Fails; rw [h5, n5], ?_⟩
        simpa [order, List.takeWhile] using ⟨p1, p2, p3, p4⟩
      rename_i n5
      have p5 : Passes c m .island := ⟨x5, h5, n5⟩
      split at h
      · cases h
      rename_i n6
      have n6 : c.skipGauss = false := by simpa using n6
      cases h6 : m.gauss with
      | error e => simp only [h6] at h; cases h
      | ok g =>
        cases g with
        | none =>
          simp only [h6] at h
          injection h with h; injection h with h; subst h
          refine ⟨⟨n6, h6⟩, ?_⟩
          simpa [order, List.takeWhile] using ⟨p1, p2, p3, p4, p5⟩
        | some g =>
          simp only [h6] at h
          split at h
          · rename_i n7
            injection h with h; injection h with h; subst h
            refine ⟨⟨n6, g, h6, not_le.2 n7⟩, ?_⟩
            have p6 : Passes c m .gaussFailed := Or.inr ⟨g, h6⟩
            simpa [order, List.takeWhile] using ⟨p1, p2, p3, p4, p5, p6⟩
          · cases h
  · rintro ⟨hd, hf, hp⟩
    unfold verdict
    simp only [hd, Bool.false_eq_true, if_false]
    cases r with
    | area =>
      obtain ⟨x1, h1, n1⟩ := hf
      simp [-one_div, h1, bind, Except.bind, not_le.1 n1, pure, Except.pure]
    | ellipseArea =>
      obtain ⟨x2, h2, n2⟩ := hf
      simp [order, List.takeWhile] at hp
      obtain ⟨x1, h1, n1⟩ := hp
      have n2' : isclose m.area x2 (1 / 10 * c.ellipseFit) = false := by
        simpa [isclose] using n2
      simp [-one_div, h1, h2, bind, Except.bind, not_lt.2 n1, n2', pure, Except.pure]
    | eccentricity =>
      obtain ⟨x3, h3, n3⟩ := hf
      simp [order, List.takeWhile] at hp
      obtain ⟨⟨x1, h1, n1⟩, ⟨x2, h2, n2⟩⟩ := hp
      have n2' : isclose m.area x2 (1 / 10 * c.ellipseFit) = true := by simpa [isclose] using n2
      simp [-one_div, h1, h2, h3, bind, Except.bind, not_lt.2 n1, n2', not_le.1 n3, pure, Except.pure]
    | similarity =>
      obtain ⟨x4, h4, n4⟩ := hf
      simp [order, List.takeWhile] at hp
      obtain ⟨⟨x1, h1, n1⟩, ⟨x2, h2, n2⟩, ⟨x3, h3, n3⟩⟩ := hp
      have n2' : isclose m.area x2 (1 / 10 * c.ellipseFit) = true := by simpa [isclose] using n2
      simp [-one_div, h1, h2, h3, h4, bind, Except.bind, not_lt.2 n1, n2', not_lt.2 n3, not_le.1 n4, pure,
        Except.pure]
    | island =>
      simp [order, List.takeWhile] at hp
      obtain ⟨⟨x1, h1, n1⟩, ⟨x2, h2, n2⟩, ⟨x3, h3, n3⟩, ⟨x4, h4, n4⟩⟩ := hp
      have n2' : isclose m.area x2 (1 / 10 * c.ellipseFit) = true := by simpa [isclose] using n2
      have h5 : m.maxima = .ok 0 := hf
      simp [-one_div, h1, h2, h3, h4, h5, bind, Except.bind, not_lt.2 n1, n2', not_lt.2 n3, not_lt.2 n4, pure,
        Except.pure]
    | gaussFailed =>
      simp [order, List.takeWhile] at hp
      obtain ⟨⟨x1, h1, n1⟩, ⟨x2, h2, n2⟩, ⟨x3, h3, n3⟩, ⟨x4, h4, n4⟩, ⟨x5, h5, n5⟩⟩ := hp
      have n2' : isclose m.area x2 (1 / 10 * c.ellipseFit) = true := by simpa [isclose] using n2
      obtain ⟨n6, h6⟩ := hf
      simp [-one_div, h1, h2, h3, h4, h5, h6, n5, n6, bind, Except.bind, not_lt.2 n1, n2', not_lt.2 n3,
        not_lt.2 n4, pure, Except.pure]
    | gaussCheck =>
      simp [order, List.takeWhile] at hp
      obtain ⟨⟨x1, h1, n1⟩, ⟨x2, h2, n2⟩, ⟨x3, h3, n3⟩, ⟨x4, h4, n4⟩, ⟨x5, h5, n5⟩, _⟩ := hp
      have n2' : isclose m.area x2 (1 / 10 * c.ellipseFit) = true := by simpa [isclose] using n2
      obtain ⟨n6, g, h6, n7⟩ := hf
      simp [-one_div, h1, h2, h3, h4, h5, h6, n5, n6, bind, Except.bind, not_lt.2 n1, n2', not_lt.2 n3,
        not_lt.2 n4, not_le.1 n7, pure, Except.pure]

/-! ### the loop -/

/-- payloads of the stored contours of a level -/
def storedOf (c : Criteria K) (ms : List (Measures α K)) : List (List α) :=
  (ms.filter fun m => verdict c m = .ok .stored).map fun m => m.row0 :: m.rows

/-- reasons of the discarded contours of a level -/
def discardedOf (c : Criteria K) (ms : List (Measures α K)) : List Reason :=
  ms.filterMap fun m => match verdict c m with
    | .ok (.discarded r) => some r
    | _ => none

theorem numbered_nil {β : Type} (n : Nat) : numbered n ([] : List β) = [] := rfl

theorem numbered_cons {β : Type} (n : Nat) (a : β) (l : List β) :
    numbered n (a :: l) = (n, a) :: numbered (n + 1) l := by
  unfold numbered
  rw [List.mapIdx_cons]
  simp only [Nat.add_zero, List.cons.injEq, true_and]
  congr 1
  funext i x
  rw [Nat.add_assoc, Nat.add_comm 1]

theorem numbered_length {β : Type} (n : Nat) (l : List β) : (numbered n l).length = l.length := by
  simp [numbered]

/-- effect of the loop when no exception occurs -/
theorem contourLoop_ok (c : Criteria K) (ms : List (Measures α K))
    (hok : ∀ m ∈ ms, ∃ v, verdict c m = .ok v) (r : Regs α) (l : Locals α) :
    contourLoop c ms (r, l) =
      (⟨r.sCalls + (storedOf c ms).length, r.sTable ++ numbered r.sCalls (storedOf c ms),
        r.dCalls + (discardedOf c ms).length, r.dTable ++ numbered r.dCalls (discardedOf c ms)⟩,
       .ok ⟨if storedOf c ms = [] then l.info else some (r.sTable ++ numbered r.sCalls (storedOf c ms)),
        if discardedOf c ms = [] then l.disc
          else some (r.dTable ++ numbered r.dCalls (discardedOf c ms))⟩) := by
  induction ms generalizing r l with
  | nil => simp [contourLoop, storedOf, discardedOf, numbered_nil]
  | cons m ms ih =>
    obtain ⟨v, hv⟩ := hok m (by simp)
    have ih := ih (fun m hm => hok m (by simp [hm]))
    unfold contourLoop contourStep
    rw [hv]
    cases v with
    | skipped =>
      have e1 : storedOf c (m :: ms) = storedOf c ms := by simp [storedOf, hv]
      have e2 : discardedOf c (m :: ms) = discardedOf c ms := by simp [discardedOf, hv]
      simp only
      rw [ih, e1, e2]
    | stored =>
      have e1 : storedOf c (m :: ms) = (m.row0 :: m.rows) :: storedOf c ms := by simp [storedOf, hv]
      have e2 : discardedOf c (m :: ms) = discardedOf c ms := by simp [discardedOf, hv]
      simp only
      rw [ih, e1, e2]
      simp only [numbered_cons, List.append_assoc, List.singleton_append, List.length_cons,
        Prod.mk.injEq, Regs.mk.injEq, Except.ok.injEq, Locals.mk.injEq, List.cons_ne_nil, reduceCtorEq,
        if_false, and_true, true_and]
      refine ⟨by omega, ?_⟩
      by_cases h : storedOf c ms = []
      · simp [h, numbered_nil]
      · simp [h]
    | discarded rr =>
      have e1 : storedOf c (m :: ms) = storedOf c ms := by simp [storedOf, hv]
      have e2 : discardedOf c (m :: ms) = rr :: discardedOf c ms := by simp [discardedOf, hv]
      simp only
      rw [ih, e1, e2]
      simp only [numbered_cons, List.append_assoc, List.singleton_append, List.length_cons,
        Prod.mk.injEq, Regs.mk.injEq, Except.ok.injEq, Locals.mk.injEq, List.cons_ne_nil, reduceCtorEq,
        if_false, and_true, true_and]
      refine ⟨by omega, ?_⟩
      by_cases h : discardedOf c ms = []
      · simp [h, numbered_nil]
      · simp [h]

/-- a completed loop: every contour has a verdict -/
theorem contourLoop_complete (c : Criteria K) (ms : List (Measures α K)) {st : Regs α × Locals α}
    {l : Locals α} (h : (contourLoop c ms st).2 = .ok l) : ∀ m ∈ ms, ∃ v, verdict c m = .ok v := by
  induction ms generalizing st with
  | nil => simp
  | cons m ms ih =>
    unfold contourLoop at h
    cases hv : verdict c m with
    | error e => simp [contourStep, hv] at h
    | ok v =>
      intro m' hm'
      rcases List.mem_cons.1 hm' with rfl | hm'
      · exact ⟨v, hv⟩
      · cases v <;> simp only [contourStep, hv] at h <;> exact ih h m' hm'

/-- an interrupted loop: the contours before the one that raised have been registered -/
theorem contourLoop_err (c : Criteria K) (pre : List (Measures α K)) (m : Measures α K)
    (post : List (Measures α K)) {e : PyErr} (hpre : ∀ m ∈ pre, ∃ v, verdict c m = .ok v)
    (hm : verdict c m = .error e) (r : Regs α) (l : Locals α) :
    contourLoop c (pre ++ m :: post) (r, l) =
      (⟨r.sCalls + (storedOf c pre).length, r.sTable ++ numbered r.sCalls (storedOf c pre),
        r.dCalls + (discardedOf c pre).length, r.dTable ++ numbered r.dCalls (discardedOf c pre)⟩,
       .error e) := by
  have happ : ∀ (ms ms' : List (Measures α K)) (st : Regs α × Locals α),
      contourLoop c (ms ++ ms') st = match contourLoop c ms st with
        | (r, .error e) => (r, .error e)
        | (r, .ok l) => contourLoop c ms' (r, l) := by
    intro ms ms'
    induction ms with
    | nil => intro st; rfl
    | cons a ms ih =>
      intro st
      cases hs : contourStep c st a with
      | mk r x => cases x with
        | error e => simp only [List.cons_append, contourLoop, hs]
        | ok l => simp only [List.cons_append, contourLoop, hs]; exact ih (r, l)
  rw [happ, contourLoop_ok c pre hpre]
  simp only
  unfold contourLoop contourStep
  rw [hm]

theorem detectOneLevel_ok (c : Criteria K) (ms : List (Measures α K))
    (hok : ∀ m ∈ ms, ∃ v, verdict c m = .ok v) (r : Regs α) :
    (detectOneLevel c r ms).2 = .ok
      (if storedOf c ms = [] then [] else r.sTable ++ numbered r.sCalls (storedOf c ms),
       if discardedOf c ms = [] then [] else r.dTable ++ numbered r.dCalls (discardedOf c ms)) := by
  unfold detectOneLevel
  rw [contourLoop_ok c ms hok]
  by_cases h1 : storedOf c ms = [] <;> by_cases h2 : discardedOf c ms = [] <;> simp [h1, h2]

theorem detectOneLevel_complete {c : Criteria K} {ms : List (Measures α K)} {r : Regs α}
    {x : List (Nat × List α) × List (Nat × Reason)} (h : (detectOneLevel c r ms).2 = .ok x) :
    ∀ m ∈ ms, ∃ v, verdict c m = .ok v := by
  unfold detectOneLevel at h
  cases hl : contourLoop c ms (r, ⟨none, none⟩) with
  | mk r' y =>
    cases y with
    | error e => rw [hl] at h; cases h
    | ok l =>
      exact contourLoop_complete c ms (st := (r, ⟨none, none⟩)) (l := l) (by rw [hl])

/-- the store register is empty -/
def StoreEmpty (r : Regs α) : Prop := r.sCalls = 0 ∧ r.sTable = []

theorem storeEmpty_step {c : Criteria K} {ms : List (Measures α K)} {r : Regs α} (hr : StoreEmpty r)
    {x : List (Nat × List α) × List (Nat × Reason)} (h : (detectOneLevel c r ms).2 = .ok x) :
    StoreEmpty (detectOneLevel c r ms).1 := by
  have hok := detectOneLevel_complete h
  unfold detectOneLevel
  rw [contourLoop_ok c ms hok]
  by_cases h1 : storedOf c ms = []
  · simp only [h1, if_true]
    exact ⟨by simp [hr.1], by simp [hr.2, numbered_nil]⟩
  · simp only [h1, if_false]
    exact ⟨rfl, rfl⟩

theorem storeEmpty_history (h : List (Criteria K × List (Measures α K))) {r : Regs α}
    (hr : StoreEmpty r)
    (hok : ∀ p ∈ h, ∀ m ∈ p.2, ∃ v, verdict p.1 m = .ok v) : StoreEmpty (history r h) := by
  induction h generalizing r with
  | nil => exact hr
  | cons p h ih =>
    obtain ⟨c, ms⟩ := p
    unfold history
    apply ih _ (fun p hp => hok p (by simp [hp]))
    exact storeEmpty_step hr (detectOneLevel_ok c ms (hok (c, ms) (by simp)) r)


/-! ### connection with the specification -/

theorem verdict_discarded' {c : Criteria K} {m : Measures α K} {r : Reason} :
    verdict c m = .ok (.discarded r) ↔ m.degenerate = false ∧ FirstFailed c m r := verdict_discarded

theorem completes_iff {c : Criteria K} {ms : List (Measures α K)} :
    Completes c ms ↔ ∀ m ∈ ms, ∃ v, verdict c m = .ok v := by
  unfold Completes
  refine forall₂_congr fun m _ => ?_
  constructor
  · intro h
    cases hd : m.degenerate with
    | true => exact ⟨_, verdict_skipped.2 hd⟩
    | false =>
      rcases h with h | h | ⟨r, h⟩
      · rw [hd] at h; cases h
      · exact ⟨_, verdict_stored.2 ⟨hd, h⟩⟩
      · exact ⟨_, verdict_discarded'.2 ⟨hd, h⟩⟩
  · rintro ⟨v, hv⟩
    cases v with
    | skipped => exact Or.inl (verdict_skipped.1 hv)
    | stored => exact Or.inr (Or.inl (verdict_stored.1 hv).2)
    | discarded r => exact Or.inr (Or.inr ⟨r, (verdict_discarded'.1 hv).2⟩)

theorem storedOf_eq (c : Criteria K) (ms : List (Measures α K)) :
    storedOf c ms = (accepted c ms).map points := by
  unfold storedOf accepted
  classical
  have : (fun m : Measures α K => decide (verdict c m = .ok .stored)) =
      fun m => decide (m.degenerate = false ∧ ∀ r, Passes c m r) := by
    funext m
    exact decide_eq_decide.2 verdict_stored
  rw [this]
  rfl

theorem levelFrame_rows (es : List (List α)) : (levelFrame (numbered 0 es)).rows = snapRows es := by
  unfold levelFrame Tbl.resetSet snapRows numbered
  simp only [List.flatMap_def]
  congr 1
  apply List.ext_getElem?
  intro i
  simp only [List.getElem?_map, List.getElem?_mapIdx, Option.map_map, Nat.zero_add]
  rfl

theorem levelFrame_level {es : List (List α)} (h : ∀ e ∈ es, e ≠ []) :
    LevelTable (levelFrame (numbered 0 es)) :=
  ⟨es, h, levelFrame_rows es, rfl⟩

theorem detectOneLevel_err {c : Criteria K} {ms : List (Measures α K)} {r : Regs α} {e : PyErr}
    (h : (detectOneLevel c r ms).2 = .error e) (r' : Regs α) :
    (detectOneLevel c r' ms).2 = .error e := by
  have key : ∀ (ms : List (Measures α K)) (st st' : Regs α × Locals α),
      (contourLoop c ms st).2 = .error e → (contourLoop c ms st').2 = .error e := by
    intro ms
    induction ms with
    | nil => intro st st' h; simp [contourLoop] at h
    | cons m ms ih =>
      intro st st' h
      unfold contourLoop contourStep at h ⊢
      cases hv : verdict c m with
      | error e' => simpa [hv] using h
      | ok v => cases v <;> simp only [hv] at h ⊢ <;> exact ih _ _ h
  unfold detectOneLevel at h ⊢
  cases hl : contourLoop c ms (r, ⟨none, none⟩) with
  | mk r1 y =>
    cases y with
    | ok l => rw [hl] at h; simp only at h; split at h <;> cases h
    | error e' =>
      rw [hl] at h
      injection h with h
      subst h
      have := key ms (r, ⟨none, none⟩) (r', ⟨none, none⟩) (by rw [hl])
      cases hl' : contourLoop c ms (r', ⟨none, none⟩) with
      | mk r2 y' => rw [hl'] at this; simp only at this; rw [this]

/-- Detection of a level as a function of its contours only: what a fresh interpreter returns. -/
def pureLevel (c : Criteria K) (ms : List (Measures α K)) : Except PyErr (Tbl α) :=
  (detectOneLevel c Regs.empty ms).2.map fun x => levelFrame x.1

theorem storedOf_ne (c : Criteria K) (ms : List (Measures α K)) : ∀ e ∈ storedOf c ms, e ≠ [] := by
  intro e he
  obtain ⟨m, _, rfl⟩ := List.mem_map.1 he
  simp

/-- with an empty store register the stored table does not depend on the registers -/
theorem detectOneLevel_pure {c : Criteria K} {ms : List (Measures α K)} {r : Regs α}
    (hr : StoreEmpty r) :
    ((detectOneLevel c r ms).2.map fun x => levelFrame x.1) = pureLevel c ms := by
  unfold pureLevel
  cases h : (detectOneLevel c r ms).2 with
  | error e => rw [detectOneLevel_err h Regs.empty]
  | ok x =>
    have hok := detectOneLevel_complete h
    rw [detectOneLevel_ok c ms hok] at h ⊢
    injection h with h
    subst h
    simp [Except.map, hr.1, hr.2, Regs.empty]

theorem pureLevel_level {c : Criteria K} {ms : List (Measures α K)} {t : Tbl α}
    (h : pureLevel c ms = .ok t) : LevelTable t := by
  unfold pureLevel at h
  cases hx : (detectOneLevel c Regs.empty ms).2 with
  | error e => rw [hx] at h; cases h
  | ok x =>
    have hok := detectOneLevel_complete hx
    rw [detectOneLevel_ok c ms hok] at h
    injection h with h
    subst h
    have : (if storedOf c ms = [] then [] else
        (Regs.empty : Regs α).sTable ++ numbered (Regs.empty : Regs α).sCalls (storedOf c ms)) =
        numbered 0 (storedOf c ms) := by
      by_cases h : storedOf c ms = [] <;> simp [h, numbered_nil, Regs.empty]
    simp only [this]
    exact levelFrame_level (storedOf_ne c ms)

theorem detectSnapshotR_strong {Pt : Type} [DecidableEq K] (E : Env α K Pt) (c : Criteria K)
    (contours : K → List (Measures α K)) (levels : List K) {regs : Regs α} (hr : StoreEmpty regs) :
    (detectSnapshotR E c contours levels regs).2 =
      detectSnapshot E (fun l => pureLevel c (contours l)) levels ∧
      ((∃ t, (detectSnapshotR E c contours levels regs).2 = .ok t) ∨
        (∀ l ∈ levels, l ≠ 0 → Completes c (contours l)) →
        StoreEmpty (detectSnapshotR E c contours levels regs).1) := by
  have hls : ∀ l ∈ levels.filter (· ≠ 0), l ∈ levels ∧ l ≠ 0 := by
    intro l hl; simpa using hl
  unfold detectSnapshotR detectSnapshot
  generalize levels.filter (· ≠ 0) = ls at hls
  induction ls using List.reverseRecOn with
  | nil => exact ⟨rfl, fun _ => hr⟩
  | append_singleton ls l ih =>
    have ih := ih (fun l hl => hls l (by simp [hl]))
    have hl := hls l (by simp)
    rw [List.foldl_append, foldlM_snoc]
    simp only [List.foldl_cons, List.foldl_nil]
    generalize hF : List.foldl _ (regs, _) ls = F at ih ⊢
    obtain ⟨r, y⟩ := F
    obtain ⟨ih1, ih2⟩ := ih
    simp only at ih1 ih2
    cases y with
    | error e =>
      simp only
      rw [← ih1]
      refine ⟨rfl, ?_⟩
      rintro (⟨t, ht⟩ | h)
      · cases ht
      · exact ih2 (Or.inr h)
    | ok joint =>
      rw [← ih1]
      have hse := ih2 (Or.inl ⟨joint, rfl⟩)
      have hp := detectOneLevel_pure (c := c) (ms := contours l) hse
      cases hd : detectOneLevel c r (contours l) with
      | mk r' z =>
        rw [hd] at hp
        cases z with
        | error e =>
          simp only [hd]
          refine ⟨?_, ?_⟩
          · simp only [Except.bind, levelStep]
            rw [← hp]; rfl
          · rintro (⟨t, ht⟩ | h)
            · cases ht
            · have := detectOneLevel_ok c (contours l) (completes_iff.1 (h l hl.1 hl.2)) r
              rw [hd] at this; cases this
        | ok x =>
          simp only [hd]
          refine ⟨?_, fun _ => ?_⟩
          · simp only [Except.bind, levelStep]
            rw [← hp]; rfl
          · have := storeEmpty_step (c := c) (ms := contours l) hse (x := x) (by rw [hd])
            rw [hd] at this; exact this

theorem detectSnapshotR_refines {Pt : Type} [DecidableEq K] (E : Env α K Pt) (c : Criteria K)
    (contours : K → List (Measures α K)) (levels : List K) {regs : Regs α} (hr : StoreEmpty regs) :
    (detectSnapshotR E c contours levels regs).2 =
      detectSnapshot E (fun l => pureLevel c (contours l)) levels ∧
    ((∀ l ∈ levels, l ≠ 0 → Completes c (contours l)) →
      StoreEmpty (detectSnapshotR E c contours levels regs).1) :=
  ⟨(detectSnapshotR_strong E c contours levels hr).1,
    fun h => (detectSnapshotR_strong E c contours levels hr).2 (Or.inr h)⟩

end Trackeddy
