import Verif.Proofs.Merge

/-!
Further facts on the tracking loop: what a step does to the rows, independence of `tf` and `ntimes`,
offline mode.
-/
namespace Trackeddy
open Spec Tbl

variable {α K Pt : Type} [Field K] [LinearOrder K] [IsStrictOrderedRing K]

/-- the identifiers given by a step -/
def stepAssign (E : Env α K Pt) (T : Tbl (Int × α)) (k : Nat) (cs : List α) : Nat → Nat :=
  assign k (cs.map fun v => E.nn (endsOf E T k) (E.pos v)) (nearB E (endsOf E T k) cs)

theorem stamp_first (t : Int) (C : Tbl α) :
    ((stamp t C).first.map fun r => r.val.2) = C.first.map Row.val := by
  unfold stamp Tbl.first Tbl.resetSet
  simp only
  rw [List.filter_map, List.map_map]
  rfl

/-- The three cases of a successful step in online mode. -/
theorem loopStep_cases {E : Env α K Pt} (hnn : IsNN E.dist E.nn) {snap : Int → Except PyErr (Tbl α)}
    {tf : Option Int} {ntimes : Int} {ts : List Int} {s s' : LoopState α} {t : Int}
    (hinv : Inv snap ts s) (hsnap : SnapRows (rowsAt snap t))
    (h : loopStep E snap tf ntimes true s t = .ok s') :
    ∃ C, snap t = .ok C ∧ (
      (C.rows = [] ∧ s'.table = s.table) ∨
      (C.rows ≠ [] ∧ s.table.rows = [] ∧
        s'.table = Tbl.resetSet ⟨(stamp t C).lev, sortBy key3 (stamp t C).rows⟩) ∨
      (C.rows ≠ [] ∧ s.table.rows ≠ [] ∧ ∃ k, Good s.table k ∧ s'.table.lev = usort s'.table.ids ∧
        s'.table.rows = sortBy key3 (s.table.rows ++
          tagged (stepAssign E s.table k (C.first.map Row.val)) t C.rows))) := by
  unfold loopStep at h
  cases hC : snap t with
  | error e => rw [hC] at h; cases h
  | ok C =>
    refine ⟨C, rfl, ?_⟩
    have hrt : rowsAt snap t = C.rows := by simp [rowsAt, hC]
    rw [hrt] at hsnap
    obtain ⟨hf, m, hm⟩ := hsnap
    rw [hC, show (Except.ok C : Except PyErr (Tbl α)) = pure C from rfl, pure_bind] at h
    by_cases hCe : C.rows = []
    · simp only [hCe, if_true] at h
      have h : s' = { s with processed := s.processed ++ [t] } := by injection h with h; exact h.symm
      subst h
      exact Or.inl ⟨hCe, rfl⟩
    · have hmpos := contiguous_pos hm hCe
      have hSG := stamp_good t hf hm hmpos
      simp only [hCe, if_false] at h
      by_cases hTe : s.table.rows = []
      · simp only [hTe, if_true] at h
        injection h with h
        subst h
        exact Or.inr (Or.inl ⟨hCe, hTe, rfl⟩)
      · simp only [hTe, if_false] at h
        obtain ⟨k, hk⟩ := hinv.good hTe
        by_cases hw : ∀ w ∈ window (t - 1) ntimes, HasTime s.table w
        · obtain ⟨T', hT', hlev, hrows⟩ := trackOnline_ok hnn hk hSG hw
          simp only [if_true, hT'] at h
          simp only [show ∀ (x : Tbl (Int × α)), (Except.ok x : Except PyErr _) = pure x from fun _ => rfl,
            pure_bind] at h
          cases hp : progress tf t with
          | error e => rw [hp] at h; cases h
          | ok u =>
            rw [hp] at h
            injection h with h
            subst h
            refine Or.inr (Or.inr ⟨hCe, hTe, k, hk, hlev, ?_⟩)
            have e2 : ((stamp t C).first.map fun r => E.nn (endsOf E s.table k) (E.pos r.val.2)) =
                (C.first.map Row.val).map fun v => E.nn (endsOf E s.table k) (E.pos v) := by
              rw [← stamp_first t C, List.map_map]; rfl
            rw [relab_stamp, e2, stamp_first t C] at hrows
            exact hrows
        · rw [trackOnline_err E (by simpa using hw)] at h
          cases h

/-- what a failing step raises -/
theorem loopStep_err {E : Env α K Pt} (hnn : IsNN E.dist E.nn) {snap : Int → Except PyErr (Tbl α)}
    {tf : Option Int} {ntimes : Int} {ts : List Int} {s : LoopState α} {t : Int} {e : PyErr}
    (hinv : Inv snap ts s) (hok : ∃ C, snap t = .ok C) (hsnap : SnapRows (rowsAt snap t))
    (h : loopStep E snap tf ntimes true s t = .error e) :
    e = .keyError ∨ progress tf t = .error e := by
  obtain ⟨C, hC⟩ := hok
  have hrt : rowsAt snap t = C.rows := by simp [rowsAt, hC]
  rw [hrt] at hsnap
  obtain ⟨hf, m, hm⟩ := hsnap
  unfold loopStep at h
  rw [hC, show (Except.ok C : Except PyErr (Tbl α)) = pure C from rfl, pure_bind] at h
  by_cases hCe : C.rows = []
  · simp only [hCe, if_true] at h
    cases h
  · have hSG := stamp_good t hf hm (contiguous_pos hm hCe)
    simp only [hCe, if_false] at h
    by_cases hTe : s.table.rows = []
    · simp only [hTe, if_true] at h
      cases h
    · simp only [hTe, if_false] at h
      obtain ⟨k, hk⟩ := hinv.good hTe
      by_cases hw : ∀ w ∈ window (t - 1) ntimes, HasTime s.table w
      · obtain ⟨T', hT', _, _⟩ := trackOnline_ok hnn hk hSG hw
        simp only [if_true, hT'] at h
        simp only [show ∀ (x : Tbl (Int × α)), (Except.ok x : Except PyErr _) = pure x from fun _ => rfl,
          pure_bind] at h
        cases hp : progress tf t with
        | error e' => rw [hp] at h; injection h with h; exact Or.inr (by rw [h])
        | ok u => rw [hp] at h; cases h
      · rw [trackOnline_err E (by simpa using hw)] at h
        injection h with h
        exact Or.inl h.symm

theorem run_err {E : Env α K Pt} (hnn : IsNN E.dist E.nn) {snap : Int → Except PyErr (Tbl α)}
    {tf : Option Int} {ntimes : Int} (ts : List Int) (hts : ts.Pairwise (· < ·))
    (hok : ∀ t ∈ ts, ∃ C, snap t = .ok C) (hsnap : ∀ t ∈ ts, SnapRows (rowsAt snap t)) {e : PyErr}
    (h : run E snap tf ntimes true ts = .error e) :
    e = .keyError ∨ ∃ t ∈ ts, progress tf t = .error e := by
  induction ts using List.reverseRecOn with
  | nil => cases h
  | append_singleton ts t ih =>
    rw [run_snoc] at h
    obtain ⟨h1, h2⟩ := pairwise_snoc hts
    cases hr : run E snap tf ntimes true ts with
    | error e' =>
      rw [hr] at h
      injection h with h
      subst h
      rcases ih h1 (fun t ht => hok t (by simp [ht])) (fun t ht => hsnap t (by simp [ht])) hr with h | ⟨u, hu, h⟩
      · exact Or.inl h
      · exact Or.inr ⟨u, by simp [hu], h⟩
    | ok s0 =>
      rw [hr] at h
      have hinv := run_inv hnn ts h1 (fun t ht => hsnap t (by simp [ht])) hr
      rcases loopStep_err hnn hinv (hok t (by simp)) (hsnap t (by simp)) h with h | h
      · exact Or.inl h
      · exact Or.inr ⟨t, by simp, h⟩

/-! ### `tf` only selects the times (and may make the progress report fail) -/

theorem run_tf (E : Env α K Pt) (snap : Int → Except PyErr (Tbl α)) {f f' : Int} (hf : f ≠ 0)
    (hf' : f' ≠ 0) (ntimes : Int) (online : Bool) (ts : List Int) :
    run E snap (some f) ntimes online ts = run E snap (some f') ntimes online ts := by
  unfold run
  congr 1
  funext s t
  unfold loopStep progress
  simp only [hf, hf', if_false]

/-! ### `ntimes` does not matter for successful runs -/

theorem run_ntimes {E : Env α K Pt} (hnn : IsNN E.dist E.nn) {snap : Int → Except PyErr (Tbl α)}
    {tf : Option Int} {n n' : Int} (ts : List Int) (hts : ts.Pairwise (· < ·))
    (hsnap : ∀ t ∈ ts, SnapRows (rowsAt snap t)) {s s' : LoopState α}
    (h : run E snap tf n true ts = .ok s) (h' : run E snap tf n' true ts = .ok s') :
    s.table = s'.table := by
  induction ts using List.reverseRecOn generalizing s s' with
  | nil => injection h with h; injection h' with h'; subst h; subst h'; rfl
  | append_singleton ts t ih =>
    rw [run_snoc] at h h'
    obtain ⟨h1, h2⟩ := pairwise_snoc hts
    have hsn : ∀ t ∈ ts, SnapRows (rowsAt snap t) := fun t ht => hsnap t (by simp [ht])
    cases hr : run E snap tf n true ts with
    | error e => rw [hr] at h; cases h
    | ok s0 =>
      cases hr' : run E snap tf n' true ts with
      | error e => rw [hr'] at h'; cases h'
      | ok s0' =>
        rw [hr] at h
        rw [hr'] at h'
        have e0 := ih h1 hsn hr hr'
        have hi := run_inv hnn ts h1 hsn hr
        have hi' := run_inv hnn ts h1 hsn hr'
        obtain ⟨C, hC, c⟩ := loopStep_cases hnn hi (hsnap t (by simp)) h
        obtain ⟨C', hC', c'⟩ := loopStep_cases hnn hi' (hsnap t (by simp)) h'
        have : C = C' := by rw [hC] at hC'; injection hC'
        subst this
        rw [← e0] at c'
        rcases c with ⟨a1, a2⟩ | ⟨a1, a2, a3⟩ | ⟨a1, a2, k, a3, a4, a5⟩ <;>
          rcases c' with ⟨b1, b2⟩ | ⟨b1, b2, b3⟩ | ⟨b1, b2, k', b3, b4, b5⟩
        · rw [a2, b2]
        · exact absurd a1 b1
        · exact absurd a1 b1
        · exact absurd b1 a1
        · rw [a3, b3]
        · exact absurd a2 b2
        · exact absurd b1 a1
        · exact absurd b2 a2
        · have hk : k = k' := by
            have := a3.lev_eq.symm.trans b3.lev_eq
            have := congrArg List.length this
            simpa using this
          subst hk
          have hrows : s.table.rows = s'.table.rows := by rw [a5, b5]
          have hlev : s.table.lev = s'.table.lev := by
            rw [a4, b4]; unfold Tbl.ids; rw [hrows]
          cases hs : s.table; cases hs' : s'.table
          rw [hs] at hrows hlev
          rw [hs'] at hrows hlev
          simp only at hrows hlev
          rw [hrows, hlev]

/-! ### the linking rule -/

theorem linkRule {E : Env α K Pt} (hnn : IsNN E.dist E.nn) {T : Tbl (Int × α)} {k : Nat}
    (hT : Good T k) (det : List α) :
    LinkRule E.dist E.pos E.radius (endsOf E T k) det (stepAssign E T k det) := by
  have hlen := endsOf_length (E := E) hT
  have hne : endsOf E T k ≠ [] := by
    intro h; rw [h] at hlen; have := hT.pos; simp at hlen; omega
  have hnear : ∀ (c : Nat) (v : α), det[c]? = some v →
      (nearB E (endsOf E T k) det c = true ↔ ∃ p ∈ endsOf E T k, E.dist (E.pos v) p * 6371 < E.radius v) := by
    intro c v hv
    obtain ⟨q, hq, hmin⟩ := hnn (endsOf E T k) (E.pos v) hne
    unfold nearB
    simp only [hv, hq, decide_eq_true_eq, sub_neg]
    constructor
    · intro h; exact ⟨q, List.mem_of_getElem? hq, h⟩
    · rintro ⟨p, hp, h⟩
      have := hmin p hp
      have : E.dist (E.pos v) q * 6371 ≤ E.dist (E.pos v) p * 6371 :=
        mul_le_mul_of_nonneg_right this (by norm_num)
      exact lt_of_le_of_lt this h
  have hval : ∀ (c : Nat) (v : α), det[c]? = some v →
      (det.map fun v => E.nn (endsOf E T k) (E.pos v)).getD c 0 = E.nn (endsOf E T k) (E.pos v) := by
    intro c v hv
    rw [List.getD_eq_getElem?_getD, List.getElem?_map, hv]; rfl
  have hfresh : ∀ (c : Nat) (v : α), det[c]? = some v → k ≤ stepAssign E T k det c →
      nearB E (endsOf E T k) det c = false := by
    intro c v hv hk
    by_contra hn
    rw [Bool.not_eq_false] at hn
    unfold stepAssign assign at hk
    rw [if_pos hn, hval c v hv] at hk
    obtain ⟨q, hq, _⟩ := hnn (endsOf E T k) (E.pos v) hne
    have := (List.getElem?_eq_some_iff.1 hq).1
    omega
  refine ⟨?_, ?_, ?_⟩
  · intro c v hv hp
    have hn := (hnear c v hv).2 hp
    obtain ⟨q, hq, hmin⟩ := hnn (endsOf E T k) (E.pos v) hne
    refine ⟨q, ?_, hmin, ?_⟩
    · unfold stepAssign assign
      rw [if_pos hn, hval c v hv]; exact hq
    · unfold nearB at hn
      simpa [hv, hq] using hn
  · intro c v hv hp
    have hn : nearB E (endsOf E T k) det c = false := by
      rw [← Bool.not_eq_true, hnear c v hv]; exact hp
    unfold stepAssign assign
    simp only [hn, hlen]
    exact Nat.le_add_right _ _
  · intro c c' v v' hv hv' hlt hk hk'
    rw [hlen] at hk hk'
    have hn := hfresh c v hv hk
    have hn' := hfresh c' v' hv' hk'
    unfold stepAssign assign
    simp only [hn, hn']
    have := cnt_lt hlt hn
    unfold cnt at this
    simp only [Bool.false_eq_true, if_false]
    omega

/-! ### unique keys -/

theorem keyUnique_perm {l l' : List (Row (Int × α))} (h : l.Perm l') : KeyUnique l ↔ KeyUnique l' :=
  h.pairwise_iff (fun {a b} hab hba => hab ⟨hba.1.symm, hba.2.1.symm, hba.2.2.symm⟩)

theorem keyUnique_tagged {es : List (Eddy α)} (hne : ∀ e ∈ es, e ≠ []) (g : Nat → Nat) (t : Int)
    (hinj : ∀ c < es.length, ∀ c' < es.length, g c = g c' → c = c') :
    KeyUnique (tagged g t (snapRows es)) := by
  unfold KeyUnique tagged
  rw [List.pairwise_map]
  apply (snapRows_strict es).imp_of_mem
  intro r s hr hs h
  simp only [true_and]
  rintro ⟨h1, h2⟩
  have hr := (snapRows_contiguous hne r.id).1 ⟨r, hr, rfl⟩
  have hs := (snapRows_contiguous hne s.id).1 ⟨s, hs, rfl⟩
  have := hinj _ hr _ hs h1
  rw [key2_lt] at h
  omega

/-! ### offline mode -/

/-- state of the offline loop -/
structure OffInv (snap : Int → Except PyErr (Tbl α)) (ts : List Int) (s : LoopState α) : Prop where
  proc : s.processed = ts
  /-- nothing but the first non-empty snapshot ends up in the table -/
  tab : s.table.rows = match ts.filter (fun t => rowsAt snap t ≠ []) with
    | [] => []
    | t :: _ => sortBy key3 (atTime t (rowsAt snap t))
  wr : s.written.map (fun p => (p.1, p.2.rows)) =
    (ts.filter (fun t => rowsAt snap t ≠ [])).tail.map fun t => (t, atTime t (rowsAt snap t))

theorem sortBy_ne_nil {β κ : Type*} [LinearOrder κ] {key : β → κ} {l : List β} (h : l ≠ []) :
    sortBy key l ≠ [] := fun h' => h (sortBy_eq_nil.1 h')

theorem off_step {E : Env α K Pt} {snap : Int → Except PyErr (Tbl α)} {tf : Option Int} {ntimes : Int}
    {ts : List Int} {s s' : LoopState α} {t : Int} (hinv : OffInv snap ts s)
    (h : loopStep E snap tf ntimes false s t = .ok s') : OffInv snap (ts ++ [t]) s' := by
  unfold loopStep at h
  cases hC : snap t with
  | error e => rw [hC] at h; cases h
  | ok C =>
    have hrt : rowsAt snap t = C.rows := by simp [rowsAt, hC]
    rw [hC, show (Except.ok C : Except PyErr (Tbl α)) = pure C from rfl, pure_bind] at h
    have htab := hinv.tab
    have hwr := hinv.wr
    by_cases hCe : C.rows = []
    · simp only [hCe, if_true] at h
      have h : s' = { s with processed := s.processed ++ [t] } := by injection h with h; exact h.symm
      subst h
      have : (ts ++ [t]).filter (fun t => decide (rowsAt snap t ≠ [])) =
          ts.filter (fun t => decide (rowsAt snap t ≠ [])) := by
        rw [List.filter_append]; simp [hrt, hCe]
      exact ⟨by simp [hinv.proc], by rw [this]; exact htab, by rw [this]; exact hwr⟩
    · have hf : (ts ++ [t]).filter (fun t => decide (rowsAt snap t ≠ [])) =
          ts.filter (fun t => decide (rowsAt snap t ≠ [])) ++ [t] := by
        rw [List.filter_append]; simp [hrt, hCe]
      simp only [hCe, if_false] at h
      by_cases hTe : s.table.rows = []
      · simp only [hTe, if_true] at h
        injection h with h
        subst h
        have hnil : ts.filter (fun t => decide (rowsAt snap t ≠ [])) = [] := by
          cases hl : ts.filter (fun t => decide (rowsAt snap t ≠ [])) with
          | nil => rfl
          | cons a l =>
            rw [hl] at htab
            simp only at htab
            rw [hTe] at htab
            have ha : a ∈ ts.filter (fun t => decide (rowsAt snap t ≠ [])) := by rw [hl]; simp
            have hane : rowsAt snap a ≠ [] := by simpa using (List.mem_filter.1 ha).2
            exact absurd htab.symm (sortBy_ne_nil (by unfold atTime; simpa using hane))
        rw [hnil] at hf hwr
        refine ⟨by simp [hinv.proc], ?_, ?_⟩
        · rw [hf]
          simp only [List.nil_append, hrt]
          rfl
        · rw [hf]
          simpa using hwr
      · simp only [hTe, if_false, Bool.false_eq_true] at h
        simp only [pure_bind] at h
        cases hp : progress tf t with
        | error e => rw [hp] at h; cases h
        | ok u =>
          rw [hp] at h
          injection h with h
          subst h
          cases hl : ts.filter (fun t => decide (rowsAt snap t ≠ [])) with
          | nil => rw [hl] at htab; exact absurd htab hTe
          | cons a l =>
            rw [hl] at hf htab hwr
            refine ⟨by simp [hinv.proc], ?_, ?_⟩
            · rw [hf]; exact htab
            · rw [hf]
              simp only [List.map_append, hwr, List.cons_append, List.tail_cons, hrt, List.map_cons,
                List.map_nil]
              rfl

theorem off_run {E : Env α K Pt} {snap : Int → Except PyErr (Tbl α)} {tf : Option Int} {ntimes : Int}
    (ts : List Int) {s : LoopState α} (h : run E snap tf ntimes false ts = .ok s) :
    OffInv snap ts s := by
  induction ts using List.reverseRecOn generalizing s with
  | nil => injection h with h; subst h; exact ⟨rfl, rfl, rfl⟩
  | append_singleton ts t ih =>
    rw [run_snoc] at h
    cases hr : run E snap tf ntimes false ts with
    | error e => rw [hr] at h; cases h
    | ok s0 => rw [hr] at h; exact off_step (ih hr) h

theorem off_ok_iff {E : Env α K Pt} {snap : Int → Except PyErr (Tbl α)} {tf : Option Int}
    {ntimes : Int} (ts : List Int) (hts : ts.Pairwise (· < ·)) (hok : ∀ t ∈ ts, ∃ C, snap t = .ok C) :
    (∃ s, run E snap tf ntimes false ts = .ok s) ↔
      ∀ t ∈ ts, rowsAt snap t ≠ [] → (∃ u ∈ ts, u < t ∧ rowsAt snap u ≠ []) →
        progress tf t = .ok () := by
  induction ts using List.reverseRecOn with
  | nil => simp [run]; exact ⟨_, rfl⟩
  | append_singleton ts t ih =>
    rw [run_snoc]
    obtain ⟨h1, h2⟩ := pairwise_snoc hts
    have ih := ih h1 (fun t ht => hok t (by simp [ht]))
    have hsplit : (∀ w ∈ ts ++ [t], rowsAt snap w ≠ [] → (∃ u ∈ ts ++ [t], u < w ∧ rowsAt snap u ≠ []) →
        progress tf w = .ok ()) ↔ ((∀ w ∈ ts, rowsAt snap w ≠ [] → (∃ u ∈ ts, u < w ∧ rowsAt snap u ≠ []) →
        progress tf w = .ok ()) ∧ (rowsAt snap t ≠ [] → (∃ u ∈ ts, rowsAt snap u ≠ []) →
        progress tf t = .ok ())) := by
      constructor
      · intro h
        refine ⟨fun w hw h3 ⟨u, hu, h4, h5⟩ => h w (by simp [hw]) h3 ⟨u, by simp [hu], h4, h5⟩, ?_⟩
        intro h3 ⟨u, hu, h5⟩
        exact h t (by simp) h3 ⟨u, by simp [hu], h2 u hu, h5⟩
      · rintro ⟨h, h'⟩ w hw h3 ⟨u, hu, h4, h5⟩
        rcases List.mem_append.1 hw with hw | hw
        · have hu' : u ∈ ts := by
            rcases List.mem_append.1 hu with hu | hu
            · exact hu
            · have := h2 w hw; simp at hu; omega
          exact h w hw h3 ⟨u, hu', h4, h5⟩
        · simp at hw; subst hw
          have hu' : u ∈ ts := by
            rcases List.mem_append.1 hu with hu | hu
            · exact hu
            · simp at hu; omega
          exact h' h3 ⟨u, hu', h5⟩
    rw [hsplit]
    obtain ⟨C, hC⟩ := hok t (by simp)
    have hrt : rowsAt snap t = C.rows := by simp [rowsAt, hC]
    cases hr : run E snap tf ntimes false ts with
    | error e =>
      rw [hr] at ih
      constructor
      · rintro ⟨s, hs⟩; cases hs
      · rintro ⟨h, _⟩
        obtain ⟨s, hs⟩ := ih.2 h
        cases hs
    | ok s =>
      have hpre := ih.1 ⟨s, hr⟩
      rw [and_iff_right hpre]
      have hinv := off_run ts hr
      have hemp : s.table.rows = [] ↔ ¬ ∃ u ∈ ts, rowsAt snap u ≠ [] := by
        have htab := hinv.tab
        cases hl : ts.filter (fun t => decide (rowsAt snap t ≠ [])) with
        | nil =>
          rw [hl] at htab
          rw [List.filter_eq_nil_iff] at hl
          refine ⟨fun _ ⟨u, hu, hne⟩ => hl u hu (by simpa using hne), fun _ => htab⟩
        | cons a l =>
          rw [hl] at htab
          have ha : a ∈ ts.filter (fun t => decide (rowsAt snap t ≠ [])) := by rw [hl]; simp
          have hane : rowsAt snap a ≠ [] := by simpa using (List.mem_filter.1 ha).2
          constructor
          · intro h0
            rw [h0] at htab
            exact absurd htab.symm (sortBy_ne_nil (by unfold atTime; simpa using hane))
          · intro h0; exact absurd ⟨a, (List.mem_filter.1 ha).1, hane⟩ h0
      show (∃ s', loopStep E snap tf ntimes false s t = .ok s') ↔ _
      unfold loopStep
      rw [hC, show (Except.ok C : Except PyErr (Tbl α)) = pure C from rfl, pure_bind, hrt]
      by_cases hCe : C.rows = []
      · simp only [hCe, if_true]
        simp
        exact ⟨_, rfl⟩
      · simp only [hCe, if_false]
        by_cases hTe : s.table.rows = []
        · simp only [hTe, if_true]
          refine ⟨fun _ _ h => absurd h (hemp.1 hTe), fun _ => ⟨_, rfl⟩⟩
        · simp only [hTe, if_false, Bool.false_eq_true, pure_bind]
          have hex : ∃ u ∈ ts, rowsAt snap u ≠ [] := by
            by_contra hno; exact hTe (hemp.2 hno)
          simp only [hex, hCe, Ne, not_false_eq_true, true_implies]
          cases hp : progress tf t with
          | error e =>
            constructor
            · rintro ⟨s', hs'⟩; cases hs'
            · intro h; cases h
          | ok u => exact ⟨fun _ => rfl, fun _ => ⟨_, rfl⟩⟩

theorem processed_step {E : Env α K Pt} {snap : Int → Except PyErr (Tbl α)} {tf : Option Int}
    {ntimes : Int} {online : Bool} {s s' : LoopState α} {t : Int}
    (h : loopStep E snap tf ntimes online s t = .ok s') : s'.processed = s.processed ++ [t] := by
  unfold loopStep at h
  cases hC : snap t with
  | error e => rw [hC] at h; cases h
  | ok C =>
    rw [hC, show (Except.ok C : Except PyErr (Tbl α)) = pure C from rfl, pure_bind] at h
    by_cases hCe : C.rows = []
    · simp only [hCe, if_true] at h
      injection h with h; subst h; rfl
    · simp only [hCe, if_false] at h
      by_cases hTe : s.table.rows = []
      · simp only [hTe, if_true] at h
        injection h with h; subst h; rfl
      · simp only [hTe, if_false] at h
        cases online with
        | false =>
          simp only [Bool.false_eq_true, if_false, pure_bind] at h
          cases hp : progress tf t with
          | error e => rw [hp] at h; cases h
          | ok u => rw [hp] at h; injection h with h; subst h; rfl
        | true =>
          simp only [if_true] at h
          cases hT : trackOnline E s.table (stamp t C) t ntimes with
          | error e => rw [hT] at h; cases h
          | ok T' =>
            rw [hT] at h
            cases hp : progress tf t with
            | error e => rw [hp] at h; cases h
            | ok u => rw [hp] at h; injection h with h; subst h; rfl

theorem processed_eq {E : Env α K Pt} {snap : Int → Except PyErr (Tbl α)} {tf : Option Int}
    {ntimes : Int} {online : Bool} (ts : List Int) {s : LoopState α}
    (h : run E snap tf ntimes online ts = .ok s) : s.processed = ts := by
  induction ts using List.reverseRecOn generalizing s with
  | nil => injection h with h; subst h; rfl
  | append_singleton ts t ih =>
    rw [run_snoc] at h
    cases hr : run E snap tf ntimes online ts with
    | error e => rw [hr] at h; cases h
    | ok s0 => rw [hr] at h; rw [processed_step h, ih hr]

end Trackeddy
