import Verif.Proofs.Tracking
import Mathlib.Data.List.Induction

/-! Lemmas for the loop of `time_tracking`. -/
namespace Trackeddy
open Spec Tbl

set_option linter.unusedSectionVars false
variable {α K Pt : Type} [Field K] [LinearOrder K] [IsStrictOrderedRing K]

/-! ### one step preserves the invariant -/

theorem fresh_image (k : Nat) (near : Nat → Bool) (m i : Nat) :
    (∃ c < m, near c = false ∧ k + ((List.range c).filter fun c' => !near c').length = i) ↔
      k ≤ i ∧ i < k + ((List.range m).filter fun c' => !near c').length := by
  induction m with
  | zero => simp
  | succ m ih =>
    have hlen : ((List.range (m + 1)).filter fun c' => !near c').length =
        ((List.range m).filter fun c' => !near c').length + if near m = false then 1 else 0 := by
      rw [List.range_succ, List.filter_append, List.length_append]
      congr 1
      by_cases h : near m = false
      · simp [h]
      · simp [h, List.filter_cons]
    rw [hlen]
    constructor
    · rintro ⟨c, hc, hn, he⟩
      by_cases hcm : c < m
      · have := ih.1 ⟨c, hcm, hn, he⟩
        omega
      · have : c = m := by omega
        subst this
        rw [if_pos hn]; omega
    · rintro ⟨h1, h2⟩
      by_cases h : i < k + ((List.range m).filter fun c' => !near c').length
      · obtain ⟨c, hc, hn, he⟩ := ih.2 ⟨h1, h⟩
        exact ⟨c, by omega, hn, he⟩
      · have hn : near m = false := by
          by_contra hn
          rw [if_neg hn] at h2
          omega
        rw [if_pos hn] at h2
        exact ⟨m, by omega, hn, by omega⟩

theorem nearB_lt {E : Env α K Pt} {T : Tbl (Int × α)} {k : Nat} (hT : Good T k) {cs : List α}
    {c : Nat} (h : nearB E (endsOf E T k) cs c) :
    (cs.map fun v => E.nn (endsOf E T k) (E.pos v)).getD c 0 < k := by
  unfold nearB at h
  cases hc : cs[c]? with
  | none => simp [hc] at h
  | some v =>
    simp only [hc] at h
    have hlt := (List.getElem?_eq_some_iff.1 hc).1
    have he := (List.getElem?_eq_some_iff.1 hc).2
    cases hq : (endsOf E T k)[E.nn (endsOf E T k) (E.pos v)]? with
    | none => simp [hq] at h
    | some q =>
      have h2 := (List.getElem?_eq_some_iff.1 hq).1
      rw [endsOf_length hT] at h2
      simpa [hlt, he] using h2

theorem good_step {E : Env α K Pt} {T T' cur : Tbl (Int × α)} {k m : Nat}
    (hT : Good T k) (hC : SnapGood cur m) {time : Int} (hct : ∀ r ∈ cur.rows, r.val.1 = time)
    (hlev : T'.lev = usort T'.ids)
    (hrows : T'.rows = sortBy key3 (T.rows ++ relab
        (assign k (cur.first.map fun r => E.nn (endsOf E T k) (E.pos r.val.2))
          (nearB E (endsOf E T k) (cur.first.map fun r => r.val.2))) cur.rows)) :
    Good T' (k + ((List.range m).filter fun c =>
      !nearB E (endsOf E T k) (cur.first.map fun r => r.val.2) c).length) := by
  set near := nearB E (endsOf E T k) (cur.first.map fun r => r.val.2) with hnear
  set index := cur.first.map fun r => E.nn (endsOf E T k) (E.pos r.val.2) with hindex
  have hnear_lt : ∀ c, near c → index.getD c 0 < k := by
    intro c hn
    have := nearB_lt hT hn
    rwa [List.map_map] at this
  have hmem : ∀ r, r ∈ T'.rows ↔ r ∈ T.rows ∨ ∃ s ∈ cur.rows, r = { s with id := assign k index near s.id } := by
    intro r
    rw [hrows, mem_sortBy, List.mem_append, mem_relab]
  refine ⟨hlev, ?_, ?_, ?_, ?_⟩
  · intro i
    constructor
    · rintro ⟨r, hr, rfl⟩
      rcases (hmem r).1 hr with h | ⟨s, hs, rfl⟩
      · have := (hT.ids r.id).1 ⟨r, h, rfl⟩
        omega
      · simp only
        unfold assign
        by_cases hn : near s.id
        · have := hnear_lt _ hn
          simp only [hn, if_true]; omega
        · simp only [hn]
          have hm := (hC.ids s.id).1 ⟨s, hs, rfl⟩
          exact ((fresh_image k near m _).1 ⟨s.id, hm, by simpa using hn, rfl⟩).2
    · intro hi
      by_cases hik : i < k
      · obtain ⟨r, hr, he⟩ := (hT.ids i).2 hik
        exact ⟨r, (hmem r).2 (Or.inl hr), he⟩
      · obtain ⟨c, hc, hn, he⟩ := (fresh_image k near m i).2 ⟨by omega, hi⟩
        obtain ⟨s, hs, rfl⟩ := (hC.ids c).2 hc
        refine ⟨_, (hmem _).2 (Or.inr ⟨s, hs, rfl⟩), ?_⟩
        simp only [assign, hn]
        exact he
  · have := hT.pos; omega
  · intro r hr
    rcases (hmem r).1 hr with h | ⟨s, hs, rfl⟩
    · obtain ⟨s, hs, h1⟩ := hT.firstT r h
      exact ⟨s, (hmem s).2 (Or.inl hs), h1⟩
    · obtain ⟨s', hs', h1, h2⟩ := hC.first s hs
      refine ⟨_, (hmem _).2 (Or.inr ⟨s', hs', rfl⟩), ?_, h2, ?_⟩
      · simp [h1]
      · simp [hct s hs, hct s' hs']
  · rw [sortedTrack_iff, hrows]
    exact pairwise_sortBy _

/-! ### the loop -/

/-- rows relabelled and time stamped -/
def tagged (g : Nat → Nat) (t : Int) (rows : List (Row α)) : List (Row (Int × α)) :=
  rows.map fun r => ⟨g r.id, r.idx, (t, r.val)⟩

structure Inv (snap : Int → Except PyErr (Tbl α)) (ts : List Int) (s : LoopState α) : Prop where
  proc : s.processed = ts
  wr : s.written = []
  good : s.table.rows ≠ [] → ∃ k, Good s.table k
  cons : ∃ g : Int → Nat → Nat,
    s.table.rows.Perm (ts.flatMap fun u => tagged (g u) u (rowsAt snap u))

theorem Inv.empty {snap : Int → Except PyErr (Tbl α)} {ts : List Int} {s : LoopState α}
    (h : Inv snap ts s) : s.table.rows = [] ↔ ∀ u ∈ ts, rowsAt snap u = [] := by
  obtain ⟨g, hg⟩ := h.cons
  constructor
  · intro he u hu
    rw [he] at hg
    have := hg.nil_eq.symm
    rw [List.flatMap_eq_nil_iff] at this
    simpa [tagged] using this u hu
  · intro hall
    have : (ts.flatMap fun u => tagged (g u) u (rowsAt snap u)) = [] := by
      rw [List.flatMap_eq_nil_iff]
      intro u hu; simp [tagged, hall u hu]
    rw [this] at hg
    exact hg.eq_nil

theorem Inv.hasTime {snap : Int → Except PyErr (Tbl α)} {ts : List Int} {s : LoopState α}
    (h : Inv snap ts s) (w : Int) : HasTime s.table w ↔ w ∈ ts ∧ rowsAt snap w ≠ [] := by
  obtain ⟨g, hg⟩ := h.cons
  constructor
  · rintro ⟨r, hr, rfl⟩
    obtain ⟨u, hu, hr⟩ := List.mem_flatMap.1 (hg.mem_iff.1 hr)
    obtain ⟨r0, hr0, rfl⟩ := List.mem_map.1 hr
    exact ⟨hu, List.ne_nil_of_mem hr0⟩
  · rintro ⟨hw, hne⟩
    obtain ⟨r0, hr0⟩ := List.exists_mem_of_ne_nil _ hne
    refine ⟨⟨g w r0.id, r0.idx, (w, r0.val)⟩, hg.mem_iff.2 ?_, rfl⟩
    exact List.mem_flatMap.2 ⟨w, hw, List.mem_map.2 ⟨r0, hr0, rfl⟩⟩

theorem stamp_good {C : Tbl α} (t : Int) {m : Nat} (hf : HasFirst C.rows) (hc : Contiguous C.rows m)
    (hm : 0 < m) : SnapGood (stamp t C) m := by
  refine ⟨rfl, ?_, hm, ?_⟩
  · intro i
    rw [← hc i]
    constructor
    · rintro ⟨r, hr, rfl⟩
      obtain ⟨r0, h0, rfl⟩ := List.mem_map.1 hr
      exact ⟨r0, h0, rfl⟩
    · rintro ⟨r, hr, rfl⟩
      exact ⟨_, List.mem_map.2 ⟨r, hr, rfl⟩, rfl⟩
  · intro r hr
    obtain ⟨r0, h0, rfl⟩ := List.mem_map.1 hr
    obtain ⟨s, hs, h1, h2⟩ := hf r0 h0
    exact ⟨_, List.mem_map.2 ⟨s, hs, rfl⟩, h1, h2⟩

theorem contiguous_pos {rows : List (Row α)} {m : Nat} (hc : Contiguous rows m) (hne : rows ≠ []) :
    0 < m := by
  obtain ⟨r, hr⟩ := List.exists_mem_of_ne_nil _ hne
  have := (hc r.id).1 ⟨r, hr, rfl⟩
  omega

theorem stamp_time {C : Tbl α} {t : Int} : ∀ r ∈ (stamp t C).rows, r.val.1 = t := by
  intro r hr
  obtain ⟨r0, h0, rfl⟩ := List.mem_map.1 hr
  rfl

theorem relab_stamp (g : Nat → Nat) (t : Int) (C : Tbl α) :
    relab g (stamp t C).rows = tagged g t C.rows := by
  simp [relab, stamp, resetSet, tagged]

/-- The three cases of a successful step in online mode. -/
theorem loopStep_inv {E : Env α K Pt} (hnn : IsNN E.dist E.nn) {snap : Int → Except PyErr (Tbl α)}
    {tf : Option Int} {ntimes : Int} {ts : List Int} {s s' : LoopState α} {t : Int}
    (hinv : Inv snap ts s) (hlt : ∀ u ∈ ts, u < t) (hsnap : SnapRows (rowsAt snap t))
    (h : loopStep E snap tf ntimes true s t = .ok s') :
    Inv snap (ts ++ [t]) s' ∧ s'.table.rows.filter (fun r => r.val.1 < t) = s.table.rows := by
  unfold loopStep at h
  cases hC : snap t with
  | error e => rw [hC] at h; cases h
  | ok C =>
    have hrt : rowsAt snap t = C.rows := by simp [rowsAt, hC]
    rw [hrt] at hsnap
    obtain ⟨hf, m, hm⟩ := hsnap
    rw [hC, show (Except.ok C : Except PyErr (Tbl α)) = pure C from rfl, pure_bind] at h
    have hold : s.table.rows.filter (fun r => decide (r.val.1 < t)) = s.table.rows := by
      rw [List.filter_eq_self]
      intro r hr
      have := (hinv.hasTime r.val.1).1 ⟨r, hr, rfl⟩
      simpa using hlt _ this.1
    have hg' : ∀ (g : Int → Nat → Nat) (gt : Nat → Nat),
        (ts.flatMap fun u => tagged (if u = t then gt else g u) u (rowsAt snap u)) =
        ts.flatMap fun u => tagged (g u) u (rowsAt snap u) := by
      intro g gt
      apply List.flatMap_congr
      intro u hu
      rw [if_neg (by have := hlt u hu; omega)]
    by_cases hCe : C.rows = []
    · simp only [hCe, if_true] at h
      have h : s' = { s with processed := s.processed ++ [t] } := by injection h with h; exact h.symm
      subst h
      refine ⟨⟨by simp [hinv.proc], hinv.wr, hinv.good, ?_⟩, hold⟩
      obtain ⟨g, hg⟩ := hinv.cons
      refine ⟨g, ?_⟩
      rw [List.flatMap_append]
      simp [hrt, hCe, tagged]
      exact hg
    · have hmpos := contiguous_pos hm hCe
      have hSG := stamp_good t hf hm hmpos
      simp only [hCe, if_false] at h
      by_cases hTe : s.table.rows = []
      · simp only [hTe, if_true] at h
        injection h with h
        subst h
        have hsorted : SortedTrack (sortBy key3 (stamp t C).rows) := sortedTrack_iff.2 (pairwise_sortBy _)
        refine ⟨⟨by simp [hinv.proc], hinv.wr, fun _ => ⟨m, ?_⟩, ?_⟩, ?_⟩
        · refine ⟨rfl, ?_, hmpos, ?_, hsorted⟩
          · intro i
            rw [← hSG.ids i]
            constructor
            · rintro ⟨r, hr, he⟩; exact ⟨r, mem_sortBy.1 hr, he⟩
            · rintro ⟨r, hr, he⟩; exact ⟨r, mem_sortBy.2 hr, he⟩
          · intro r hr
            have hr := mem_sortBy.1 hr
            obtain ⟨q, hq, h1, h2⟩ := hSG.first r hr
            exact ⟨q, mem_sortBy.2 hq, h1, h2, by rw [stamp_time q hq, stamp_time r hr]⟩
        · have hemp := hinv.empty.1 hTe
          refine ⟨fun _ i => i, ?_⟩
          rw [List.flatMap_append, List.flatMap_eq_nil_iff.2 (by
            intro u hu; simp [tagged, hemp u hu])]
          simp only [List.nil_append, List.flatMap_cons, List.flatMap_nil, List.append_nil, hrt]
          refine (perm_sortBy _).trans ?_
          rw [← relab_stamp, relab_id (by simp)]
        · show (sortBy key3 (stamp t C).rows).filter _ = _
          rw [hTe, List.filter_eq_nil_iff]
          intro r hr
          have := stamp_time r (mem_sortBy.1 hr)
          simp; omega
      · simp only [hTe, if_false] at h
        obtain ⟨k, hk⟩ := hinv.good hTe
        by_cases hw : ∀ w ∈ window (t - 1) ntimes, HasTime s.table w
        · obtain ⟨T', hT', hlev, hrows⟩ := trackOnline_ok hnn hk hSG hw
          simp only [if_true, hT'] at h
          simp only [show ∀ (x : Tbl (Int × α)), (Except.ok x : Except PyErr _) = pure x from fun _ => rfl,
            pure_bind] at h
          cases hp : progress tf t with
          | error e => rw [hp] at h; cases h
          | ok u =>
            rw [hp] at h
            injection h with h
            subst h
            have hgood := good_step hk hSG stamp_time hlev hrows
            refine ⟨⟨by simp [hinv.proc], hinv.wr, fun _ => ⟨_, hgood⟩, ?_⟩, ?_⟩
            · obtain ⟨g, hg⟩ := hinv.cons
              refine ⟨fun u => if u = t then assign k ((stamp t C).first.map fun r =>
                  E.nn (endsOf E s.table k) (E.pos r.val.2))
                (nearB E (endsOf E s.table k) ((stamp t C).first.map fun r => r.val.2)) else g u, ?_⟩
              rw [List.flatMap_append, hg']
              simp only [List.flatMap_cons, List.flatMap_nil, List.append_nil, if_true, hrt]
              rw [hrows]
              refine (perm_sortBy _).trans ?_
              rw [relab_stamp]
              exact List.Perm.append hg (List.Perm.refl _)
            · simp only
              rw [hrows, filter_sortBy, List.filter_append, hold]
              have : (relab (assign k ((stamp t C).first.map fun r =>
                  E.nn (endsOf E s.table k) (E.pos r.val.2))
                (nearB E (endsOf E s.table k) ((stamp t C).first.map fun r => r.val.2)))
                (stamp t C).rows).filter (fun r => decide (r.val.1 < t)) = [] := by
                rw [List.filter_eq_nil_iff]
                intro r hr
                obtain ⟨q, hq, rfl⟩ := mem_relab.1 hr
                have := stamp_time q hq
                simp; omega
              rw [this, List.append_nil]
              exact sortBy_of_sorted (sortedTrack_iff.1 hk.sorted)
        · rw [trackOnline_err E (by simpa using hw)] at h
          cases h

/-- Success of a step in online mode. -/
theorem loopStep_ok_iff {E : Env α K Pt} (hnn : IsNN E.dist E.nn) {snap : Int → Except PyErr (Tbl α)}
    {tf : Option Int} {ntimes : Int} {ts : List Int} {s : LoopState α} {t : Int}
    (hinv : Inv snap ts s) (hok : ∃ C, snap t = .ok C) (hsnap : SnapRows (rowsAt snap t)) :
    (∃ s', loopStep E snap tf ntimes true s t = .ok s') ↔
      (rowsAt snap t ≠ [] → (∃ u ∈ ts, rowsAt snap u ≠ []) →
        (∀ w ∈ window (t - 1) ntimes, w ∈ ts ∧ rowsAt snap w ≠ []) ∧ progress tf t = .ok ()) := by
  obtain ⟨C, hC⟩ := hok
  have hrt : rowsAt snap t = C.rows := by simp [rowsAt, hC]
  rw [hrt] at hsnap ⊢
  obtain ⟨hf, m, hm⟩ := hsnap
  unfold loopStep
  rw [hC, show (Except.ok C : Except PyErr (Tbl α)) = pure C from rfl, pure_bind]
  by_cases hCe : C.rows = []
  · simp only [hCe, if_true]
    simp
    exact ⟨_, rfl⟩
  · have hSG := stamp_good t hf hm (contiguous_pos hm hCe)
    simp only [hCe, if_false]
    by_cases hTe : s.table.rows = []
    · simp only [hTe, if_true]
      refine ⟨fun _ _ h => ?_, fun _ => ⟨_, rfl⟩⟩
      obtain ⟨u, hu, hne⟩ := h
      exact absurd (hinv.empty.1 hTe u hu) hne
    · simp only [hTe, if_false]
      obtain ⟨k, hk⟩ := hinv.good hTe
      have hex : ∃ u ∈ ts, rowsAt snap u ≠ [] := by
        by_contra hno
        push Not at hno
        exact hTe (hinv.empty.2 hno)
      simp only [hex, hCe, Ne, not_false_eq_true, true_implies]
      by_cases hw : ∀ w ∈ window (t - 1) ntimes, HasTime s.table w
      · obtain ⟨T', hT', _, _⟩ := trackOnline_ok hnn hk hSG hw
        simp only [if_true, hT']
        simp only [show ∀ (x : Tbl (Int × α)), (Except.ok x : Except PyErr _) = pure x from fun _ => rfl,
          pure_bind]
        cases hp : progress tf t with
        | error e =>
          constructor
          · rintro ⟨s', hs'⟩; cases hs'
          · rintro ⟨_, h⟩; cases h
        | ok u =>
          refine ⟨fun _ => ⟨fun w hw' => (hinv.hasTime w).1 (hw w hw'), rfl⟩, fun _ => ⟨_, rfl⟩⟩
      · rw [trackOnline_err E (by simpa using hw)]
        constructor
        · rintro ⟨s', hs'⟩; cases hs'
        · rintro ⟨h, _⟩
          exact absurd (fun w hw' => (hinv.hasTime w).2 (h w hw')) hw

/-! ### runs -/

theorem foldlM_snoc {σ τ ε : Type} (f : σ → τ → Except ε σ) (l : List τ) (a : τ) (s : σ) :
    (l ++ [a]).foldlM f s = (l.foldlM f s).bind fun s' => f s' a := by
  induction l generalizing s with
  | nil =>
    rw [List.nil_append, List.foldlM_cons]
    show (f s a).bind pure = f s a
    cases f s a <;> rfl
  | cons b l ih =>
    rw [List.cons_append, List.foldlM_cons, List.foldlM_cons]
    cases hb : f s b with
    | error e => rfl
    | ok s' => exact ih s'

/-- the loop over a list of times -/
def run (E : Env α K Pt) (snap : Int → Except PyErr (Tbl α)) (tf : Option Int) (ntimes : Int)
    (online : Bool) (ts : List Int) : Except PyErr (LoopState α) :=
  ts.foldlM (loopStep E snap tf ntimes online) ⟨⟨[], []⟩, [], []⟩

theorem run_snoc (E : Env α K Pt) (snap : Int → Except PyErr (Tbl α)) (tf : Option Int)
    (ntimes : Int) (online : Bool) (ts : List Int) (t : Int) :
    run E snap tf ntimes online (ts ++ [t]) =
      (run E snap tf ntimes online ts).bind fun s => loopStep E snap tf ntimes online s t :=
  foldlM_snoc _ _ _ _

theorem inv_nil (snap : Int → Except PyErr (Tbl α)) : Inv snap [] ⟨⟨[], []⟩, [], []⟩ :=
  ⟨rfl, rfl, fun h => absurd rfl h, ⟨fun _ i => i, by simp⟩⟩

theorem pairwise_snoc {ts : List Int} {t : Int} (h : (ts ++ [t]).Pairwise (· < ·)) :
    ts.Pairwise (· < ·) ∧ ∀ u ∈ ts, u < t := by
  rw [List.pairwise_append] at h
  exact ⟨h.1, fun u hu => h.2.2 u hu t (by simp)⟩

theorem run_inv {E : Env α K Pt} (hnn : IsNN E.dist E.nn) {snap : Int → Except PyErr (Tbl α)}
    {tf : Option Int} {ntimes : Int} (ts : List Int) (hts : ts.Pairwise (· < ·))
    (hsnap : ∀ t ∈ ts, SnapRows (rowsAt snap t)) {s : LoopState α}
    (h : run E snap tf ntimes true ts = .ok s) : Inv snap ts s := by
  induction ts using List.reverseRecOn generalizing s with
  | nil =>
    injection h with h
    subst h
    exact inv_nil snap
  | append_singleton ts t ih =>
    rw [run_snoc] at h
    obtain ⟨h1, h2⟩ := pairwise_snoc hts
    cases hr : run E snap tf ntimes true ts with
    | error e => rw [hr] at h; cases h
    | ok s0 =>
      rw [hr] at h
      have hinv := ih h1 (fun t ht => hsnap t (by simp [ht])) hr
      exact (loopStep_inv hnn hinv h2 (hsnap t (by simp)) h).1

theorem run_ok_iff {E : Env α K Pt} (hnn : IsNN E.dist E.nn) {snap : Int → Except PyErr (Tbl α)}
    {tf : Option Int} {ntimes : Int} (ts : List Int) (hts : ts.Pairwise (· < ·))
    (hok : ∀ t ∈ ts, ∃ C, snap t = .ok C) (hsnap : ∀ t ∈ ts, SnapRows (rowsAt snap t)) :
    (∃ s, run E snap tf ntimes true ts = .ok s) ↔
      ∀ t ∈ ts, rowsAt snap t ≠ [] → (∃ u ∈ ts, u < t ∧ rowsAt snap u ≠ []) →
        (∀ w ∈ window (t - 1) ntimes, (w ∈ ts ∧ w < t) ∧ rowsAt snap w ≠ []) ∧
          progress tf t = .ok () := by
  induction ts using List.reverseRecOn with
  | nil => simp [run]; exact ⟨_, rfl⟩
  | append_singleton ts t ih =>
    rw [run_snoc]
    obtain ⟨h1, h2⟩ := pairwise_snoc hts
    have ih := ih h1 (fun t ht => hok t (by simp [ht])) (fun t ht => hsnap t (by simp [ht]))
    have hlast : ∀ u, u ∈ ts ++ [t] ∧ u < t ↔ u ∈ ts := by
      intro u
      constructor
      · rintro ⟨hu, hlt⟩
        rcases List.mem_append.1 hu with h | h
        · exact h
        · have : u = t := by simpa using h
          omega
      · intro hu
        exact ⟨by simp [hu], h2 u hu⟩
    have hold : ∀ v ∈ ts, ∀ u, u ∈ ts ++ [t] ∧ u < v ↔ u ∈ ts ∧ u < v := by
      intro v hv u
      have := h2 v hv
      constructor
      · rintro ⟨hu, hlt⟩
        exact ⟨(hlast u).1 ⟨hu, by omega⟩, hlt⟩
      · rintro ⟨hu, hlt⟩
        exact ⟨by simp [hu], hlt⟩
    constructor
    · rintro ⟨s, hs⟩
      cases hr : run E snap tf ntimes true ts with
      | error e => rw [hr] at hs; cases hs
      | ok s0 =>
        rw [hr] at hs
        have hinv := run_inv hnn ts h1 (fun t ht => hsnap t (by simp [ht])) hr
        intro v hv
        rcases List.mem_append.1 hv with hv | hv
        · have := ih.1 ⟨s0, hr⟩ v hv
          intro hne ⟨u, hu⟩
          obtain ⟨ha, hb⟩ := this hne ⟨u, by have := (hold v hv u).1 ⟨hu.1, hu.2.1⟩; tauto⟩
          exact ⟨fun w hw => ⟨(hold v hv w).2 (ha w hw).1, (ha w hw).2⟩, hb⟩
        · have hv : v = t := by simpa using hv
          subst hv
          have := (loopStep_ok_iff hnn hinv (hok v (by simp)) (hsnap v (by simp))).1 ⟨s, hs⟩
          intro hne ⟨u, hu⟩
          obtain ⟨ha, hb⟩ := this hne ⟨u, (hlast u).1 ⟨hu.1, hu.2.1⟩, hu.2.2⟩
          exact ⟨fun w hw => ⟨(hlast w).2 (ha w hw).1, (ha w hw).2⟩, hb⟩
    · intro hall
      obtain ⟨s0, hr⟩ := ih.2 (by
        intro v hv hne ⟨u, hu⟩
        obtain ⟨ha, hb⟩ := hall v (by simp [hv]) hne ⟨u, by simp [hu.1], hu.2⟩
        exact ⟨fun w hw => ⟨(hold v hv w).1 (ha w hw).1, (ha w hw).2⟩, hb⟩)
      have hinv := run_inv hnn ts h1 (fun t ht => hsnap t (by simp [ht])) hr
      obtain ⟨s, hs⟩ := (loopStep_ok_iff (E := E) (tf := tf) (ntimes := ntimes) hnn hinv
        (hok t (by simp)) (hsnap t (by simp))).2 (by
        intro hne ⟨u, hu, hune⟩
        obtain ⟨ha, hb⟩ := hall t (by simp) hne ⟨u, by simp [hu], h2 u hu, hune⟩
        exact ⟨fun w hw => ⟨(hlast w).1 (ha w hw).1, (ha w hw).2⟩, hb⟩)
      exact ⟨s, by rw [hr]; exact hs⟩

/-- running longer only appends rows of later times -/
theorem run_prefix {E : Env α K Pt} (hnn : IsNN E.dist E.nn) {snap : Int → Except PyErr (Tbl α)}
    {tf : Option Int} {ntimes : Int} (ts ts' : List Int) (hts : (ts ++ ts').Pairwise (· < ·))
    (hsnap : ∀ t ∈ ts ++ ts', SnapRows (rowsAt snap t)) {s' : LoopState α}
    (h : run E snap tf ntimes true (ts ++ ts') = .ok s') {b : Int} (hb : ∀ t ∈ ts', b ≤ t)
    (hb' : ∀ t ∈ ts, t < b) :
    ∃ s, run E snap tf ntimes true ts = .ok s ∧
      s'.table.rows.filter (fun r => r.val.1 < b) = s.table.rows := by
  induction ts' using List.reverseRecOn generalizing s' with
  | nil =>
    rw [List.append_nil] at h hts hsnap
    refine ⟨s', h, ?_⟩
    have hinv := run_inv hnn ts hts hsnap h
    rw [List.filter_eq_self]
    intro r hr
    have := (hinv.hasTime r.val.1).1 ⟨r, hr, rfl⟩
    simpa using hb' _ this.1
  | append_singleton ts' t ih =>
    rw [← List.append_assoc] at h hts hsnap
    rw [run_snoc] at h
    obtain ⟨h1, h2⟩ := pairwise_snoc hts
    cases hr : run E snap tf ntimes true (ts ++ ts') with
    | error e => rw [hr] at h; cases h
    | ok s0 =>
      rw [hr] at h
      have hsn : ∀ t ∈ ts ++ ts', SnapRows (rowsAt snap t) :=
        fun t ht => hsnap t (List.mem_append_left _ ht)
      have hinv := run_inv hnn _ h1 hsn hr
      obtain ⟨s, hs, hf⟩ := ih h1 hsn hr (fun t ht => hb t (by simp [ht]))
      refine ⟨s, hs, ?_⟩
      have := (loopStep_inv hnn hinv h2 (hsnap t (by simp)) h).2
      rw [← hf, ← this, List.filter_filter]
      apply List.filter_congr
      intro r _
      have := hb t (by simp)
      by_cases hrb : r.val.1 < b
      · simp [hrb]; omega
      · simp [hrb]

/-! ### `irange` -/

theorem mem_irange {lo hi x : Int} : x ∈ irange lo hi ↔ lo ≤ x ∧ x < hi := by
  unfold irange
  rw [List.mem_map]
  constructor
  · rintro ⟨i, hi', rfl⟩
    rw [List.mem_range] at hi'
    omega
  · rintro ⟨h1, h2⟩
    exact ⟨(x - lo).toNat, by rw [List.mem_range]; omega, by omega⟩

theorem pairwise_irange (lo hi : Int) : (irange lo hi).Pairwise (· < ·) := by
  unfold irange
  rw [List.pairwise_map]
  exact List.pairwise_lt_range.imp (fun h => by omega)

theorem irange_append {a b c : Int} (h1 : a ≤ b) (h2 : b ≤ c) :
    irange a c = irange a b ++ irange b c := by
  unfold irange
  rw [show (c - a).toNat = (b - a).toNat + (c - b).toNat by omega, List.range_add, List.map_append,
    List.map_map]
  congr 1
  apply List.map_congr_left
  intro i _
  simp
  omega

end Trackeddy
