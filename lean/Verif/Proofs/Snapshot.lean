import Verif.Proofs.Loop

/-! Lemmas for the multi-level merge (`_detect_snapshot`). -/
namespace Trackeddy
open Spec Tbl

set_option linter.unusedSectionVars false
variable {α K Pt : Type} [Field K] [LinearOrder K] [IsStrictOrderedRing K]

/-! ### rows of a list of eddies -/

theorem mem_eddyRows {i : Nat} {e : Eddy α} {r : Row α} :
    r ∈ eddyRows i e ↔ r.id = i ∧ e[r.idx]? = some r.val := by
  unfold eddyRows
  rw [List.mem_mapIdx]
  constructor
  · rintro ⟨j, hj, rfl⟩
    exact ⟨rfl, List.getElem?_eq_getElem hj⟩
  · rintro ⟨h1, h2⟩
    obtain ⟨h3, h4⟩ := List.getElem?_eq_some_iff.1 h2
    exact ⟨r.idx, h3, by cases r; simp_all⟩

theorem mem_snapRows {es : List (Eddy α)} {r : Row α} :
    r ∈ snapRows es ↔ ∃ e, es[r.id]? = some e ∧ e[r.idx]? = some r.val := by
  unfold snapRows
  rw [List.mem_flatten]
  constructor
  · rintro ⟨l, hl, hr⟩
    rw [List.mem_mapIdx] at hl
    obtain ⟨i, hi, rfl⟩ := hl
    obtain ⟨h1, h2⟩ := mem_eddyRows.1 hr
    refine ⟨es[i], ?_, h2⟩
    rw [h1]; exact List.getElem?_eq_getElem hi
  · rintro ⟨e, h1, h2⟩
    obtain ⟨h3, h4⟩ := List.getElem?_eq_some_iff.1 h1
    refine ⟨eddyRows r.id e, List.mem_mapIdx.2 ⟨r.id, h3, by rw [h4]⟩, mem_eddyRows.2 ⟨rfl, h2⟩⟩

theorem snapRows_snoc (es : List (Eddy α)) (e : Eddy α) :
    snapRows (es ++ [e]) = snapRows es ++ eddyRows es.length e := by
  unfold snapRows
  rw [List.mapIdx_append]
  simp

theorem eddyRows_strict (i : Nat) (e : Eddy α) :
    (eddyRows i e).Pairwise (fun a b => key2 a < key2 b) := by
  unfold eddyRows
  rw [List.pairwise_iff_getElem]
  intro a b ha hb hab
  simp [key2, Prod.Lex.lt_iff, hab]

theorem key2_lt {r s : Row α} : key2 r < key2 s ↔ r.id < s.id ∨ r.id = s.id ∧ r.idx < s.idx := by
  simp [key2, Prod.Lex.lt_iff]

theorem snapRows_strict (es : List (Eddy α)) :
    (snapRows es).Pairwise (fun a b => key2 a < key2 b) := by
  induction es using List.reverseRecOn with
  | nil => simp [snapRows]
  | append_singleton es e ih =>
    rw [snapRows_snoc, List.pairwise_append]
    refine ⟨ih, eddyRows_strict _ _, ?_⟩
    intro a ha b hb
    obtain ⟨e', h1, _⟩ := mem_snapRows.1 ha
    have := (List.getElem?_eq_some_iff.1 h1).1
    have h2 := (mem_eddyRows.1 hb).1
    rw [key2_lt]; omega

theorem snapRows_contiguous {es : List (Eddy α)} (hne : ∀ e ∈ es, e ≠ []) :
    Contiguous (snapRows es) es.length := by
  intro i
  constructor
  · rintro ⟨r, hr, rfl⟩
    obtain ⟨e, h1, _⟩ := mem_snapRows.1 hr
    exact (List.getElem?_eq_some_iff.1 h1).1
  · intro hi
    have he := hne es[i] (List.getElem_mem hi)
    have hl := List.length_pos_iff.2 he
    refine ⟨⟨i, 0, es[i][0]⟩, mem_snapRows.2 ⟨es[i], ?_, ?_⟩, rfl⟩
    · exact List.getElem?_eq_getElem hi
    · exact List.getElem?_eq_getElem hl

theorem snapRows_hasFirst {es : List (Eddy α)} : HasFirst (snapRows es) := by
  intro r hr
  obtain ⟨e, h1, h2⟩ := mem_snapRows.1 hr
  have hl := (List.getElem?_eq_some_iff.1 h2).1
  have h0 : 0 < e.length := by omega
  exact ⟨⟨r.id, 0, e[0]⟩, mem_snapRows.2 ⟨e, h1, List.getElem?_eq_getElem h0⟩, rfl, rfl⟩

theorem heads_length {es : List (Eddy α)} (hne : ∀ e ∈ es, e ≠ []) : (heads es).length = es.length := by
  unfold heads
  rw [List.length_filterMap_eq_countP, List.countP_eq_length.2]
  intro e he
  have := hne e he
  cases e <;> simp_all

theorem eddyRows_first (i : Nat) (e : Eddy α) :
    (eddyRows i e).filter (fun r => r.idx = 0) = (e.head?.map fun v => (⟨i, 0, v⟩ : Row α)).toList := by
  unfold eddyRows
  cases e with
  | nil => rfl
  | cons v e =>
    rw [List.mapIdx_cons, List.filter_cons_of_pos (by simp), List.filter_eq_nil_iff.2]
    · rfl
    · intro r hr
      rw [List.mem_mapIdx] at hr
      obtain ⟨j, _, rfl⟩ := hr
      simp

theorem first_snapRows {es : List (Eddy α)} (hne : ∀ e ∈ es, e ≠ []) :
    (snapRows es).filter (fun r => r.idx = 0) = (heads es).mapIdx fun i v => ⟨i, 0, v⟩ := by
  induction es using List.reverseRecOn with
  | nil => rfl
  | append_singleton es e ih =>
    rw [snapRows_snoc, List.filter_append, ih (fun e he => hne e (by simp [he])), eddyRows_first]
    unfold heads
    rw [List.filterMap_append, List.mapIdx_append]
    have hl := heads_length (es := es) (fun e he => hne e (by simp [he]))
    unfold heads at hl
    rw [hl]
    have := hne e (by simp)
    cases e with
    | nil => simp at this
    | cons v e => simp

theorem heads_get {es : List (Eddy α)} (hne : ∀ e ∈ es, e ≠ []) (i : Nat) :
    (heads es)[i]? = (es[i]?).bind List.head? := by
  induction es using List.reverseRecOn with
  | nil => simp [heads]
  | append_singleton es e ih =>
    have hl := heads_length (es := es) (fun e he => hne e (by simp [he]))
    have ih := ih (fun e he => hne e (by simp [he]))
    unfold heads at *
    rw [List.filterMap_append]
    by_cases h : i < es.length
    · rw [List.getElem?_append_left (by omega), ih, List.getElem?_append_left h]
    · rw [List.getElem?_append_right (by omega), List.getElem?_append_right (by omega), hl]
      have := hne e (by simp)
      cases e with
      | nil => simp at this
      | cons v e =>
        cases hi : i - es.length <;> simp

theorem sortBy_of_perm {β κ : Type*} [LinearOrder κ] {key : β → κ} {l₁ l₂ : List β}
    (hp : l₁.Perm l₂) (hs : l₂.Pairwise (fun a b => key a < key b)) : sortBy key l₁ = l₂ := by
  apply sorted_ext (key := key) (pairwise_sortBy _) (hs.imp le_of_lt)
  intro k
  have h1 : ((sortBy key l₁).filter (fun x => key x = k)).Perm (l₂.filter (fun x => key x = k)) :=
    ((perm_sortBy l₁).trans hp).filter _
  have h2 : (l₂.filter (fun x => key x = k)).length ≤ 1 := by
    by_contra hgt
    have hpw := hs.filter (fun x => decide (key x = k))
    have hk : ∀ x ∈ l₂.filter (fun x => decide (key x = k)), key x = k := by
      intro x hx; simpa using (List.mem_filter.1 hx).2
    match hl : l₂.filter (fun x => decide (key x = k)), hpw, hk with
    | [], _, _ => rw [hl] at hgt; simp at hgt
    | [_], _, _ => rw [hl] at hgt; simp at hgt
    | a :: b :: l, hpw, hk =>
      have := (List.pairwise_cons.1 hpw).1 b (by simp)
      rw [hk a (by simp), hk b (by simp)] at this
      exact lt_irrefl _ this
  match hl : l₂.filter (fun x => decide (key x = k)) with
  | [] => rw [hl] at h1; exact h1.eq_nil
  | [a] => rw [hl] at h1; exact List.perm_singleton.1 h1
  | a :: b :: l => rw [hl] at h2; simp at h2

/-! ### merge in general -/

theorem rank_image {p n : Tbl α} (i : Nat) :
    (∃ x ∈ p.ids ++ n.ids, rank p n x = i) ↔ i < (usort (p.ids ++ n.ids)).length := by
  unfold rank
  constructor
  · rintro ⟨x, hx, rfl⟩
    exact List.idxOf_lt_length_of_mem (mem_usort.2 hx)
  · intro hi
    refine ⟨_, mem_usort.1 (List.getElem_mem hi), ?_⟩
    exact (nodup_usort _).idxOf_getElem i hi

theorem mergeReindex_spec {b : Bool} {p n t : Tbl α} (hp : p.WF) (hn : n.WF)
    (hfp : HasFirst p.rows) (hfn : HasFirst n.rows) (h : mergeReindex b p n = .ok t) :
    t.WF ∧ HasFirst t.rows ∧ SortedSnap t.rows ∧ (∃ k, Contiguous t.rows k) ∧
      (∃ c, t.lev = List.range c) ∧ (t.rows = [] ↔ p.rows = [] ∧ n.rows = []) := by
  obtain ⟨count, hcount, heq⟩ := mergeReindex_ok b hp hn
  rw [heq] at h
  injection h with h
  subst h
  have hids : ∀ r ∈ p.rows ++ n.rows, r.id ∈ p.ids ++ n.ids := by
    intro r hr
    rcases List.mem_append.1 hr with h | h
    · exact List.mem_append_left _ (mem_ids.2 ⟨r, h, rfl⟩)
    · exact List.mem_append_right _ (mem_ids.2 ⟨r, h, rfl⟩)
  refine ⟨?_, ?_, ?_, ⟨(usort (p.ids ++ n.ids)).length, ?_⟩, ⟨_, rfl⟩, ?_⟩
  · intro r hr
    obtain ⟨s, hs, rfl⟩ := mem_relab.1 (mem_sortBy.1 hr)
    simp only [List.mem_range]
    have := (rank_image (p := p) (n := n) _).1 ⟨s.id, hids s hs, rfl⟩
    omega
  · intro r hr
    obtain ⟨s, hs, rfl⟩ := mem_relab.1 (mem_sortBy.1 hr)
    have hf : ∃ q ∈ p.rows ++ n.rows, q.id = s.id ∧ q.idx = 0 := by
      rcases List.mem_append.1 hs with h | h
      · obtain ⟨q, hq, h1⟩ := hfp s h
        exact ⟨q, List.mem_append_left _ hq, h1⟩
      · obtain ⟨q, hq, h1⟩ := hfn s h
        exact ⟨q, List.mem_append_right _ hq, h1⟩
    obtain ⟨q, hq, h1, h2⟩ := hf
    exact ⟨_, mem_sortBy.2 (mem_relab.2 ⟨q, hq, rfl⟩), by simp [h1], h2⟩
  · rw [sortedSnap_iff]; exact pairwise_sortBy _
  · intro i
    rw [← rank_image]
    constructor
    · rintro ⟨r, hr, rfl⟩
      obtain ⟨s, hs, rfl⟩ := mem_relab.1 (mem_sortBy.1 hr)
      exact ⟨s.id, hids s hs, rfl⟩
    · rintro ⟨x, hx, rfl⟩
      have : ∃ s ∈ p.rows ++ n.rows, s.id = x := by
        rcases List.mem_append.1 hx with h | h
        · obtain ⟨s, hs, he⟩ := mem_ids.1 h
          exact ⟨s, List.mem_append_left _ hs, he⟩
        · obtain ⟨s, hs, he⟩ := mem_ids.1 h
          exact ⟨s, List.mem_append_right _ hs, he⟩
      obtain ⟨s, hs, rfl⟩ := this
      exact ⟨_, mem_sortBy.2 (mem_relab.2 ⟨s, hs, rfl⟩), rfl⟩
  · simp only [sortBy_eq_nil, relab, List.map_eq_nil_iff, List.append_eq_nil_iff]

theorem hasFirst_relab {l : List (Row α)} (h : HasFirst l) (g : Nat → Nat) :
    HasFirst (relab g l) := by
  intro r hr
  obtain ⟨s, hs, rfl⟩ := mem_relab.1 hr
  obtain ⟨q, hq, h1, h2⟩ := h s hs
  exact ⟨_, mem_relab.2 ⟨q, hq, rfl⟩, by simp [h1], h2⟩

theorem hasFirst_drop {t : Tbl α} (h : HasFirst t.rows) (l : List Nat) : HasFirst (t.drop l).rows := by
  intro r hr
  obtain ⟨h1, h2⟩ := List.mem_filter.1 hr
  obtain ⟨q, hq, h3, h4⟩ := h r h1
  exact ⟨q, List.mem_filter.2 ⟨hq, by rw [h3]; exact h2⟩, h3, h4⟩

theorem betterStep_inv {E : Env α K Pt} {p : Tbl α} {index : List Nat} {prev : Nat}
    {st st' : Tbl α × List Nat} {dup : Nat} (h1 : st.1.WF) (h2 : HasFirst st.1.rows)
    (h : betterStep E p index prev st dup = .ok st') : st'.1.WF ∧ HasFirst st'.1.rows := by
  unfold betterStep at h
  split at h
  · cases h
  · rename_i j hj
    split at h
    · cases h
    · cases h
    · split at h
      · injection h with h
        subst h
        exact ⟨rename_wf _ _ _, by simp only; rw [rename_rows]; exact hasFirst_relab h2 _⟩
      · injection h with h
        subst h
        exact ⟨drop_wf h1 _, hasFirst_drop h2 _⟩
    · cases h

theorem foldBetter_inv {E : Env α K Pt} {p : Tbl α} {index : List Nat} {prev : Nat}
    (ns : List Nat) {st st' : Tbl α × List Nat} (h1 : st.1.WF) (h2 : HasFirst st.1.rows)
    (h : ns.foldlM (betterStep E p index prev) st = .ok st') : st'.1.WF ∧ HasFirst st'.1.rows := by
  induction ns generalizing st with
  | nil => injection h with h; subst h; exact ⟨h1, h2⟩
  | cons a ns ih =>
    rw [List.foldlM_cons] at h
    cases hb : betterStep E p index prev st a with
    | error e => rw [hb] at h; cases h
    | ok s =>
      rw [hb] at h
      obtain ⟨h3, h4⟩ := betterStep_inv h1 h2 hb
      exact ih h3 h4 h

theorem updateCounter_ok {p n : Tbl α} {prev : Nat} (hp : p.lev.max? = some prev) (hn : n.WF) :
    updateCounter p n = .ok (⟨n.lev.map (· + prev + 1), relab (· + prev + 1) n.rows⟩, prev) := by
  unfold updateCounter
  rw [hp]
  simp only
  rw [setLevels_shift hn]
  rfl

theorem shift_wf {n : Tbl α} (hn : n.WF) (k : Nat) :
    Tbl.WF (⟨n.lev.map (· + k + 1), relab (· + k + 1) n.rows⟩ : Tbl α) := by
  intro r hr
  obtain ⟨s, hs, rfl⟩ := mem_relab.1 (show r ∈ relab (· + k + 1) n.rows from hr)
  exact List.mem_map.2 ⟨s.id, hn s hs, rfl⟩

/-- invariant of the joint table of a snapshot -/
structure JointInv (t : Tbl α) : Prop where
  wf : t.WF
  first : HasFirst t.rows
  sorted : SortedSnap t.rows
  contig : ∃ k, Contiguous t.rows k

theorem mergeLevel_inv {E : Env α K Pt} {joint cur t : Tbl α} (hj : JointInv joint)
    (hc : cur.WF) (hf : HasFirst cur.rows) (h : mergeLevel E joint cur = .ok t) : JointInv t := by
  unfold mergeLevel at h
  cases hd : detectNearest E joint cur with
  | error e => rw [hd] at h; cases h
  | ok x =>
    obtain ⟨index, nearest⟩ := x
    rw [hd, show ∀ (x : List Nat × List Nat), (Except.ok x : Except PyErr _) = pure x from fun _ => rfl,
      pure_bind] at h
    simp only at h
    unfold updateBetter at h
    cases hm : joint.lev.max? with
    | none =>
      have : updateCounter joint cur = .error .valueError := by unfold updateCounter; rw [hm]
      rw [this] at h; cases h
    | some prev =>
      rw [updateCounter_ok hm hc] at h
      rw [show ∀ (x : Tbl α × Nat), (Except.ok x : Except PyErr _) = pure x from fun _ => rfl,
        pure_bind] at h
      simp only at h
      cases hb : nearest.foldlM (betterStep E joint index prev)
          (⟨cur.lev.map (· + prev + 1), relab (· + prev + 1) cur.rows⟩, []) with
      | error e => rw [hb] at h; cases h
      | ok st =>
        obtain ⟨n, replaced⟩ := st
        rw [hb, show ∀ (x : Tbl α × List Nat), (Except.ok x : Except PyErr _) = pure x from fun _ => rfl,
          pure_bind] at h
        obtain ⟨hn1, hn2⟩ := foldBetter_inv nearest (shift_wf hc prev)
          (by exact hasFirst_relab hf (· + prev + 1)) hb
        simp only at h hn1 hn2
        have hp : Tbl.WF (if replaced = [] then joint else joint.drop replaced) ∧
            HasFirst (if replaced = [] then joint else joint.drop replaced).rows := by
          split
          · exact ⟨hj.wf, hj.first⟩
          · exact ⟨drop_wf hj.wf _, hasFirst_drop hj.first _⟩
        have := mergeReindex_spec (t := t) hp.1 hn1 hp.2 hn2 h
        exact ⟨this.1, this.2.1, this.2.2.1, this.2.2.2.1⟩

/-- condition on the table of one level (C19, C50): contour points of eddies numbered 0,1,2,... -/
def LevelTable (t : Tbl α) : Prop := ∃ es : List (Eddy α), (∀ e ∈ es, e ≠ []) ∧
  t.rows = snapRows es ∧ t.lev = usort t.ids

theorem LevelTable.inv {t : Tbl α} (h : LevelTable t) : JointInv t := by
  obtain ⟨es, hne, hr, hl⟩ := h
  refine ⟨?_, ?_, ?_, ?_⟩
  · intro r hr'
    rw [hl, mem_usort]; exact mem_ids.2 ⟨r, hr', rfl⟩
  · rw [hr]; exact snapRows_hasFirst
  · rw [hr, sortedSnap_iff]; exact (snapRows_strict es).imp le_of_lt
  · rw [hr]; exact ⟨_, snapRows_contiguous hne⟩

theorem detectSnapshot_inv [DecidableEq K] {E : Env α K Pt} {detect : K → Except PyErr (Tbl α)}
    (hdet : ∀ l t, detect l = .ok t → LevelTable t) (levels : List K) {t : Tbl α}
    (h : detectSnapshot E detect levels = .ok t) : JointInv t := by
  unfold detectSnapshot at h
  generalize levels.filter (· ≠ 0) = ls at h
  induction ls using List.reverseRecOn generalizing t with
  | nil =>
    injection h with h
    subst h
    refine ⟨by intro r hr; simp at hr, by intro r hr; simp at hr, by simp [SortedSnap], 0, ?_⟩
    intro i; simp
  | append_singleton ls l ih =>
    rw [foldlM_snoc] at h
    cases hq : ls.foldlM (levelStep E detect) ⟨[], []⟩ with
    | error e => rw [hq] at h; cases h
    | ok joint =>
      have hj := ih hq
      rw [hq] at h
      simp only [Except.bind, levelStep] at h
      cases hd : detect l with
      | error e => rw [hd] at h; cases h
      | ok cur =>
        rw [hd, show ∀ (x : Tbl α), (Except.ok x : Except PyErr _) = pure x from fun _ => rfl,
          pure_bind] at h
        have hc := (hdet l cur hd).inv
        split at h
        · injection h with h; subst h; exact hj
        · split at h
          · injection h with h; subst h; exact hc
          · exact mergeLevel_inv hj hc.wf hc.first h

end Trackeddy
