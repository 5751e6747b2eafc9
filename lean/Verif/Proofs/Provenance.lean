import Verif.Proofs.Snapshot
import Verif.Proofs.Step
import Verif.Spec.Pipeline

/-! Where the rows of a table come from: tables are made of whole eddies, operations on tables relabel or drop them. -/
namespace Trackeddy
open Spec

set_option linter.unusedSectionVars false
variable {α K Pt : Type} [Field K] [LinearOrder K] [IsStrictOrderedRing K] {P : Eddy α → Prop}

theorem Spec.MadeOf.perm {a b : List (Row α)} (h : MadeOf P b) (hp : a.Perm b) : MadeOf P a := by
  obtain ⟨l, h1, h2⟩ := h
  exact ⟨l, h1, hp.trans h2⟩

theorem Spec.MadeOf.mono {Q : Eddy α → Prop} (hPQ : ∀ e, P e → Q e) {a : List (Row α)} (h : MadeOf P a) : MadeOf Q a := by
  obtain ⟨l, h1, h2⟩ := h
  exact ⟨l, fun p hp => hPQ _ (h1 p hp), h2⟩

theorem Spec.MadeOf.nil : MadeOf P [] := ⟨[], by simp, List.Perm.refl _⟩

theorem Spec.MadeOf.append {a b : List (Row α)} (h : MadeOf P a) (h' : MadeOf P b) : MadeOf P (a ++ b) := by
  obtain ⟨l, h1, h2⟩ := h
  obtain ⟨l', h3, h4⟩ := h'
  refine ⟨l ++ l', ?_, ?_⟩
  · intro p hp
    rcases List.mem_append.1 hp with hp | hp
    · exact h1 p hp
    · exact h3 p hp
  · rw [List.flatMap_append]
    exact h2.append h4

/-- new identifiers -/
theorem Spec.MadeOf.relabel {a : List (Row α)} (h : MadeOf P a) (f : Nat → Nat) :
    MadeOf P (a.map fun r => ⟨f r.id, r.idx, r.val⟩) := by
  obtain ⟨l, h1, h2⟩ := h
  refine ⟨l.map fun p => (f p.1, p.2), ?_, ?_⟩
  · intro p hp
    obtain ⟨q, hq, rfl⟩ := List.mem_map.1 hp
    exact h1 q hq
  · refine (h2.map _).trans (List.Perm.of_eq ?_)
    rw [List.map_flatMap, List.flatMap_map]
    congr 1
    funext p
    apply List.ext_getElem?
    intro i
    simp only [eddyRows, List.getElem?_map, List.getElem?_mapIdx, Option.map_map]
    rfl

/-- identifiers removed -/
theorem Spec.MadeOf.keep {a : List (Row α)} (h : MadeOf P a) (q : Nat → Bool) :
    MadeOf P (a.filter fun r => q r.id) := by
  obtain ⟨l, h1, h2⟩ := h
  refine ⟨l.filter fun p => q p.1, ?_, ?_⟩
  · intro p hp
    exact h1 p (List.mem_filter.1 hp).1
  · refine (h2.filter _).trans (List.Perm.of_eq ?_)
    clear h1 h2
    induction l with
    | nil => rfl
    | cons p l ih =>
      rw [List.flatMap_cons, List.filter_append, ih, List.filter_cons]
      cases hq : q p.1 with
      | true =>
        rw [if_pos rfl, List.flatMap_cons]
        congr 1
        rw [List.filter_eq_self]
        intro r hr
        rw [(mem_eddyRows.1 hr).1, hq]
      | false =>
        simp only [Bool.false_eq_true, if_false]
        rw [List.filter_eq_nil_iff.2, List.nil_append]
        intro r hr
        rw [(mem_eddyRows.1 hr).1, hq]
        simp

theorem Spec.MadeOf.snapRows {es : List (Eddy α)} (h : ∀ e ∈ es, P e) : MadeOf P (snapRows es) := by
  refine ⟨es.mapIdx fun i e => (i, e), ?_, List.Perm.of_eq ?_⟩
  · intro p hp
    obtain ⟨i, hi, rfl⟩ := List.mem_mapIdx.1 hp
    exact h _ (List.getElem_mem hi)
  · unfold Spec.snapRows
    rw [List.flatMap_def]
    congr 1
    apply List.ext_getElem?
    intro i
    simp only [List.getElem?_map, List.getElem?_mapIdx, Option.map_map]
    rfl

theorem mapM_relabel {f : Nat → Option Nat} {l l' : List (Row α)}
    (h : (l.mapM fun (r : Row α) =>
      match f r.id with
      | some i => Except.ok ({ r with id := i } : Row α)
      | none => Except.error PyErr.valueError) = .ok l') :
    l' = l.map fun r => ⟨(f r.id).getD 0, r.idx, r.val⟩ := by
  induction l generalizing l' with
  | nil => injection h with h; subst h; rfl
  | cons a l ih =>
    rw [List.mapM_cons] at h
    cases ha : f a.id with
    | none => rw [ha] at h; cases h
    | some b =>
      rw [ha] at h
      simp only [bind, Except.bind, pure, Except.pure] at h
      split at h
      · cases h
      · rename_i m hm
        injection h with h
        subst h
        rw [List.map_cons, ← ih hm, ha]
        rfl

theorem setLevels_made {t t' : Tbl α} {new : List Nat} (h : t.setLevels new = .ok t') (hm : MadeOf P t.rows) :
    MadeOf P t'.rows := by
  unfold Tbl.setLevels at h
  simp only [Except.map] at h
  split at h
  · cases h
  · rename_i l hl
    injection h with h
    subst h
    rw [mapM_relabel (f := fun i => new[t.lev.idxOf i]?) hl]
    exact hm.relabel fun i => new[t.lev.idxOf i]?.getD 0

theorem rename_made {t : Tbl α} (hm : MadeOf P t.rows) (old new : Nat) : MadeOf P (t.rename old new).rows := by
  have := hm.relabel fun i => if i = old then new else i
  unfold Tbl.rename Tbl.resetSet
  simp only
  convert this using 2
  funext r
  split <;> rfl

theorem drop_made {t : Tbl α} (hm : MadeOf P t.rows) (l : List Nat) : MadeOf P (t.drop l).rows :=
  hm.keep fun i => decide (i ∉ l)

theorem mergeReindex_made {b : Bool} {p n t : Tbl α} (h : mergeReindex b p n = .ok t) (hp : MadeOf P p.rows)
    (hn : MadeOf P n.rows) : MadeOf P t.rows := by
  unfold mergeReindex at h
  simp only [bind, Except.bind, pure, Except.pure] at h
  split at h
  · cases h
  · rename_i t' ht
    injection h with h
    subst h
    refine (setLevels_made ht ?_).perm (List.perm_insertionSort _ _)
    exact hp.append hn

theorem updateCounter_made {p n n' : Tbl α} {k : Nat} (h : updateCounter p n = .ok (n', k)) (hn : MadeOf P n.rows) :
    MadeOf P n'.rows := by
  unfold updateCounter at h
  split at h
  · cases h
  · simp only [bind, Except.bind, pure, Except.pure] at h
    split at h
    · cases h
    · rename_i t' ht
      injection h with h
      injection h with h1 h2
      subst h1
      exact setLevels_made ht hn

theorem betterStep_made {E : Env α K Pt} {p : Tbl α} {index : List Nat} {prev : Nat} {st st' : Tbl α × List Nat} {d : Nat}
    (h : betterStep E p index prev st d = .ok st') (hm : MadeOf P st.1.rows) : MadeOf P st'.1.rows := by
  unfold betterStep at h
  split at h
  · cases h
  · split at h
    · cases h
    · cases h
    · split at h
      · injection h with h; subst h; exact rename_made hm _ _
      · injection h with h; subst h; exact drop_made hm _
    · cases h

theorem foldBetter_made {E : Env α K Pt} {p : Tbl α} {index : List Nat} {prev : Nat} {l : List Nat}
    {st st' : Tbl α × List Nat} (h : l.foldlM (betterStep E p index prev) st = .ok st') (hm : MadeOf P st.1.rows) :
    MadeOf P st'.1.rows := by
  induction l generalizing st with
  | nil => injection h with h; subst h; exact hm
  | cons a l ih =>
    rw [List.foldlM_cons] at h
    cases hb : betterStep E p index prev st a with
    | error e => rw [hb] at h; cases h
    | ok st1 =>
      rw [hb] at h
      exact ih h (betterStep_made hb hm)

theorem mergeLevel_made {E : Env α K Pt} {joint cur t : Tbl α} (h : mergeLevel E joint cur = .ok t)
    (hj : MadeOf P joint.rows) (hc : MadeOf P cur.rows) : MadeOf P t.rows := by
  unfold mergeLevel updateBetter at h
  simp only [bind, Except.bind, pure, Except.pure] at h
  split at h
  · cases h
  · split at h
    · cases h
    · rename_i x hx
      split at hx
      · cases hx
      · rename_i y hy
        split at hx
        · cases hx
        · rename_i z hz
          injection hx with hx
          subst hx
          refine mergeReindex_made h ?_ ?_
          · simp only
            split
            · exact hj
            · exact drop_made hj _
          · exact foldBetter_made hz (updateCounter_made (k := y.2) (by rw [hy]) hc)

/-- the eddies of a snapshot are eddies of its levels -/
theorem detectSnapshot_made [DecidableEq K] {E : Env α K Pt} {detect : K → Except PyErr (Tbl α)} {levels : List K} {t : Tbl α}
    (h : detectSnapshot E detect levels = .ok t)
    (hP : ∀ l ∈ levels, l ≠ 0 → ∀ tl, detect l = .ok tl → MadeOf P tl.rows) : MadeOf P t.rows := by
  have hls : ∀ l ∈ levels.filter (· ≠ 0), l ∈ levels ∧ l ≠ 0 := by
    intro l hl; simpa using hl
  unfold detectSnapshot at h
  generalize levels.filter (· ≠ 0) = ls at h hls
  induction ls using List.reverseRecOn generalizing t with
  | nil =>
    injection h with h
    subst h
    exact MadeOf.nil
  | append_singleton ls l ih =>
    rw [foldlM_snoc] at h
    cases hq : ls.foldlM (levelStep E detect) ⟨[], []⟩ with
    | error e => rw [hq] at h; cases h
    | ok joint =>
      have hj := ih hq fun l hl => hls l (by simp [hl])
      have hl := hls l (by simp)
      rw [hq] at h
      simp only [Except.bind, levelStep] at h
      cases hd : detect l with
      | error e => rw [hd] at h; cases h
      | ok cur =>
        rw [hd, show ∀ (x : Tbl α), (Except.ok x : Except PyErr _) = pure x from fun _ => rfl,
          pure_bind] at h
        have hc := hP l hl.1 hl.2 cur hd
        split at h
        · injection h with h; subst h; exact hj
        · split at h
          · injection h with h
            subst h
            exact hc
          · exact mergeLevel_made h hj hc

theorem tagged_made {Q : Int → Eddy α → Prop} {rows : List (Row α)} {u : Int} (h : MadeOf (Q u) rows) (g : Nat → Nat) :
    MadeOfT Q (tagged g u rows) := by
  obtain ⟨l, h1, h2⟩ := h
  refine ⟨l.map fun p => (g p.1, u, p.2), ?_, ?_⟩
  · intro p hp
    obtain ⟨q, hq, rfl⟩ := List.mem_map.1 hp
    exact h1 q hq
  · refine (h2.map _).trans (List.Perm.of_eq ?_)
    rw [List.map_flatMap, List.flatMap_map]
    congr 1
    funext p
    apply List.ext_getElem?
    intro i
    simp only [eddyRows, atTime, List.getElem?_map, List.getElem?_mapIdx, Option.map_map]
    rfl

theorem Spec.MadeOfT.flatMap {Q : Int → Eddy α → Prop} {ι : Type} {f : ι → List (Row (Int × α))} {l : List ι}
    (h : ∀ i ∈ l, MadeOfT Q (f i)) : MadeOfT Q (l.flatMap f) := by
  induction l with
  | nil => exact ⟨[], by simp, List.Perm.refl _⟩
  | cons a l ih =>
    obtain ⟨l1, h1, h2⟩ := h a List.mem_cons_self
    obtain ⟨l2, h3, h4⟩ := ih fun i hi => h i (List.mem_cons_of_mem _ hi)
    refine ⟨l1 ++ l2, ?_, ?_⟩
    · intro p hp
      rcases List.mem_append.1 hp with hp | hp
      · exact h1 p hp
      · exact h3 p hp
    · rw [List.flatMap_cons, List.flatMap_append]
      exact h2.append h4

/-- the eddies of a run are eddies of its snapshots -/
theorem timeTracking_made {E : Env α K Pt} (hnn : IsNN E.dist E.nn)
    {snap : Int → Except PyErr (Tbl α)} (hsnap : ∀ t C, snap t = .ok C → SnapRows C.rows)
    {t0 : Int} {tf : Option Int} {T : Nat} {ntimes : Int} {s : LoopState α}
    (h : timeTracking E snap t0 tf T ntimes true = .ok s) {Q : Int → Eddy α → Prop}
    (hQ : ∀ t ∈ trackTimes t0 tf T, ∀ C, snap t = .ok C → MadeOf (Q t) C.rows) : MadeOfT Q s.table.rows := by
  have hp : (trackTimes t0 tf T).Pairwise (· < ·) := by
    unfold trackTimes
    split
    · exact pairwise_irange _ _
    · split <;> exact pairwise_irange _ _
  have hinv := run_inv hnn _ hp (fun t _ => ?_) h
  · obtain ⟨g, hg⟩ := hinv.cons
    have : MadeOfT Q ((trackTimes t0 tf T).flatMap fun u => tagged (g u) u (rowsAt snap u)) := by
      apply MadeOfT.flatMap
      intro u hu
      apply tagged_made
      unfold rowsAt
      cases hs : snap u with
      | ok C => exact hQ u hu C hs
      | error e => exact MadeOf.nil
    obtain ⟨l, h1, h2⟩ := this
    exact ⟨l, h1, hg.trans h2⟩
  · unfold rowsAt
    cases hs : snap t with
    | ok C => exact hsnap t C hs
    | error e => exact ⟨by intro r hr; simp at hr, 0, by intro i; simp⟩

end Trackeddy
