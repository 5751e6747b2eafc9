import Verif.Proofs.Snapshot

/-! The merge of one level refines the list-level rule. -/
namespace Trackeddy
open Spec Tbl

set_option linter.unusedSectionVars false
variable {α K Pt : Type} [Field K] [LinearOrder K] [IsStrictOrderedRing K]

theorem first_filter_relab (l : List (Row α)) (g : Nat → Nat) (x : Nat)
    (h1 : ∀ i, g i = x ↔ i = x) :
    ((relab g l).filter (fun r => r.idx = 0)).filter (fun r => r.id = x) =
      (l.filter (fun r => r.idx = 0)).filter (fun r => r.id = x) := by
  unfold relab
  rw [List.filter_map, List.filter_map]
  have e1 : List.filter ((fun r : Row α => decide (r.id = x)) ∘ fun r : Row α => { r with id := g r.id })
      (List.filter ((fun r : Row α => decide (r.idx = 0)) ∘ fun r : Row α => { r with id := g r.id }) l) =
      (l.filter (fun r => r.idx = 0)).filter (fun r => r.id = x) := by
    apply List.filter_congr
    intro r _
    simp [h1]
  rw [e1]
  conv_rhs => rw [← List.map_id ((l.filter (fun r => r.idx = 0)).filter (fun r => r.id = x))]
  apply List.map_congr_left
  intro r hr
  have := (List.mem_filter.1 hr).2
  simp only [decide_eq_true_eq] at this
  have h2 := (h1 r.id).2 this
  cases r
  simp_all

theorem foldBetter_ok {E : Env α K Pt} {p : Tbl α} {index : List Nat} {prev : Nat}
    {jf : Nat → Nat} {act : Nat → Bool} :
    ∀ (ns : List Nat), ns.Nodup → ∀ (n : Tbl α) (rep : List Nat), n.WF →
    (∀ i ∈ ns, index[i]? = some (jf i) ∧ jf i ≤ prev ∧ ∃ av bv : Row α,
      p.first.filter (·.id = jf i) = [av] ∧ n.first.filter (·.id = i + prev + 1) = [bv] ∧
      (act i = true ↔ scoreLt (E.ellErr bv.val) (E.ellErr av.val) ∧ scoreLt (E.gauErr bv.val) (E.gauErr av.val))) →
    ∃ n' : Tbl α, ns.foldlM (betterStep E p index prev) (n, rep) =
        .ok (n', rep ++ (ns.filter act).map jf) ∧ n'.WF ∧
      n'.rows = relab (fun x => if prev + 1 ≤ x ∧ x - (prev + 1) ∈ ns then jf (x - (prev + 1)) else x)
        (n.rows.filter fun r => ¬ (prev + 1 ≤ r.id ∧ r.id - (prev + 1) ∈ ns ∧
          act (r.id - (prev + 1)) = false)) := by
  intro ns
  induction ns with
  | nil =>
    intro _ n rep hwf _
    refine ⟨n, by simp; rfl, hwf, ?_⟩
    simp only [List.not_mem_nil, and_false, false_and, if_false, not_false_eq_true, decide_true]
    rw [relab_id (by simp), List.filter_eq_self.2 (by simp)]
  | cons a ns ih =>
    intro hnd n rep hwf hyp
    rw [List.nodup_cons] at hnd
    obtain ⟨ha1, ha2, av, bv, ha3, ha4, ha5⟩ := hyp a (by simp)
    rw [List.foldlM_cons]
    by_cases hact : act a
    · have hcond := ha5.1 hact
      have hstep : betterStep E p index prev (n, rep) a =
          .ok (n.rename (a + prev + 1) (jf a), rep ++ [jf a]) := by
        unfold betterStep
        rw [ha1]
        simp only [ha3, ha4]
        rw [if_pos hcond]
      obtain ⟨n', h1, h2, h3⟩ := ih hnd.2 (n.rename (a + prev + 1) (jf a)) (rep ++ [jf a])
        (rename_wf _ _ _) (by
          intro i hi
          obtain ⟨b1, b2, av', bv', b3, b4, b5⟩ := hyp i (by simp [hi])
          refine ⟨b1, b2, av', bv', b3, ?_, b5⟩
          have hne : i ≠ a := by rintro rfl; exact hnd.1 hi
          unfold Tbl.first at b4 ⊢
          rw [rename_rows, first_filter_relab]
          · exact b4
          · intro x
            by_cases hx : x = a + prev + 1
            · simp only [hx, if_true]
              constructor
              · intro h; omega
              · intro h; omega
            · simp [hx])
      refine ⟨n', ?_, h2, ?_⟩
      · rw [hstep]
        simp only [List.filter_cons, hact, if_true, List.map_cons]
        rw [show rep ++ jf a :: (ns.filter act).map jf = rep ++ [jf a] ++ (ns.filter act).map jf by simp]
        exact h1
      · rw [h3, rename_rows]
        have hfilt : ∀ (l : List (Row α)) (g : Nat → Nat) (q : Nat → Bool),
            (relab g l).filter (fun r => q r.id) = relab g (l.filter fun r => q (g r.id)) := by
          intro l g q
          unfold relab
          rw [List.filter_map]
          rfl
        have hfilt' := hfilt n.rows (fun i => if i = a + prev + 1 then jf a else i)
          (fun x => ¬ (prev + 1 ≤ x ∧ x - (prev + 1) ∈ ns ∧ act (x - (prev + 1)) = false))
        rw [hfilt', relab_relab]
        have hq : (n.rows.filter fun r => decide (¬ (prev + 1 ≤ (if r.id = a + prev + 1 then jf a else r.id) ∧
            (if r.id = a + prev + 1 then jf a else r.id) - (prev + 1) ∈ ns ∧
            act ((if r.id = a + prev + 1 then jf a else r.id) - (prev + 1)) = false))) =
            (n.rows.filter fun r => decide (¬ (prev + 1 ≤ r.id ∧ r.id - (prev + 1) ∈ a :: ns ∧
              act (r.id - (prev + 1)) = false))) := by
          apply List.filter_congr
          intro r _
          by_cases hr : r.id = a + prev + 1
          · have e : r.id - (prev + 1) = a := by omega
            simp only [hr, if_true]
            have : ¬ prev + 1 ≤ jf a := by omega
            have e2 : a + prev + 1 - (prev + 1) = a := by omega
            simp [this, e2, hact]
          · simp only [hr, if_false]
            by_cases hp1 : prev + 1 ≤ r.id
            · have e : r.id - (prev + 1) ≠ a := by omega
              simp [e]
            · simp [hp1]
        rw [hq]
        apply relab_congr
        intro r _
        by_cases hr : r.id = a + prev + 1
        · have e : a + prev + 1 - (prev + 1) = a := by omega
          simp only [hr, if_true]
          rw [if_neg (by omega), if_pos ⟨by omega, by rw [e]; simp⟩, e]
        · simp only [hr, if_false]
          by_cases hp1 : prev + 1 ≤ r.id
          · have e : r.id - (prev + 1) ≠ a := by omega
            simp [e]
          · simp [hp1]
    · have hact' : act a = false := by simpa using hact
      have hcond : ¬ (scoreLt (E.ellErr bv.val) (E.ellErr av.val) ∧ scoreLt (E.gauErr bv.val) (E.gauErr av.val)) := fun h => hact (ha5.2 h)
      have hstep : betterStep E p index prev (n, rep) a =
          .ok (n.drop [a + prev + 1], rep) := by
        unfold betterStep
        rw [ha1]
        simp only [ha3, ha4]
        rw [if_neg hcond]
      obtain ⟨n', h1, h2, h3⟩ := ih hnd.2 (n.drop [a + prev + 1]) rep (drop_wf hwf _) (by
          intro i hi
          obtain ⟨b1, b2, av', bv', b3, b4, b5⟩ := hyp i (by simp [hi])
          refine ⟨b1, b2, av', bv', b3, ?_, b5⟩
          have hne : i ≠ a := by rintro rfl; exact hnd.1 hi
          rw [← b4]
          unfold Tbl.first Tbl.drop
          simp only [List.filter_filter]
          apply List.filter_congr
          intro r _
          by_cases hx : r.id = i + prev + 1
          · have : ¬ r.id = a + prev + 1 := by omega
            simp [hx]
            omega
          · simp [hx])
      refine ⟨n', ?_, h2, ?_⟩
      · rw [hstep]
        simp only [List.filter_cons, hact', Bool.false_eq_true, if_false]
        exact h1
      · rw [h3]
        unfold Tbl.drop
        simp only [List.filter_filter]
        have hq : (n.rows.filter fun r => decide (¬ (prev + 1 ≤ r.id ∧ r.id - (prev + 1) ∈ ns ∧
            act (r.id - (prev + 1)) = false)) && decide (r.id ∉ [a + prev + 1])) =
            (n.rows.filter fun r => decide (¬ (prev + 1 ≤ r.id ∧ r.id - (prev + 1) ∈ a :: ns ∧
              act (r.id - (prev + 1)) = false))) := by
          apply List.filter_congr
          intro r _
          by_cases hr : r.id = a + prev + 1
          · have e : a + prev + 1 - (prev + 1) = a := by omega
            simp [hr, e, hact']
          · by_cases hp1 : prev + 1 ≤ r.id
            · have e : r.id - (prev + 1) ≠ a := by omega
              simp [e, hr]
            · simp [hp1, hr]
        rw [hq]
        apply relab_congr
        intro r hr
        have hr2 := (List.mem_filter.1 hr).2
        simp only [decide_eq_true_eq] at hr2
        by_cases hp1 : prev + 1 ≤ r.id
        · by_cases e : r.id - (prev + 1) = a
          · exfalso
            apply hr2
            exact ⟨hp1, by simp [e], by rw [e]; exact hact'⟩
          · simp [e]
        · simp [hp1]

/-! ### counting the unmatched eddies -/

/-- number of unmatched eddies before position `c` -/
def cnt (near : Nat → Bool) (c : Nat) : Nat := ((List.range c).filter fun c' => !near c').length

theorem cnt_succ (near : Nat → Bool) (c : Nat) :
    cnt near (c + 1) = cnt near c + if near c = false then 1 else 0 := by
  unfold cnt
  rw [List.range_succ, List.filter_append, List.length_append]
  congr 1
  by_cases h : near c = false
  · simp [h]
  · simp [h, List.filter_cons]

theorem cnt_mono (near : Nat → Bool) {c d : Nat} (h : c ≤ d) : cnt near c ≤ cnt near d := by
  induction d with
  | zero => simp_all
  | succ d ih =>
    rw [cnt_succ]
    rcases Nat.lt_or_eq_of_le h with h | h
    · have := ih (by omega); omega
    · subst h; rw [cnt_succ]

theorem cnt_lt {near : Nat → Bool} {c d : Nat} (h : c < d) (hc : near c = false) :
    cnt near c < cnt near d := by
  have := cnt_mono near (show c + 1 ≤ d from h)
  rw [cnt_succ, if_pos hc] at this
  omega

theorem cnt_inj {near : Nat → Bool} {c d : Nat} (hc : near c = false) (hd : near d = false)
    (h : cnt near c = cnt near d) : c = d := by
  rcases Nat.lt_trichotomy c d with hlt | heq | hgt
  · have := cnt_lt hlt hc; omega
  · exact heq
  · have := cnt_lt hgt hd; omega

theorem unmatched_get {near : Nat → Bool} {m i j : Nat} :
    ((List.range m).filter fun c => !near c)[j]? = some i ↔
      i < m ∧ near i = false ∧ cnt near i = j := by
  induction m with
  | zero => simp
  | succ m ih =>
    rw [List.range_succ, List.filter_append, List.getElem?_append]
    split
    · rename_i hlt
      rw [ih]
      constructor
      · rintro ⟨h1, h2⟩; exact ⟨by omega, h2⟩
      · rintro ⟨h1, h2, h3⟩
        refine ⟨?_, h2, h3⟩
        by_contra hge
        have : i = m := by omega
        subst this
        unfold cnt at h3
        omega
    · rename_i hge
      have hlen : ((List.range m).filter fun c => !near c).length = cnt near m := rfl
      rw [hlen] at hge ⊢
      by_cases hm : near m = false
      · rw [List.filter_cons_of_pos (by simp [hm]), List.filter_nil]
        constructor
        · intro h
          have hj : j - cnt near m = 0 := by
            by_contra hne
            rw [List.getElem?_eq_none (by simp; omega)] at h
            cases h
          rw [hj] at h
          simp at h
          subst h
          exact ⟨by omega, hm, by omega⟩
        · rintro ⟨h1, h2, h3⟩
          have hi : i = m := by
            by_contra hne
            have := cnt_lt (show i < m by omega) h2
            omega
          subst hi
          rw [h3]; simp
      · rw [List.filter_cons_of_neg (by simpa using hm), List.filter_nil]
        simp only [List.getElem?_nil]
        constructor
        · intro h; cases h
        · rintro ⟨h1, h2, h3⟩
          exfalso
          by_cases hi : i = m
          · subst hi; exact hm h2
          · have := cnt_lt (show i < m by omega) h2
            omega

theorem filterMap_get {β γ : Type} {f : β → Option γ} {l : List β} (h : ∀ x ∈ l, (f x).isSome)
    (i : Nat) : (l.filterMap f)[i]? = (l[i]?).bind f := by
  induction l generalizing i with
  | nil => simp
  | cons a l ih =>
    obtain ⟨b, hb⟩ := Option.isSome_iff_exists.1 (h a (by simp))
    rw [List.filterMap_cons, hb]
    cases i with
    | zero => simp [hb]
    | succ i => simpa using ih (fun x hx => h x (by simp [hx])) i

theorem mapIdx_filter_id (l : List α) (i : Nat) {v : α} (h : l[i]? = some v) :
    (l.mapIdx fun i v => (⟨i, 0, v⟩ : Row α)).filter (fun r => r.id = i) = [⟨i, 0, v⟩] := by
  induction l using List.reverseRecOn with
  | nil => simp at h
  | append_singleton l a ih =>
    rw [List.mapIdx_append, List.filter_append]
    by_cases hi : i < l.length
    · rw [List.getElem?_append_left hi] at h
      rw [ih h, List.filter_eq_nil_iff.2]
      · rfl
      · intro r hr
        simp at hr
        subst hr
        simp; omega
    · have hlen := (List.getElem?_eq_some_iff.1 h).1
      have : i = l.length := by simp at hlen; omega
      subst this
      rw [List.getElem?_append_right (by omega)] at h
      simp at h
      subst h
      rw [List.filter_eq_nil_iff.2]
      · simp
      · intro r hr
        rw [List.mem_mapIdx] at hr
        obtain ⟨j, hj, rfl⟩ := hr
        simp; omega

theorem idxOf_shift {k s m : Nat} (hs : k ≤ s) {near : Nat → Bool} {c : Nat} (hc : c < m)
    (hn : near c = false) :
    (List.range k ++ ((List.range m).filter fun c => !near c).map (· + s)).idxOf (c + s) =
      k + cnt near c := by
  have hget : ((List.range m).filter fun c => !near c)[cnt near c]? = some c :=
    unmatched_get.2 ⟨hc, hn, rfl⟩
  rw [List.idxOf_append_of_notMem (by simp; omega), List.length_range]
  congr 1
  have h2 : (((List.range m).filter fun c => !near c).map (· + s))[cnt near c]? = some (c + s) := by
    rw [List.getElem?_map, hget]; rfl
  obtain ⟨h3, h4⟩ := List.getElem?_eq_some_iff.1 h2
  rw [← h4]
  apply List.Nodup.idxOf_getElem
  apply List.Nodup.map
  · intro a b h; simpa using h
  · exact List.Nodup.filter _ List.nodup_range

/-! ### the refinement -/

theorem scoreLt_iff {x y : Option K} : scoreLt x y = true ↔ ∃ a b, x = some a ∧ y = some b ∧ a < b := by
  unfold scoreLt
  cases x <;> cases y <;> simp

/-- Boolean version of `Lower` -/
def actB (E : Env α K Pt) (old new : List α) (tgt : Nat → Nat) (i : Nat) : Bool :=
  match new[i]?, old[tgt i]? with
  | some v, some u => decide (scoreLt (E.ellErr v) (E.ellErr u) ∧ scoreLt (E.gauErr v) (E.gauErr u))
  | _, _ => false

theorem actB_iff {E : Env α K Pt} {old new : List α} {tgt : Nat → Nat} {i : Nat} :
    actB E old new tgt i = true ↔ Lower E.ellErr E.gauErr old new tgt i := by
  unfold actB Lower
  cases h1 : new[i]? <;> cases h2 : old[tgt i]? <;> simp [scoreLt_iff]

/-- target chosen by the oracle -/
def tgtOf (E : Env α K Pt) (old new : List α) (i : Nat) : Nat :=
  match new[i]? with
  | some v => E.nn (old.map E.pos) (E.pos v)
  | none => 0

theorem nearB_iff {E : Env α K Pt} {old new : List α} {i : Nat} :
    nearB E (old.map E.pos) new i = true ↔
      Near E.dist E.pos E.radius old new (tgtOf E old new) i := by
  unfold nearB Near tgtOf
  cases h1 : new[i]? with
  | none => simp
  | some v =>
    simp only [List.getElem?_map]
    cases h2 : old[E.nn (old.map E.pos) (E.pos v)]? with
    | none => simp [h2]
    | some u => simp [h2]

theorem tgtOf_choice {E : Env α K Pt} (hnn : IsNN E.dist E.nn) {old new : List α} (hold : old ≠ []) :
    NearestChoice E.dist E.pos old new (tgtOf E old new) := by
  intro i v hv
  obtain ⟨a, ha, hmin⟩ := hnn (old.map E.pos) (E.pos v) (by simpa using hold)
  rw [List.getElem?_map] at ha
  obtain ⟨u, hu, rfl⟩ := Option.map_eq_some_iff.1 ha
  refine ⟨u, ?_, fun w hw => hmin _ (List.mem_map.2 ⟨w, hw, rfl⟩)⟩
  unfold tgtOf
  rw [hv]; exact hu

/-- the merged list of eddies -/
def mergedList (Js Ns : List (Eddy α)) (tgt : Nat → Nat) (near act : Nat → Bool) : List (Eddy α) :=
  (Js.mapIdx fun j e =>
    match (List.range Ns.length).find? (fun i => near i && act i && decide (tgt i = j)) with
    | some i => (Ns[i]?).getD e
    | none => e) ++
  ((List.range Ns.length).filter fun i => !near i).filterMap fun i => Ns[i]?

theorem mergedList_get_lt {Js Ns : List (Eddy α)} {tgt : Nat → Nat} {near act : Nat → Bool} {j : Nat}
    (hj : j < Js.length)
    (hinj : ∀ i < Ns.length, ∀ i' < Ns.length, near i → act i → near i' → act i' → tgt i = tgt i' → i = i')
    (e : Eddy α) :
    (mergedList Js Ns tgt near act)[j]? = some e ↔
      (∃ i < Ns.length, near i ∧ act i ∧ tgt i = j ∧ Ns[i]? = some e) ∨
      ((∀ i < Ns.length, near i → act i → tgt i ≠ j) ∧ Js[j]? = some e) := by
  unfold mergedList
  rw [List.getElem?_append_left (by simpa using hj), List.getElem?_mapIdx,
    List.getElem?_eq_getElem hj]
  simp only [Option.map_some, Option.some.injEq]
  cases hf : (List.range Ns.length).find? (fun i => near i && act i && decide (tgt i = j)) with
  | none =>
    rw [List.find?_eq_none] at hf
    have hf' : ∀ i < Ns.length, near i → act i → tgt i ≠ j := by
      intro i hi h1 h2 h3
      exact hf i (List.mem_range.2 hi) (by simp [h1, h2, h3])
    simp only
    constructor
    · intro h; exact Or.inr ⟨hf', h⟩
    · rintro (⟨i, hi, h1, h2, h3, _⟩ | ⟨_, h⟩)
      · exact absurd h3 (hf' i hi h1 h2)
      · exact h
  | some i =>
    have h1 := List.find?_some hf
    have h2 := List.mem_of_find?_eq_some hf
    rw [List.mem_range] at h2
    simp only [Bool.and_eq_true, decide_eq_true_eq] at h1
    obtain ⟨⟨h3, h4⟩, h5⟩ := h1
    simp only [List.getElem?_eq_getElem h2, Option.getD_some]
    constructor
    · intro h; exact Or.inl ⟨i, h2, h3, h4, h5, by rw [List.getElem?_eq_getElem h2, h]⟩
    · rintro (⟨i', hi', h1', h2', h3', h4'⟩ | ⟨h, _⟩)
      · have := hinj i h2 i' hi' h3 h4 h1' h2' (by omega)
        subst this
        rw [List.getElem?_eq_getElem h2] at h4'
        simpa using h4'
      · exact absurd h5 (h i h2 h3 h4)

theorem mergedList_get_ge {Js Ns : List (Eddy α)} {tgt : Nat → Nat} {near act : Nat → Bool} {j : Nat}
    (hj : Js.length ≤ j) (e : Eddy α) :
    (mergedList Js Ns tgt near act)[j]? = some e ↔
      ∃ i < Ns.length, near i = false ∧ Js.length + cnt near i = j ∧ Ns[i]? = some e := by
  unfold mergedList
  rw [List.getElem?_append_right (by simpa using hj), filterMap_get]
  · simp only [List.length_mapIdx, Option.bind_eq_some_iff, unmatched_get]
    constructor
    · rintro ⟨i, ⟨h1, h2, h3⟩, h4⟩; exact ⟨i, h1, h2, by omega, h4⟩
    · rintro ⟨i, h1, h2, h3, h4⟩; exact ⟨i, ⟨h1, h2, by omega⟩, h4⟩
  · intro i hi
    have := List.mem_range.1 (List.mem_filter.1 hi).1
    rw [List.getElem?_eq_getElem this]; rfl

theorem mergedList_rule {Js Ns : List (Eddy α)} {tgt : Nat → Nat} {near act : Nat → Bool}
    (htgt : ∀ i < Ns.length, tgt i < Js.length)
    (hinj : ∀ i < Ns.length, ∀ i' < Ns.length, near i → act i → near i' → act i' → tgt i = tgt i' → i = i') :
    MergeRule Js Ns (mergedList Js Ns tgt near act) tgt (fun i => near i = true)
      (fun i => act i = true) := by
  refine ⟨?_, ?_, ?_⟩
  · intro j hj h
    rw [List.getElem?_eq_getElem hj, mergedList_get_lt hj hinj]
    exact Or.inr ⟨h, List.getElem?_eq_getElem hj⟩
  · intro i hi h1 h2
    rw [List.getElem?_eq_getElem hi, mergedList_get_lt (htgt i hi) hinj]
    exact Or.inl ⟨i, hi, h1, h2, rfl, List.getElem?_eq_getElem hi⟩
  · refine ⟨(List.range Ns.length).filter fun i => !near i, List.pairwise_lt_range.filter _, ?_, ?_⟩
    · intro i; simp
    · exact ⟨_, rfl, by simp⟩

theorem nodup_snapRows (es : List (Eddy α)) : (snapRows es).Nodup :=
  (snapRows_strict es).imp (fun h => by rintro rfl; exact lt_irrefl _ h)

theorem mergeLevel_refines {E : Env α K Pt} (hnn : IsNN E.dist E.nn) {joint cur : Tbl α}
    {Js Ns : List (Eddy α)} (hJ : ∀ e ∈ Js, e ≠ []) (hN : ∀ e ∈ Ns, e ≠ [])
    (hJ0 : Js ≠ []) (hN0 : Ns ≠ [])
    (hjoint : joint.rows = snapRows Js) (hjwf : joint.WF)
    (hcur : cur.rows = snapRows Ns) (hcwf : cur.WF)
    (hinj : NoCollision (tgtOf E (heads Js) (heads Ns)) Ns.length
      (fun i => nearB E ((heads Js).map E.pos) (heads Ns) i = true)
      (fun i => actB E (heads Js) (heads Ns) (tgtOf E (heads Js) (heads Ns)) i = true)) :
    ∃ t, mergeLevel E joint cur = .ok t ∧ t.WF ∧
      t.rows = snapRows (mergedList Js Ns (tgtOf E (heads Js) (heads Ns))
        (nearB E ((heads Js).map E.pos) (heads Ns))
        (actB E (heads Js) (heads Ns) (tgtOf E (heads Js) (heads Ns)))) := by
  set oldH := heads Js with hold
  set newH := heads Ns with hnew
  set tgt := tgtOf E oldH newH with htgtdef
  set near := nearB E (oldH.map E.pos) newH with hneardef
  set act := actB E oldH newH tgt with hactdef
  have hJlen : oldH.length = Js.length := heads_length hJ
  have hNlen : newH.length = Ns.length := heads_length hN
  have hJpos : 0 < Js.length := List.length_pos_iff.2 hJ0
  have hNpos : 0 < Ns.length := List.length_pos_iff.2 hN0
  have holdne : oldH ≠ [] := by intro h; rw [h] at hJlen; simp at hJlen; omega
  have hjf : joint.first = oldH.mapIdx fun i v => ⟨i, 0, v⟩ := by
    unfold Tbl.first; rw [hjoint]; exact first_snapRows hJ
  have hcf : cur.first = newH.mapIdx fun i v => ⟨i, 0, v⟩ := by
    unfold Tbl.first; rw [hcur]; exact first_snapRows hN
  have hjne : joint.first ≠ [] := by rw [hjf]; simpa using holdne
  have hcne : cur.first ≠ [] := by
    rw [hcf]; intro h; have := congrArg List.length h; simp at this; rw [this] at hNlen; simp at hNlen; omega
  have hmap : ∀ (l : List α) {β : Type} (f : α → β),
      (l.mapIdx fun i v => (⟨i, 0, v⟩ : Row α)).map (fun r => f r.val) = l.map f := by
    intro l β f
    apply List.ext_getElem?
    intro i
    simp only [List.getElem?_map, List.getElem?_mapIdx, Option.map_map]
    rfl
  have hnd : ∀ i < Ns.length, ∃ v, newH[i]? = some v := by
    intro i hi
    exact ⟨newH[i]'(by omega), List.getElem?_eq_getElem (by omega)⟩
  have htgt : ∀ i < Ns.length, tgt i < Js.length := by
    intro i hi
    obtain ⟨v, hv⟩ := hnd i hi
    obtain ⟨u, hu, _⟩ := tgtOf_choice hnn holdne (new := newH) i v hv
    have := (List.getElem?_eq_some_iff.1 hu).1
    rw [hJlen] at this; exact this
  unfold mergeLevel
  rw [detectNearest_ok E hjne hcne, show ∀ (x : List Nat × List Nat), (Except.ok x : Except PyErr _) = pure x from fun _ => rfl,
    pure_bind]
  simp only
  rw [hjf, hcf, hmap, hmap _ (fun v => E.nn (List.map E.pos oldH) (E.pos v)),
    show (newH.mapIdx fun i v => (⟨i, 0, v⟩ : Row α)).map Row.val = newH from by
      have := hmap newH id; simpa using this]
  rw [show (newH.mapIdx fun i v => (⟨i, 0, v⟩ : Row α)).length = Ns.length by simp [hNlen]]
  set index := newH.map fun v => E.nn (oldH.map E.pos) (E.pos v) with hindex
  have hindexget : ∀ i < Ns.length, index[i]? = some (tgt i) := by
    intro i hi
    obtain ⟨v, hv⟩ := hnd i hi
    rw [hindex, List.getElem?_map, hv, htgtdef]
    unfold tgtOf
    rw [hv]; rfl
  have hnearlt : ∀ i, near i = true → i < Ns.length := by
    intro i hi
    rw [hneardef, nearB_iff] at hi
    obtain ⟨v, _, hv, _⟩ := hi
    have := (List.getElem?_eq_some_iff.1 hv).1
    omega
  obtain ⟨prev, hprev⟩ : ∃ prev, joint.lev.max? = some prev := by
    cases h : joint.lev.max? with
    | some p => exact ⟨p, rfl⟩
    | none =>
      rw [List.max?_eq_none_iff] at h
      obtain ⟨r, hr, _⟩ := (snapRows_contiguous hJ 0).2 hJpos
      rw [← hjoint] at hr
      have := hjwf r hr
      rw [h] at this; simp at this
  have hprevJ : Js.length ≤ prev + 1 := by
    obtain ⟨r, hr, hid⟩ := (snapRows_contiguous hJ (Js.length - 1)).2 (by omega)
    rw [← hjoint] at hr
    have := (List.max?_eq_some_iff.1 hprev).2 _ (hjwf r hr)
    omega
  unfold updateBetter
  rw [updateCounter_ok hprev hcwf]
  simp only [show ∀ (x : Tbl α × Nat), (Except.ok x : Except PyErr _) = pure x from fun _ => rfl,
    pure_bind]
  obtain ⟨n', hfold, hnwf, hnrows⟩ := foldBetter_ok (E := E) (p := joint) (index := index) (prev := prev)
    (jf := tgt) (act := act) ((List.range Ns.length).filter near) (List.nodup_range.filter _)
    ⟨cur.lev.map (· + prev + 1), relab (· + prev + 1) cur.rows⟩ [] (shift_wf hcwf prev) (by
      intro i hi
      have hiN := List.mem_range.1 (List.mem_filter.1 hi).1
      obtain ⟨v, hv⟩ := hnd i hiN
      obtain ⟨u, hu, _⟩ := tgtOf_choice hnn holdne (new := newH) i v hv
      have htJ := htgt i hiN
      refine ⟨hindexget i hiN, by omega, ⟨tgt i, 0, u⟩, ⟨i + prev + 1, 0, v⟩, ?_, ?_, ?_⟩
      · rw [hjf]; exact mapIdx_filter_id oldH (tgt i) hu
      · unfold Tbl.first
        simp only
        unfold relab
        rw [List.filter_map, List.filter_map]
        have h1 := mapIdx_filter_id newH i hv
        rw [← hcf] at h1
        unfold Tbl.first at h1
        have h2 : List.filter ((fun r : Row α => decide (r.id = i + prev + 1)) ∘ fun r : Row α =>
            { r with id := r.id + prev + 1 })
            (List.filter ((fun r : Row α => decide (r.idx = 0)) ∘ fun r : Row α =>
              { r with id := r.id + prev + 1 }) cur.rows) = [⟨i, 0, v⟩] := by
          rw [← h1]
          apply List.filter_congr
          intro r _
          simp
        rw [h2]; rfl
      · rw [hactdef, actB_iff]
        unfold Lower
        simp only [hv]
        constructor
        · rintro ⟨v', u', hv', hu', h⟩
          simp only [Option.some.injEq] at hv'
          have : u = u' := by
            have := hu.symm.trans hu'
            simpa using this
          subst this; subst hv'; exact ⟨scoreLt_iff.2 h.1, scoreLt_iff.2 h.2⟩
        · intro h; exact ⟨v, u, rfl, hu, scoreLt_iff.1 h.1, scoreLt_iff.1 h.2⟩)
  rw [hfold]
  simp only [show ∀ (x : Tbl α × List Nat), (Except.ok x : Except PyErr _) = pure x from fun _ => rfl,
    pure_bind, List.nil_append]
  set repl := ((List.filter near (List.range Ns.length)).filter act).map tgt with hrepl
  set p' := (if repl = [] then joint else joint.drop repl) with hp'
  have hp'rows : p'.rows = (snapRows Js).filter (fun r => r.id ∉ repl) := by
    rw [hp']
    split
    · rename_i h
      rw [h, hjoint, List.filter_eq_self.2 (by simp)]
    · unfold Tbl.drop; rw [hjoint]
  have hp'wf : p'.WF := by
    rw [hp']
    split
    · exact hjwf
    · exact drop_wf hjwf _
  have hmemrepl : ∀ j, j ∈ repl ↔ ∃ i < Ns.length, near i = true ∧ act i = true ∧ tgt i = j := by
    intro j
    rw [hrepl, List.mem_map]
    constructor
    · rintro ⟨i, hi, rfl⟩
      rw [List.mem_filter, List.mem_filter, List.mem_range] at hi
      exact ⟨i, hi.1.1, hi.1.2, hi.2, rfl⟩
    · rintro ⟨i, h1, h2, h3, rfl⟩
      exact ⟨i, by rw [List.mem_filter, List.mem_filter, List.mem_range]; exact ⟨⟨h1, h2⟩, h3⟩, rfl⟩
  have hn'rows : n'.rows = relab (fun i => if near i then tgt i else i + (prev + 1))
      ((snapRows Ns).filter fun r => !(near r.id && !act r.id)) := by
    rw [hnrows, hcur]
    simp only
    have hfilt : ∀ (l : List (Row α)) (g : Nat → Nat) (q : Nat → Bool),
        (relab g l).filter (fun r => q r.id) = relab g (l.filter fun r => q (g r.id)) := by
      intro l g q
      unfold relab
      rw [List.filter_map]
      rfl
    have hfilt' := hfilt (snapRows Ns) (fun x => x + prev + 1)
      (fun x => decide (¬ (prev + 1 ≤ x ∧ x - (prev + 1) ∈ (List.range Ns.length).filter near ∧
        act (x - (prev + 1)) = false)))
    rw [hfilt', relab_relab]
    have hq : (snapRows Ns).filter (fun r => decide (¬ (prev + 1 ≤ r.id + prev + 1 ∧
        r.id + prev + 1 - (prev + 1) ∈ (List.range Ns.length).filter near ∧
        act (r.id + prev + 1 - (prev + 1)) = false))) =
        (snapRows Ns).filter fun r => !(near r.id && !act r.id) := by
      apply List.filter_congr
      intro r hr
      have hid := (snapRows_contiguous hN r.id).1 ⟨r, hr, rfl⟩
      have e : r.id + prev + 1 - (prev + 1) = r.id := by omega
      have e2 : prev + 1 ≤ r.id + prev + 1 := by omega
      rw [e]
      cases hn1 : near r.id <;> cases hn2 : act r.id <;> simp [hn1, hn2, hid]
    rw [hq]
    apply relab_congr
    intro r hr
    have hr := (List.mem_filter.1 hr).1
    have hid := (snapRows_contiguous hN r.id).1 ⟨r, hr, rfl⟩
    have e : r.id + prev + 1 - (prev + 1) = r.id := by omega
    have e2 : prev + 1 ≤ r.id + prev + 1 := by omega
    simp only [e, e2, List.mem_filter, List.mem_range, hid, true_and]
    by_cases h : near r.id
    · simp [h]
    · simp [h]; omega
  have hids : ∀ x, x ∈ p'.ids ++ n'.ids ↔ x < Js.length ∨
      ∃ i < Ns.length, near i = false ∧ x = i + (prev + 1) := by
    intro x
    rw [List.mem_append]
    constructor
    · rintro (h | h)
      · obtain ⟨r, hr, rfl⟩ := mem_ids.1 h
        rw [hp'rows] at hr
        exact Or.inl ((snapRows_contiguous hJ r.id).1 ⟨r, (List.mem_filter.1 hr).1, rfl⟩)
      · obtain ⟨r, hr, rfl⟩ := mem_ids.1 h
        rw [hn'rows] at hr
        obtain ⟨s, hs, rfl⟩ := mem_relab.1 hr
        have hid := (snapRows_contiguous hN s.id).1 ⟨s, (List.mem_filter.1 hs).1, rfl⟩
        simp only
        by_cases hne : near s.id
        · rw [if_pos hne]; exact Or.inl (htgt _ hid)
        · rw [if_neg hne]; exact Or.inr ⟨s.id, hid, by simpa using hne, rfl⟩
    · rintro (h | ⟨i, hi, hne, rfl⟩)
      · by_cases hx : x ∈ repl
        · right
          obtain ⟨i, hi, h1, h2, h3⟩ := (hmemrepl x).1 hx
          obtain ⟨r, hr, hid⟩ := (snapRows_contiguous hN i).2 hi
          refine mem_ids.2 ⟨{ r with id := tgt i }, ?_, h3⟩
          rw [hn'rows]
          refine mem_relab.2 ⟨r, List.mem_filter.2 ⟨hr, by simp [hid, h1, h2]⟩, ?_⟩
          simp [hid, h1]
        · left
          obtain ⟨r, hr, hid⟩ := (snapRows_contiguous hJ x).2 h
          refine mem_ids.2 ⟨r, ?_, hid⟩
          rw [hp'rows]
          exact List.mem_filter.2 ⟨hr, by simpa [hid] using hx⟩
      · right
        obtain ⟨r, hr, hid⟩ := (snapRows_contiguous hN i).2 hi
        refine mem_ids.2 ⟨{ r with id := i + (prev + 1) }, ?_, rfl⟩
        rw [hn'rows]
        refine mem_relab.2 ⟨r, List.mem_filter.2 ⟨hr, by simp [hid, hne]⟩, ?_⟩
        simp [hid, hne]
  have hus : usort (p'.ids ++ n'.ids) = List.range Js.length ++
      ((List.range Ns.length).filter fun c => !near c).map (· + (prev + 1)) := by
    apply strict_ext (pairwise_usort _)
    · rw [List.pairwise_append]
      refine ⟨List.pairwise_lt_range, ?_, ?_⟩
      · rw [List.pairwise_map]
        exact (List.pairwise_lt_range.filter _).imp (fun h => by omega)
      · intro a ha b hb
        rw [List.mem_range] at ha
        obtain ⟨c, _, rfl⟩ := List.mem_map.1 hb
        omega
    · intro x
      rw [mem_usort, hids, List.mem_append, List.mem_range, List.mem_map]
      simp only [List.mem_filter, List.mem_range, Bool.not_eq_true']
      constructor
      · rintro (h | ⟨i, h1, h2, rfl⟩)
        · exact Or.inl h
        · exact Or.inr ⟨i, ⟨h1, h2⟩, rfl⟩
      · rintro (h | ⟨i, ⟨h1, h2⟩, rfl⟩)
        · exact Or.inl h
        · exact Or.inr ⟨i, h1, h2, rfl⟩
  obtain ⟨count, hcount, hmr⟩ := mergeReindex_ok E.prunes hp'wf hnwf
  refine ⟨_, hmr, ?_, ?_⟩
  · intro r hr
    obtain ⟨s, hs, rfl⟩ := mem_relab.1 (mem_sortBy.1 hr)
    simp only [List.mem_range]
    have : s.id ∈ p'.ids ++ n'.ids := by
      rcases List.mem_append.1 hs with h | h
      · exact List.mem_append_left _ (mem_ids.2 ⟨s, h, rfl⟩)
      · exact List.mem_append_right _ (mem_ids.2 ⟨s, h, rfl⟩)
    have := (rank_image (p := p') (n := n') _).1 ⟨s.id, this, rfl⟩
    omega
  · show sortBy key2 (relab (rank p' n') (p'.rows ++ n'.rows)) = _
    rw [relab_append]
    have e1 : relab (rank p' n') p'.rows = p'.rows := by
      apply relab_id
      intro r hr
      rw [hp'rows] at hr
      have := (snapRows_contiguous hJ r.id).1 ⟨r, (List.mem_filter.1 hr).1, rfl⟩
      unfold rank
      rw [hus]
      exact idxOf_merge_lt _ this
    have e2 : relab (rank p' n') n'.rows = relab (fun i => if near i then tgt i else Js.length + cnt near i)
        ((snapRows Ns).filter fun r => !(near r.id && !act r.id)) := by
      rw [hn'rows, relab_relab]
      apply relab_congr
      intro r hr
      have hid := (snapRows_contiguous hN r.id).1 ⟨r, (List.mem_filter.1 hr).1, rfl⟩
      unfold rank
      rw [hus]
      by_cases h : near r.id
      · simp only [h, if_true]; exact idxOf_merge_lt _ (htgt _ hid)
      · simp only [h]
        exact idxOf_shift hprevJ hid (by simpa using h)
    rw [e1, e2, hp'rows]
    have hkept : ∀ r, r ∈ (snapRows Ns).filter (fun r => !(near r.id && !act r.id)) ↔
        r ∈ snapRows Ns ∧ (near r.id = true → act r.id = true) := by
      intro r
      rw [List.mem_filter]
      cases near r.id <;> cases act r.id <;> simp
    apply sortBy_of_perm _ (snapRows_strict _)
    rw [List.perm_ext_iff_of_nodup ?_ (nodup_snapRows _)]
    · intro r
      rw [List.mem_append, List.mem_filter, mem_relab, mem_snapRows (es := mergedList _ _ _ _ _)]
      constructor
      · rintro (⟨h1, h2⟩ | ⟨s, hs, rfl⟩)
        · obtain ⟨e, he, hv⟩ := mem_snapRows.1 h1
          have hlt := (List.getElem?_eq_some_iff.1 he).1
          refine ⟨e, (mergedList_get_lt hlt hinj e).2 (Or.inr ⟨?_, he⟩), hv⟩
          intro i hi n1 n2 n3
          have : r.id ∈ repl := (hmemrepl _).2 ⟨i, hi, n1, n2, n3⟩
          simp [this] at h2
        · obtain ⟨h1, h2⟩ := (hkept s).1 hs
          obtain ⟨e, he, hv⟩ := mem_snapRows.1 h1
          have hlt := (List.getElem?_eq_some_iff.1 he).1
          refine ⟨e, ?_, hv⟩
          simp only
          by_cases hne : near s.id
          · rw [if_pos hne, mergedList_get_lt (htgt _ hlt) hinj]
            exact Or.inl ⟨s.id, hlt, hne, h2 hne, rfl, he⟩
          · rw [if_neg hne, mergedList_get_ge (by omega)]
            exact ⟨s.id, hlt, by simpa using hne, rfl, he⟩
      · rintro ⟨e, he, hv⟩
        by_cases hid : r.id < Js.length
        · rcases (mergedList_get_lt hid hinj e).1 he with ⟨i, hi, n1, n2, n3, n4⟩ | ⟨n1, n2⟩
          · right
            refine ⟨⟨i, r.idx, r.val⟩, (hkept _).2 ⟨mem_snapRows.2 ⟨e, n4, hv⟩, fun _ => n2⟩, ?_⟩
            cases r
            simp_all
          · left
            refine ⟨mem_snapRows.2 ⟨e, n2, hv⟩, ?_⟩
            simp only [decide_eq_true_eq]
            intro hmem
            obtain ⟨i, hi, m1, m2, m3⟩ := (hmemrepl _).1 hmem
            exact n1 i hi m1 m2 m3
        · obtain ⟨i, hi, n1, n2, n3⟩ := (mergedList_get_ge (by omega) e).1 he
          right
          refine ⟨⟨i, r.idx, r.val⟩, (hkept _).2 ⟨mem_snapRows.2 ⟨e, n3, hv⟩, fun h => by
            simp [n1] at h⟩, ?_⟩
          cases r
          simp_all
    · rw [List.nodup_append]
      refine ⟨(nodup_snapRows _).filter _, ?_, ?_⟩
      · unfold relab
        apply List.Nodup.map_on
        · intro r hr s hs heq
          obtain ⟨hr1, hr2⟩ := (hkept r).1 hr
          obtain ⟨hs1, hs2⟩ := (hkept s).1 hs
          have hrid := (snapRows_contiguous hN r.id).1 ⟨r, hr1, rfl⟩
          have hsid := (snapRows_contiguous hN s.id).1 ⟨s, hs1, rfl⟩
          have t1 := htgt _ hrid
          have t2 := htgt _ hsid
          have hh : (if near r.id then tgt r.id else Js.length + cnt near r.id) =
              (if near s.id then tgt s.id else Js.length + cnt near s.id) := congrArg Row.id heq
          have hidx : r.idx = s.idx := by have := congrArg Row.idx heq; simpa using this
          have hval : r.val = s.val := by have := congrArg Row.val heq; simpa using this
          have hid : r.id = s.id := by
            by_cases n1 : near r.id <;> by_cases n2 : near s.id
            · rw [if_pos n1, if_pos n2] at hh
              exact hinj _ hrid _ hsid n1 (hr2 n1) n2 (hs2 n2) hh
            · rw [if_pos n1, if_neg n2] at hh; omega
            · rw [if_neg n1, if_pos n2] at hh; omega
            · rw [if_neg n1, if_neg n2] at hh
              exact cnt_inj (by simpa using n1) (by simpa using n2) (by omega)
          cases r; cases s; simp_all
        · exact (nodup_snapRows _).filter _
      · intro r hr s hs heq
        subst heq
        obtain ⟨h1, h2⟩ := List.mem_filter.1 hr
        simp only [decide_eq_true_eq] at h2
        have hid := (snapRows_contiguous hJ r.id).1 ⟨r, h1, rfl⟩
        obtain ⟨s, hs, hrs⟩ := mem_relab.1 hs
        obtain ⟨hs1, hs2⟩ := (hkept s).1 hs
        have hsid := (snapRows_contiguous hN s.id).1 ⟨s, hs1, rfl⟩
        have hrid : r.id = if near s.id then tgt s.id else Js.length + cnt near s.id := by rw [hrs]
        by_cases n1 : near s.id
        · rw [if_pos n1] at hrid
          exact h2 ((hmemrepl _).2 ⟨s.id, hsid, n1, hs2 n1, hrid.symm⟩)
        · rw [if_neg n1] at hrid; omega

end Trackeddy
