import Verif.Spec.Levels
import Verif.Props.FromData

/-!
The merge of levels when nothing is replaced (C120-C122).
-/
namespace Trackeddy
open Spec Tbl

section list
variable {β γ : Type}

theorem select_snoc (near : β → β → Prop) (ls : List (List β)) (l : List β) : open Classical in
    select near (ls ++ [l]) = select near ls ++ l.filter fun e => decide (∀ k ∈ select near ls, ¬ near e k) := by
  unfold select
  rw [List.foldl_append]
  rfl

theorem select_append (near : β → β → Prop) (ls ms : List (List β)) : ∃ more, select near (ls ++ ms) = select near ls ++ more := by
  classical
  induction ms using List.reverseRecOn with
  | nil => exact ⟨[], by simp⟩
  | append_singleton ms m ih =>
    obtain ⟨more, h⟩ := ih
    rw [← List.append_assoc, select_snoc, h, List.append_assoc]
    exact ⟨_, rfl⟩

theorem select_mem {near : β → β → Prop} {ls : List (List β)} {e : β} (h : e ∈ select near ls) : ∃ l ∈ ls, e ∈ l := by
  classical
  induction ls using List.reverseRecOn with
  | nil => exact absurd h (by unfold select; simp)
  | append_singleton ls l ih =>
    rw [select_snoc] at h
    rcases List.mem_append.1 h with h | h
    · obtain ⟨m, hm, he⟩ := ih h
      exact ⟨m, List.mem_append_left _ hm, he⟩
    · exact ⟨l, by simp, (List.mem_filter.1 h).1⟩

/-- the selection of images -/
theorem select_map (f : β → γ) {near : β → β → Prop} {near' : γ → γ → Prop} {ls : List (List β)}
    (h : ∀ l ∈ ls, ∀ a ∈ l, ∀ m ∈ ls, ∀ b ∈ m, (near' (f a) (f b) ↔ near a b)) :
    select near' (ls.map (List.map f)) = (select near ls).map f := by
  classical
  induction ls using List.reverseRecOn with
  | nil => rfl
  | append_singleton ls l ih =>
    rw [List.map_append, List.map_cons, List.map_nil, select_snoc, select_snoc,
      ih fun l hl a ha m hm b hb => h l (List.mem_append_left _ hl) a ha m (List.mem_append_left _ hm) b hb, List.map_append, List.filter_map]
    congr 2
    apply List.filter_congr
    intro e he
    simp only [Function.comp, List.mem_map, forall_exists_index, and_imp, forall_apply_eq_imp_iff₂, decide_eq_decide]
    refine forall₂_congr fun k hk => ?_
    obtain ⟨m, hm, hkm⟩ := select_mem hk
    rw [h l (by simp) e he m (List.mem_append_left _ hm) k hkm]

/-- a level that has been used already adds nothing -/
theorem select_again {near : β → β → Prop} {ls : List (List β)} {l : List β} (hl : l ∈ ls) (hself : ∀ e ∈ l, near e e) :
    select near (ls ++ [l]) = select near ls := by
  classical
  rw [select_snoc]
  conv_rhs => rw [← List.append_nil (select near ls)]
  congr 1
  rw [List.filter_eq_nil_iff]
  intro e he h
  rw [decide_eq_true_eq] at h
  obtain ⟨as, bs, rfl⟩ := List.append_of_mem hl
  obtain ⟨more, hm⟩ := select_append near (as ++ [l]) bs
  rw [List.append_assoc, List.singleton_append] at hm
  rw [hm] at h
  by_cases hk : ∀ k ∈ select near as, ¬ near e k
  · refine h e (List.mem_append_left _ ?_) (hself e he)
    rw [select_snoc]
    refine List.mem_append_right _ (List.mem_filter.2 ⟨he, by simpa using hk⟩)
  · push Not at hk
    obtain ⟨k, hk, hn⟩ := hk
    refine h k (List.mem_append_left _ ?_) hn
    rw [select_snoc]
    exact List.mem_append_left _ hk

theorem select_repeated {near : β → β → Prop} {ls : List (List β)} {l : List β} (hl : l ∈ ls) (hself : ∀ e ∈ l, near e e) (ms : List (List β)) :
    select near (ls ++ l :: ms) = select near (ls ++ ms) := by
  classical
  induction ms using List.reverseRecOn with
  | nil => rw [List.append_nil]; exact select_again hl hself
  | append_singleton ms m ih =>
    rw [← List.cons_append, ← List.append_assoc, ← List.append_assoc, select_snoc, select_snoc, ih]

/-- if no two eddies of different levels are near one another, everything is kept -/
theorem select_all {near : β → β → Prop} {ls : List (List β)}
    (h : ls.Pairwise fun l m => ∀ a ∈ l, ∀ b ∈ m, ¬ near b a) : select near ls = ls.flatten := by
  classical
  induction ls using List.reverseRecOn with
  | nil => rfl
  | append_singleton ls l ih =>
    rw [List.pairwise_append] at h
    rw [select_snoc, ih h.1, List.flatten_append, List.flatten_singleton]
    congr 1
    apply List.filter_eq_self.2
    intro e he
    simp only [decide_eq_true_eq, List.mem_flatten]
    rintro k ⟨m, hm, hk⟩
    exact h.2.2 m hm l (by simp) k hk e he

/-- the entries at the positions of a list -/
theorem filterMap_positions {l : List β} {is : List Nat} (hp : is.Pairwise (· < ·)) {P : β → Prop} [DecidablePred P]
    (h : ∀ i, i ∈ is ↔ ∃ b, l[i]? = some b ∧ P b) : (is.filterMap fun i => l[i]?) = l.filter fun b => decide (P b) := by
  classical
  have e1 : is = (List.range l.length).filter fun i => (l[i]?).any fun b => decide (P b) := by
    have hr : ((List.range l.length).filter fun i => (l[i]?).any fun b => decide (P b)).Pairwise (· < ·) :=
      List.Pairwise.filter _ List.pairwise_lt_range
    refine List.Perm.eq_of_pairwise (le := (· < ·)) (fun a b _ _ h1 h2 => absurd h1 (by omega)) hp hr ?_
    rw [List.perm_ext_iff_of_nodup (hp.imp (fun h => ne_of_lt h)) (hr.imp (fun h => ne_of_lt h))]
    intro i
    rw [h i, List.mem_filter, List.mem_range, Option.any_eq_true]
    constructor
    · rintro ⟨b, hb, hP⟩
      exact ⟨(List.getElem?_eq_some_iff.1 hb).1, b, hb, by simpa using hP⟩
    · rintro ⟨_, b, hb, hP⟩
      exact ⟨b, hb, by simpa using hP⟩
  have e2 : l.map some = (List.range l.length).map fun i => l[i]? := by
    apply List.ext_getElem?
    intro i
    simp only [List.getElem?_map]
    by_cases hi : i < l.length
    · rw [List.getElem?_eq_getElem hi, List.getElem?_range hi]
      simp [hi]
    · rw [List.getElem?_eq_none (by omega), List.getElem?_eq_none (by simpa using hi)]
      rfl
  have e3 : l.filter (fun b => decide (P b)) = (l.map some).filterMap fun o => o.filter fun b => decide (P b) := by
    rw [List.filterMap_map, ← List.filterMap_eq_filter]
    apply List.filterMap_congr
    intro b _
    simp [Option.guard, Option.filter]
  rw [e3, e2, List.filterMap_map, e1, List.filterMap_filter]
  apply List.filterMap_congr
  intro i _
  simp only [Function.comp, decide_eq_true_eq]
  cases hb : l[i]? with
  | none => simp
  | some b => simp [Option.filter]

end list

section merge
variable {α K Pt : Type} [Field K] [LinearOrder K] [IsStrictOrderedRing K]

/-- the first eddy is near the second one -/
def nearE (E : Env α K Pt) (e k : Eddy α) : Prop :=
  ∃ v u, e.head? = some v ∧ k.head? = some u ∧ E.dist (E.pos v) (E.pos u) * 6371 < E.radius v

theorem mergeLevel_select {E : Env α K Pt} (hnn : IsNN E.dist E.nn) {joint cur : Tbl α} {Js Ns : List (Eddy α)} (hJ : ∀ e ∈ Js, e ≠ [])
    (hN : ∀ e ∈ Ns, e ≠ []) (hJ0 : Js ≠ []) (hN0 : Ns ≠ []) (hjoint : joint.rows = snapRows Js) (hjwf : joint.WF)
    (hcur : cur.rows = snapRows Ns) (hcwf : cur.WF) (h0 : ∀ v ∈ heads Js ++ heads Ns, E.gauErr v = some 0) : open Classical in
    ∃ t, mergeLevel E joint cur = .ok t ∧ t.WF ∧
      t.rows = snapRows (Js ++ Ns.filter fun e => decide (∀ k ∈ Js, ¬ nearE E e k)) := by
  classical
  have hno : ∀ tgt i, ¬ Lower E.ellErr E.gauErr (heads Js) (heads Ns) tgt i := by
    rintro tgt i ⟨v, u, hv, hu, _, h⟩
    rw [h0 v (List.mem_append_right _ (List.mem_of_getElem? hv)),
      h0 u (List.mem_append_left _ (List.mem_of_getElem? hu))] at h
    obtain ⟨x, y, hx, hy, hlt⟩ := h
    rw [← Option.some.inj hx, ← Option.some.inj hy] at hlt
    exact lt_irrefl _ hlt
  obtain ⟨t, R, tgt, h1, hwf, h2, _, h3, h4⟩ := C13_merge_rule hnn hJ hN hJ0 hN0 hjoint hjwf hcur hcwf
    (fun tgt _ i _ i' _ _ h => absurd h (hno tgt i))
  obtain ⟨is, hp, hm, R', hR, hl⟩ := h4.appended
  refine ⟨t, h1, hwf, ?_⟩
  rw [h2, hR]
  congr 2
  · apply List.ext_getElem?
    intro j
    by_cases hj : j < Js.length
    · have := h4.kept j hj (fun i _ _ h => absurd h (hno tgt i))
      rw [← this, hR, List.getElem?_append_left (by omega)]
    · rw [List.getElem?_eq_none (by omega), List.getElem?_eq_none (by omega)]
  · apply filterMap_positions hp
    intro i
    rw [hm i]
    constructor
    · rintro ⟨hi, hnear⟩
      refine ⟨Ns[i], List.getElem?_eq_getElem hi, ?_⟩
      rintro k hk ⟨v, u, hv, hu, hlt⟩
      have hiv : (heads Ns)[i]? = some v := by rw [heads_get hN, List.getElem?_eq_getElem hi]; exact hv
      obtain ⟨u', hu', hmin⟩ := h3 i v hiv
      have huJ : u ∈ heads Js := List.mem_filterMap.2 ⟨k, hk, hu⟩
      exact hnear ⟨v, u', hiv, hu', lt_of_le_of_lt (mul_le_mul_of_nonneg_right (hmin u huJ) (by norm_num)) hlt⟩
    · rintro ⟨e, he, hfar⟩
      refine ⟨(List.getElem?_eq_some_iff.1 he).1, ?_⟩
      rintro ⟨v, u, hv, hu, hlt⟩
      rw [heads_get hN, he] at hv
      rw [heads_get hJ] at hu
      cases hk : Js[tgt i]? with
      | none => rw [hk] at hu; cases hu
      | some k =>
        rw [hk] at hu
        exact hfar k (List.mem_of_getElem? hk) ⟨v, u, hv, hu, hlt⟩

/-- the levels merged -/
theorem snapshot_select [DecidableEq K] {E : Env α K Pt} (hnn : IsNN E.dist E.nn) {detect : K → Except PyErr (Tbl α)} {es : K → List (Eddy α)}
    (levels : List K) (hdet : ∀ l ∈ levels, l ≠ 0 → ∃ t, detect l = .ok t ∧ t.lev = usort t.ids ∧ (∀ e ∈ es l, e ≠ []) ∧
      t.rows = snapRows (es l) ∧ ∀ v ∈ heads (es l), E.gauErr v = some 0) :
    ∃ t, detectSnapshot E detect levels = .ok t ∧ t.rows = snapRows (select (nearE E) ((levels.filter (· ≠ 0)).map es)) := by
  classical
  have key : ∀ ls : List K, (∀ l ∈ ls, l ∈ levels ∧ l ≠ 0) → ∃ t, ls.foldlM (levelStep E detect) ⟨[], []⟩ = .ok t ∧ t.WF ∧
      t.rows = snapRows (select (nearE E) (ls.map es)) := by
    intro ls hls
    induction ls using List.reverseRecOn with
    | nil => exact ⟨_, rfl, by intro r hr; simp at hr, rfl⟩
    | append_singleton ls l ih =>
      obtain ⟨t, h1, h2, h4⟩ := ih fun l hl => hls l (List.mem_append_left _ hl)
      obtain ⟨c, hc, hlev, hns, hrows, hg⟩ := hdet l (hls l (by simp)).1 (hls l (by simp)).2
      have hsel : ∀ e ∈ select (nearE E) (ls.map es), e ≠ [] ∧ ∀ v, e.head? = some v → E.gauErr v = some 0 := by
        intro e he
        obtain ⟨m, hm, hem⟩ := select_mem he
        obtain ⟨l', hl', rfl⟩ := List.mem_map.1 hm
        obtain ⟨_, _, _, q1, _, q2⟩ := hdet l' (hls l' (List.mem_append_left _ hl')).1 (hls l' (List.mem_append_left _ hl')).2
        exact ⟨q1 e hem, fun v hv => q2 v (List.mem_filterMap.2 ⟨e, hem, hv⟩)⟩
      have hcwf : c.WF := by
        intro r hr; rw [hlev, mem_usort]; exact mem_ids.2 ⟨r, hr, rfl⟩
      rw [foldlM_snoc, h1, List.map_append, List.map_cons, List.map_nil, select_snoc]
      show ∃ t', levelStep E detect t l = .ok t' ∧ _
      unfold levelStep
      rw [hc, show (Except.ok c : Except PyErr (Tbl α)) = pure c from rfl, pure_bind]
      have hnil : ∀ {es : List (Eddy α)}, (∀ e ∈ es, e ≠ []) → snapRows es = [] → es = [] := by
        intro es h h0
        cases es with
        | nil => rfl
        | cons e es =>
          exfalso
          have := h e (by simp)
          unfold snapRows eddyRows at h0
          simp [List.mapIdx_cons] at h0
          exact this h0.1
      by_cases he : c.rows = []
      · have h0 := hnil hns (hrows.symm.trans he)
        simp only [he, if_true]
        refine ⟨t, rfl, h2, ?_⟩
        rw [h4, h0]; simp
      · simp only [he, if_false]
        by_cases hj : t.rows = []
        · have h0 := hnil (fun e he => (hsel e he).1) (h4.symm.trans hj)
          simp only [hj, if_true]
          refine ⟨c, rfl, hcwf, ?_⟩
          rw [hrows, h0]; simp
        · simp only [hj, if_false]
          refine mergeLevel_select hnn (fun e he => (hsel e he).1) hns ?_ ?_ h4 h2 hrows hcwf ?_
          · intro h0; rw [h0] at h4; exact hj h4
          · intro h0; rw [h0] at hrows; exact he hrows
          · intro v hv
            rcases List.mem_append.1 hv with hv | hv
            · obtain ⟨e, he, hv⟩ := List.mem_filterMap.1 hv
              exact (hsel e he).2 v hv
            · exact hg v hv
  obtain ⟨t, h1, _, h3⟩ := key (levels.filter (· ≠ 0)) fun l hl => by simpa using hl
  exact ⟨t, h1, h3⟩

end merge

/-! ### from the data -/

/-- the extremum of the first eddy lies within its radius (km) of the extremum of the second one -/
def NearEddy (e k : EddyObj) : Prop := centralAngle e.place.1 e.place.2 k.place.1 k.place.2 * 6371 < e.radius

theorem nearE_iff {prunes : Bool} {nn : List (ℝ × ℝ) → ℝ × ℝ → Nat} {e k : EddyObj} (he : tableRows e.data ≠ []) (hk : tableRows k.data ≠ []) :
    nearE (colsEnv prunes nn) (tableRows e.data) (tableRows k.data) ↔ NearEddy e k := by
  have hpos : ∀ {e : EddyObj} {v : Cols}, v ∈ tableRows e.data → (colsEnv prunes nn).pos v = ballTreePoint e.place.1 e.place.2 ∧
      (colsEnv prunes nn).radius v = e.radius := by
    intro e v hv
    obtain ⟨c1, c2, c3, -⟩ := columns_read hv
    unfold colsEnv realEnv
    simp only [c1, c2, c3]
    exact ⟨rfl, trivial⟩
  unfold nearE NearEddy
  constructor
  · rintro ⟨v, u, hv, hu, h⟩
    obtain ⟨p1, p2⟩ := hpos (List.mem_of_mem_head? hv)
    obtain ⟨q1, -⟩ := hpos (List.mem_of_mem_head? hu)
    rw [p1, p2, q1] at h
    rw [← C83_great_circle]
    exact h
  · intro h
    obtain ⟨v, hv⟩ := List.exists_mem_of_ne_nil _ he
    refine ⟨(tableRows e.data).head he, (tableRows k.data).head hk, List.head?_eq_some_head he, List.head?_eq_some_head hk, ?_⟩
    obtain ⟨p1, p2⟩ := hpos (List.head_mem he)
    obtain ⟨q1, -⟩ := hpos (List.head_mem hk)
    rw [p1, p2, q1]
    rw [← C83_great_circle] at h
    exact h

theorem gauss_zero {prunes : Bool} {nn : List (ℝ × ℝ) → ℝ × ℝ → Nat} {c : Criteria ℝ} (hc : c.skipGauss = true) {L : Libs} {S : Fields} {l : ℝ}
    {e : EddyObj} (he : e ∈ foundIn c L S l) {v : Cols} (hv : v ∈ tableRows e.data) : (colsEnv prunes nn).gauErr v = some 0 := by
  obtain ⟨vs, -, hst⟩ := List.mem_filterMap.1 he
  obtain ⟨pts, rfl, -, curve, i, h9⟩ := storedEddy_iff.1 hst
  rcases h9.gauss with ⟨-, hn, h0⟩ | ⟨h, -⟩
  · obtain ⟨p, -, rfl⟩ := List.mem_map.1 hv
    show score "contour_gaussian_error" _ = some 0
    simp [score, columns, EddyObj.data, h0, hn]
  · rw [hc] at h; cases h

/-- without the Gaussian fit the snapshot is the selection -/
theorem pureSnapshot_select {prunes : Bool} {nn : List (ℝ × ℝ) → ℝ × ℝ → Nat} (hnn : IsNN haversine nn) {c : Criteria ℝ} (hc : c.skipGauss = true)
    {L : Libs} {S : Fields} (hS : S.Ok) {levels : List ℝ}
    (hok : ∀ l ∈ levels, l ≠ 0 → ∃ t, pureLevel c (levelMeasures c L S l) = .ok t) :
    ∃ t, pureSnapshot (colsEnv prunes nn) c L S levels = .ok t ∧
      t.rows = snapRows ((select NearEddy ((levels.filter (· ≠ 0)).map (foundIn c L S))).map fun e => tableRows e.data) := by
  obtain ⟨t, h1, h2⟩ := snapshot_select (E := colsEnv prunes nn) hnn (detect := fun l => pureLevel c (levelMeasures c L S l))
    (es := fun l => (foundIn c L S l).map fun e => tableRows e.data) levels (by
      intro l hl h0
      obtain ⟨t, ht⟩ := hok l hl h0
      obtain ⟨_, _, _, hlev⟩ := pureLevel_level ht
      refine ⟨t, ht, hlev, ?_, ?_, ?_⟩
      · intro e he
        obtain ⟨o, ho, rfl⟩ := List.mem_map.1 he
        exact foundIn_ne hS l o ho
      · rw [pureLevel_rows ht, storedOf_contours hS]
        rfl
      · intro v hv
        obtain ⟨e, he, hv⟩ := List.mem_filterMap.1 hv
        obtain ⟨o, ho, rfl⟩ := List.mem_map.1 he
        exact gauss_zero hc ho (List.mem_of_mem_head? hv))
  refine ⟨t, h1, ?_⟩
  rw [h2, ← select_map (near := NearEddy) (near' := nearE (colsEnv prunes nn))]
  · rw [List.map_map]; rfl
  · intro l hl a ha m hm b hb
    obtain ⟨l, -, rfl⟩ := List.mem_map.1 hl
    obtain ⟨m, -, rfl⟩ := List.mem_map.1 hm
    exact nearE_iff (foundIn_ne hS l a ha) (foundIn_ne hS m b hb)

/-- a snapshot that succeeds has detected every level -/
theorem detectSnapshot_levels {α K Pt : Type} [Field K] [LinearOrder K] [IsStrictOrderedRing K] {E : Env α K Pt}
    {detect : K → Except PyErr (Tbl α)} {levels : List K} {t : Tbl α} (h : detectSnapshot E detect levels = .ok t) :
    ∀ l ∈ levels, l ≠ 0 → ∃ t, detect l = .ok t := by
  have key : ∀ (ls : List K) (t : Tbl α), ls.foldlM (levelStep E detect) ⟨[], []⟩ = .ok t → ∀ l ∈ ls, ∃ t, detect l = .ok t := by
    intro ls
    induction ls using List.reverseRecOn with
    | nil => simp
    | append_singleton ls m ih =>
      intro t h l hl
      rw [foldlM_snoc] at h
      cases h0 : ls.foldlM (levelStep E detect) ⟨[], []⟩ with
      | error e => rw [h0] at h; cases h
      | ok t0 =>
        rcases List.mem_append.1 hl with hl | hl
        · exact ih t0 h0 l hl
        · rw [List.mem_singleton.1 hl]
          rw [h0] at h
          replace h : levelStep E detect t0 m = .ok t := h
          unfold levelStep at h
          cases hd : detect m with
          | ok t => exact ⟨t, rfl⟩
          | error e => rw [hd] at h; cases h
  intro l hl h0
  exact key _ t h l (List.mem_filter.2 ⟨hl, by simpa using h0⟩)

/-- the error of the first level that cannot be examined -/
def firstError {α K : Type} (detect : K → Except PyErr (Tbl α)) (ls : List K) : Option PyErr :=
  ls.findSome? fun l => match detect l with
    | .ok _ => none
    | .error e => some e

theorem firstError_none {α K : Type} {detect : K → Except PyErr (Tbl α)} {ls : List K} :
    firstError detect ls = none ↔ ∀ l ∈ ls, ∃ t, detect l = .ok t := by
  unfold firstError
  rw [List.findSome?_eq_none_iff]
  refine forall₂_congr fun l _ => ?_
  cases detect l <;> simp

theorem firstError_repeated {α K : Type} (detect : K → Except PyErr (Tbl α)) {ls : List K} {l : K} (h : l ∈ ls) (ms : List K) :
    firstError detect (ls ++ l :: ms) = firstError detect (ls ++ ms) := by
  unfold firstError
  rw [List.findSome?_append, List.findSome?_append]
  cases h0 : ls.findSome? fun l => match detect l with
    | .ok _ => none
    | .error e => some e with
  | some e => rfl
  | none =>
    obtain ⟨t, ht⟩ := firstError_none.1 h0 l h
    simp [List.findSome?_cons, ht]

theorem detectSnapshot_error {α K Pt : Type} [Field K] [LinearOrder K] [IsStrictOrderedRing K] [DecidableEq K] {E : Env α K Pt}
    {detect : K → Except PyErr (Tbl α)} {levels : List K} {e : PyErr}
    (hpre : ∀ pre : List K, pre <+: levels.filter (· ≠ 0) → (∀ l ∈ pre, ∃ t, detect l = .ok t) →
      ∃ t, pre.foldlM (levelStep E detect) ⟨[], []⟩ = .ok t)
    (h : firstError detect (levels.filter (· ≠ 0)) = some e) : detectSnapshot E detect levels = .error e := by
  unfold firstError at h
  rw [List.findSome?_eq_some_iff] at h
  obtain ⟨pre, l, post, h1, h2, h3⟩ := h
  have hl : detect l = .error e := by
    cases hd : detect l with
    | ok t => rw [hd] at h2; cases h2
    | error e' => rw [hd] at h2; injection h2 with h2; rw [h2]
  obtain ⟨t, ht⟩ := hpre pre ⟨_, h1.symm⟩ fun l hl => by
    have := h3 l hl
    cases hd : detect l with
    | ok t => exact ⟨t, rfl⟩
    | error e => rw [hd] at this; cases this
  unfold detectSnapshot
  rw [h1, List.foldlM_append, ht]
  show List.foldlM (levelStep E detect) t (l :: post) = _
  rw [List.foldlM_cons]
  unfold levelStep
  rw [hl]
  rfl

theorem pureSnapshot_error {prunes : Bool} {nn : List (ℝ × ℝ) → ℝ × ℝ → Nat} (hnn : IsNN haversine nn) {c : Criteria ℝ} (hc : c.skipGauss = true)
    {L : Libs} {S : Fields} (hS : S.Ok) {levels : List ℝ} {e : PyErr}
    (h : firstError (fun l => pureLevel c (levelMeasures c L S l)) (levels.filter (· ≠ 0)) = some e) :
    pureSnapshot (colsEnv prunes nn) c L S levels = .error e := by
  refine detectSnapshot_error ?_ h
  rintro pre ⟨post, hp⟩ hok
  obtain ⟨t, h1, -⟩ := pureSnapshot_select (prunes := prunes) hnn hc (L := L) hS (levels := pre) fun l hl _ => hok l hl
  unfold pureSnapshot detectSnapshot at h1
  have : pre.filter (· ≠ 0) = pre := by
    apply List.filter_eq_self.2
    intro l hl
    have : l ∈ levels.filter (· ≠ 0) := hp ▸ List.mem_append_left _ hl
    exact (List.mem_filter.1 this).2
  rw [this] at h1
  exact ⟨t, h1⟩

/-- the loop over the times uses the rows of the snapshots only -/
theorem timeTracking_rows {α K Pt : Type} [Field K] [LinearOrder K] [IsStrictOrderedRing K] (E : Env α K Pt)
    {snap snap' : Int → Except PyErr (Tbl α)} {t0 : Int} {tf : Option Int} {T : Nat} (ntimes : Int) (online : Bool)
    (h : ∀ t ∈ trackTimes t0 tf T, (snap t).map Tbl.rows = (snap' t).map Tbl.rows) :
    timeTracking E snap t0 tf T ntimes online = timeTracking E snap' t0 tf T ntimes online := by
  unfold timeTracking
  generalize trackTimes t0 tf T = ts at h
  generalize (⟨⟨[], []⟩, [], []⟩ : LoopState α) = s
  induction ts generalizing s with
  | nil => rfl
  | cons t ts ih =>
    rw [List.foldlM_cons, List.foldlM_cons]
    have h1 : loopStep E snap tf ntimes online s t = loopStep E snap' tf ntimes online s t := by
      have := h t List.mem_cons_self
      unfold loopStep
      cases h1 : snap t with
      | error e =>
        cases h2 : snap' t with
        | error e' => rw [h1, h2] at this; injection this with this; rw [this]
        | ok C => rw [h1, h2] at this; cases this
      | ok C =>
        cases h2 : snap' t with
        | error e' => rw [h1, h2] at this; cases this
        | ok C' =>
          rw [h1, h2] at this
          injection this with this
          obtain ⟨lv, rows⟩ := C
          obtain ⟨lv', rows'⟩ := C'
          cases (this : rows = rows')
          rfl
    rw [h1]
    congr 1
    funext s'
    exact ih (fun t ht => h t (List.mem_cons_of_mem _ ht)) s'

/-- the rows of a run, without the identifiers -/
theorem run_selected {prunes : Bool} {nn : List (ℝ × ℝ) → ℝ × ℝ → Nat} (hnn : IsNN haversine nn) {c : Criteria ℝ} (hc : c.skipGauss = true)
    {L : Libs} {field : Int → Fields} {levels : List ℝ} {t0 : Int} {tf : Option Int} {T : Nat} {ntimes : Int} {regs : Regs Cols}
    (h : ∀ t ∈ trackTimes t0 tf T, (field t).Ok) (hr : StoreEmpty regs) {s : LoopState Cols}
    (hs : (trackFields (colsEnv prunes nn) c L field levels t0 tf T ntimes true regs).2 = .ok s) :
    ∃ g : Int → Nat → Nat, s.table.rows.Perm ((trackTimes t0 tf T).flatMap fun t =>
        ((select NearEddy ((levels.filter (· ≠ 0)).map (foundIn c L (field t)))).mapIdx
          fun i e => atTime t (eddyRows (g t i) (tableRows e.data))).flatten) := by
  have hnn' : IsNN (colsEnv prunes nn).dist (colsEnv prunes nn).nn := hnn
  rw [(trackFields_pure _ c L h hr).1] at hs
  have hsnap : ∀ t C, pureSnapshot (colsEnv prunes nn) c L (field t) levels = .ok C → SnapRows C.rows := by
    intro t C hC
    have := detectSnapshot_inv (fun l tb htb => pureLevel_level htb) _ hC
    exact ⟨this.first, this.contig⟩
  obtain ⟨g, hg⟩ := C03_no_detection_lost_or_invented hnn' hsnap hs
  have hproc : s.processed = trackTimes t0 tf T :=
    (run_inv hnn' _ (pairwise_trackTimes t0 tf T) (fun t _ => rowsAt_snapRows hsnap t) hs).proc
  refine ⟨g, ?_⟩
  rw [hproc] at hg
  refine hg.trans (List.Perm.of_eq ?_)
  apply List.flatMap_congr
  intro t ht
  obtain ⟨C, hC⟩ := run_snaps_ok _ hs t ht
  obtain ⟨C', h1, h2⟩ := pureSnapshot_select (prunes := prunes) hnn hc (L := L) (h t ht) (levels := levels) (detectSnapshot_levels hC)
  have : rowsAt (fun t => pureSnapshot (colsEnv prunes nn) c L (field t) levels) t = C'.rows := by
    unfold rowsAt
    simp only [h1]
  rw [this, h2, tagged_snapRows]
  congr 1
  apply List.ext_getElem?
  intro i
  simp only [List.getElem?_mapIdx, List.getElem?_map, Option.map_map]
  rfl

/-- the contour points of an eddy at a time, without identifier -/
def pointsAt (t : Int) (e : EddyObj) : List (Nat × Int × Cols) := (tableRows e.data).mapIdx fun j v => (j, t, v)

theorem noId_rows (t : Int) (g : Nat → Nat) (es : List EddyObj) :
    ((es.mapIdx fun i e => atTime t (eddyRows (g i) (tableRows e.data))).flatten).map (fun r => (r.idx, r.val)) = es.flatMap (pointsAt t) := by
  rw [List.flatMap_def, List.map_flatten]
  congr 1
  apply List.ext_getElem?
  intro i
  simp only [List.getElem?_map, List.getElem?_mapIdx, Option.map_map]
  cases es[i]? with
  | none => rfl
  | some e =>
    simp only [Option.map_some, Function.comp_apply, atTime, eddyRows, pointsAt, Option.some.injEq]
    apply List.ext_getElem?
    intro j
    simp only [List.getElem?_map, List.getElem?_mapIdx, Option.map_map]
    rfl

theorem run_selected_points {prunes : Bool} {nn : List (ℝ × ℝ) → ℝ × ℝ → Nat} (hnn : IsNN haversine nn) {c : Criteria ℝ} (hc : c.skipGauss = true)
    {L : Libs} {field : Int → Fields} {levels : List ℝ} {t0 : Int} {tf : Option Int} {T : Nat} {ntimes : Int} {regs : Regs Cols}
    (h : ∀ t ∈ trackTimes t0 tf T, (field t).Ok) (hr : StoreEmpty regs) {s : LoopState Cols}
    (hs : (trackFields (colsEnv prunes nn) c L field levels t0 tf T ntimes true regs).2 = .ok s) :
    (s.table.rows.map fun r => (r.idx, r.val)).Perm ((trackTimes t0 tf T).flatMap fun t =>
        (select NearEddy ((levels.filter (· ≠ 0)).map (foundIn c L (field t)))).flatMap (pointsAt t)) := by
  obtain ⟨g, hg⟩ := run_selected hnn hc h hr hs
  refine (hg.map _).trans (List.Perm.of_eq ?_)
  rw [List.map_flatMap]
  apply List.flatMap_congr
  intro t _
  exact noId_rows t (g t) _

theorem flatMap_sublist {β γ : Type} {l : List β} {f g : β → List γ} (h : ∀ b ∈ l, (f b).Sublist (g b)) : (l.flatMap f).Sublist (l.flatMap g) := by
  induction l with
  | nil => simp
  | cons b l ih =>
    rw [List.flatMap_cons, List.flatMap_cons]
    exact (h b (by simp)).append (ih fun b hb => h b (List.mem_cons_of_mem _ hb))

end Trackeddy
