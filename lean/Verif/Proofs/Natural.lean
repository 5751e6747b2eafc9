import Verif.Model.Tracking

/-!
Merging and tracking read only the columns named in `Env`: they commute with every change of the other columns.
-/
namespace Trackeddy

variable {α β K Pt : Type} [Field K] [LinearOrder K] [IsStrictOrderedRing K]

/-- a row with changed columns -/
def Row.mapV (f : α → β) (r : Row α) : Row β := ⟨r.id, r.idx, f r.val⟩

/-- a table with changed columns -/
def Tbl.mapV (f : α → β) (t : Tbl α) : Tbl β := ⟨t.lev, t.rows.map (Row.mapV f)⟩

/-- the same for rows with a time -/
def timedV (f : α → β) (v : Int × α) : Int × β := (v.1, f v.2)

/-- the columns that are read are the same before and after the change -/
structure SameEnv (f : α → β) (E : Env α K Pt) (E' : Env β K Pt) : Prop where
  prunes : E'.prunes = E.prunes
  pos : ∀ a, E'.pos (f a) = E.pos a
  radius : ∀ a, E'.radius (f a) = E.radius a
  ellErr : ∀ a, E'.ellErr (f a) = E.ellErr a
  gauErr : ∀ a, E'.gauErr (f a) = E.gauErr a
  dist : E'.dist = E.dist
  nn : E'.nn = E.nn

theorem SameEnv.timed {f : α → β} {E : Env α K Pt} {E' : Env β K Pt} (h : SameEnv f E E') : SameEnv (timedV f) E.timed E'.timed where
  prunes := h.prunes
  pos v := h.pos v.2
  radius v := h.radius v.2
  ellErr v := h.ellErr v.2
  gauErr v := h.gauErr v.2
  dist := h.dist
  nn := h.nn

theorem rows_mapV (f : α → β) (t : Tbl α) : (t.mapV f).rows = t.rows.map (Row.mapV f) := rfl
theorem lev_mapV (f : α → β) (t : Tbl α) : (t.mapV f).lev = t.lev := rfl

theorem rows_mapV_nil (f : α → β) (t : Tbl α) : (t.mapV f).rows = [] ↔ t.rows = [] := List.map_eq_nil_iff

theorem ids_mapV (f : α → β) (t : Tbl α) : (t.mapV f).ids = t.ids := by
  unfold Tbl.ids Tbl.mapV
  rw [List.map_map]
  rfl

theorem resetSet_mapV (f : α → β) (t : Tbl α) : (t.mapV f).resetSet = t.resetSet.mapV f := by
  unfold Tbl.resetSet
  rw [ids_mapV]
  rfl

theorem mapM_map_except {γ δ ε : Type} {F : γ → Except PyErr δ} {G : ε → Except PyErr ζ} {a : γ → ε} {b : δ → ζ}
    (h : ∀ x, G (a x) = (F x).map b) (l : List γ) : (l.map a).mapM G = (l.mapM F).map (List.map b) := by
  induction l with
  | nil => rfl
  | cons x l ih =>
    rw [List.map_cons, List.mapM_cons, List.mapM_cons, h, ih]
    simp only [bind, Except.bind, pure, Except.pure]
    cases F x with
    | error e => rfl
    | ok y =>
      simp only [Except.map]
      cases l.mapM F <;> rfl

theorem setLevels_mapV (f : α → β) (t : Tbl α) (new : List Nat) : (t.mapV f).setLevels new = (t.setLevels new).map (Tbl.mapV f) := by
  unfold Tbl.setLevels
  rw [rows_mapV, lev_mapV, mapM_map_except (F := fun r : Row α => match new[t.lev.idxOf r.id]? with
    | some i => Except.ok ({ r with id := i } : Row α)
    | none => Except.error PyErr.valueError) (b := Row.mapV f)]
  · generalize t.rows.mapM (m := Except PyErr) _ = u
    cases u <;> rfl
  · intro x
    simp only [Row.mapV]
    cases new[t.lev.idxOf x.id]? <;> rfl

theorem rename_mapV (f : α → β) (t : Tbl α) (old new : Nat) : (t.mapV f).rename old new = (t.rename old new).mapV f := by
  unfold Tbl.rename
  rw [← resetSet_mapV]
  congr 1
  unfold Tbl.mapV
  simp only [List.map_map]
  congr 1
  apply List.map_congr_left
  intro r _
  by_cases hr : r.id = old
  · simp only [Function.comp_apply, Row.mapV, hr, if_true]
  · simp only [Function.comp_apply, Row.mapV, hr, if_false]

theorem filter_mapV (f : α → β) (p : Row α → Bool) (q : Row β → Bool) (h : ∀ r, q (r.mapV f) = p r) (l : List (Row α)) :
    (l.map (Row.mapV f)).filter q = (l.filter p).map (Row.mapV f) := by
  rw [List.filter_map]
  congr 1
  apply List.filter_congr
  intro r _
  exact h r

theorem drop_mapV (f : α → β) (t : Tbl α) (labels : List Nat) : (t.mapV f).drop labels = (t.drop labels).mapV f := by
  unfold Tbl.drop Tbl.mapV
  simp only
  rw [filter_mapV f (fun r => decide (r.id ∉ labels))]
  intro r
  rfl

theorem concat_mapV (f : α → β) (prunes : Bool) (p n : Tbl α) :
    Tbl.concat prunes (p.mapV f) (n.mapV f) = (Tbl.concat prunes p n).mapV f := by
  unfold Tbl.concat
  rw [ids_mapV, ids_mapV]
  simp only [Tbl.mapV, List.map_append]

theorem first_mapV (f : α → β) (t : Tbl α) : (t.mapV f).first = t.first.map (Row.mapV f) := by
  unfold Tbl.first
  rw [rows_mapV, filter_mapV f (fun r => decide (r.idx = 0))]
  intro r
  rfl

theorem sortBy_map {γ δ κ : Type} [LinearOrder κ] {key : γ → κ} {key' : δ → κ} {g : γ → δ} (h : ∀ x, key' (g x) = key x) (l : List γ) :
    sortBy key' (l.map g) = (sortBy key l).map g := by
  unfold sortBy
  symm
  apply List.map_insertionSort
  intro a _ b _
  rw [h, h]

/-! ### merging levels -/

theorem detectNearest_mapV {f : α → β} {E : Env α K Pt} {E' : Env β K Pt} (h : SameEnv f E E') (p n : Tbl α) :
    detectNearest E' (p.mapV f) (n.mapV f) = detectNearest E p n := by
  unfold detectNearest
  rw [first_mapV, first_mapV]
  simp only [List.map_eq_nil_iff, List.map_map, List.length_map, h.nn, h.dist]
  have e1 : (fun r : Row β => E'.pos r.val) ∘ Row.mapV f = fun r => E.pos r.val := by
    funext r
    exact h.pos r.val
  rw [e1]
  have e2 : ∀ P : List Pt, (fun r : Row β => E.nn P (E'.pos r.val)) ∘ Row.mapV f = fun r => E.nn P (E.pos r.val) := by
    intro P
    funext r
    simp only [Function.comp_apply, Row.mapV, h.pos]
  rw [e2]
  have e3 : ∀ P : List Pt, (fun r : Row β => match P[E.nn P (E'.pos r.val)]? with
      | some q => decide (E.dist (E'.pos r.val) q * 6371 - E'.radius r.val < 0)
      | none => false) ∘ Row.mapV f = fun r => match P[E.nn P (E.pos r.val)]? with
      | some q => decide (E.dist (E.pos r.val) q * 6371 - E.radius r.val < 0)
      | none => false := by
    intro P
    funext r
    simp only [Function.comp_apply, Row.mapV, h.pos, h.radius]
  have e4 := e3 (List.map (fun r => E.pos r.val) p.first)
  simp only [Function.comp_def, Row.mapV, h.pos, h.radius]

theorem updateCounter_mapV (f : α → β) (p n : Tbl α) :
    updateCounter (p.mapV f) (n.mapV f) = (updateCounter p n).map fun x => (x.1.mapV f, x.2) := by
  unfold updateCounter
  rw [lev_mapV, lev_mapV]
  cases p.lev.max? with
  | none => rfl
  | some prev =>
    simp only [bind, Except.bind, pure, Except.pure, setLevels_mapV]
    cases n.setLevels _ <;> rfl

theorem updateCounter_mapV' (f g : α → β) (p n : Tbl α) :
    updateCounter (p.mapV f) (n.mapV g) = (updateCounter p n).map fun x => (x.1.mapV g, x.2) := by
  have : updateCounter (p.mapV f) (n.mapV g) = updateCounter (p.mapV g) (n.mapV g) := rfl
  rw [this, updateCounter_mapV]

/-- all that merging levels needs: the search for the nearest eddies and the comparison of the scores have the same answers before and
after the change -/
structure SameMerge {Pt' : Type} (f : α → β) (E : Env α K Pt) (E' : Env β K Pt') : Prop where
  prunes : E'.prunes = E.prunes
  near : ∀ p n : Tbl α, detectNearest E' (p.mapV f) (n.mapV f) = detectNearest E p n
  lower : ∀ a b, scoreLt (E'.ellErr (f b)) (E'.ellErr (f a)) ∧ scoreLt (E'.gauErr (f b)) (E'.gauErr (f a)) ↔ scoreLt (E.ellErr b) (E.ellErr a) ∧ scoreLt (E.gauErr b) (E.gauErr a)

theorem SameEnv.merge {f : α → β} {E : Env α K Pt} {E' : Env β K Pt} (h : SameEnv f E E') : SameMerge f E E' :=
  ⟨h.prunes, detectNearest_mapV h, fun a b => by rw [h.ellErr, h.ellErr, h.gauErr, h.gauErr]⟩

theorem betterStep_mapV {Pt' : Type} {f : α → β} {E : Env α K Pt} {E' : Env β K Pt'} (h : SameMerge f E E') (p : Tbl α) (index : List Nat) (prev : Nat)
    (st : Tbl α × List Nat) (dup : Nat) :
    betterStep E' (p.mapV f) index prev (st.1.mapV f, st.2) dup =
      (betterStep E p index prev st dup).map fun x => (x.1.mapV f, x.2) := by
  unfold betterStep
  cases index[dup]? with
  | none => rfl
  | some j =>
    simp only
    have e1 : ∀ (t : Tbl α) (k : Nat), (t.mapV f).first.filter (fun r => decide (r.id = k)) =
        (t.first.filter fun r => decide (r.id = k)).map (Row.mapV f) := by
      intro t k
      rw [first_mapV, filter_mapV f (fun r => decide (r.id = k))]
      intro r
      rfl
    rw [e1, e1]
    cases p.first.filter (fun r => decide (r.id = j)) with
    | nil => rfl
    | cons a l =>
      cases st.1.first.filter (fun r => decide (r.id = dup + prev + 1)) with
      | nil => rfl
      | cons b m =>
        cases l with
        | cons _ _ => cases m <;> rfl
        | nil =>
          cases m with
          | cons _ _ => rfl
          | nil =>
            simp only [List.map_cons, List.map_nil, Row.mapV, h.lower, rename_mapV, drop_mapV]
            split <;> rfl

theorem foldlM_mapV {γ δ ι : Type} {F : γ → ι → Except PyErr γ} {G : δ → ι → Except PyErr δ} {b : γ → δ}
    (h : ∀ x i, G (b x) i = (F x i).map b) (l : List ι) (x : γ) : l.foldlM G (b x) = (l.foldlM F x).map b := by
  induction l generalizing x with
  | nil => rfl
  | cons i l ih =>
    rw [List.foldlM_cons, List.foldlM_cons, h]
    simp only [bind, Except.bind]
    cases F x i with
    | error e => rfl
    | ok y => exact ih y

theorem updateBetter_mapV {Pt' : Type} {f : α → β} {E : Env α K Pt} {E' : Env β K Pt'} (h : SameMerge f E E') (p n : Tbl α) (index nearest : List Nat) :
    updateBetter E' (p.mapV f) (n.mapV f) index nearest =
      (updateBetter E p n index nearest).map fun x => (x.1.mapV f, x.2.mapV f) := by
  unfold updateBetter
  rw [updateCounter_mapV]
  simp only [bind, Except.bind, pure, Except.pure]
  cases updateCounter p n with
  | error e => rfl
  | ok x =>
    simp only [Except.map]
    have := foldlM_mapV (F := betterStep E p index x.2) (G := betterStep E' (p.mapV f) index x.2)
      (b := fun y : Tbl α × List Nat => (y.1.mapV f, y.2)) (fun y i => betterStep_mapV h p index x.2 y i) nearest (x.1, [])
    simp only at this
    rw [this]
    cases nearest.foldlM (betterStep E p index x.2) (x.1, []) with
    | error e => rfl
    | ok y =>
      simp only [Except.map]
      split
      · rfl
      · rw [drop_mapV]

theorem mergeReindex_mapV (f : α → β) (prunes : Bool) (p n : Tbl α) :
    mergeReindex prunes (p.mapV f) (n.mapV f) = (mergeReindex prunes p n).map (Tbl.mapV f) := by
  unfold mergeReindex
  simp only [concat_mapV, resetSet_mapV, setLevels_mapV, lev_mapV, bind, Except.bind, pure, Except.pure]
  cases (Tbl.concat prunes p n).resetSet.setLevels _ with
  | error e => rfl
  | ok t =>
    simp only [Except.map]
    congr 1
    rw [rows_mapV, sortBy_map (key := fun r : Row α => toLex (r.id, r.idx))]
    · rfl
    · intro r; rfl

theorem mergeLevel_mapV {Pt' : Type} {f : α → β} {E : Env α K Pt} {E' : Env β K Pt'} (h : SameMerge f E E') (joint cur : Tbl α) :
    mergeLevel E' (joint.mapV f) (cur.mapV f) = (mergeLevel E joint cur).map (Tbl.mapV f) := by
  unfold mergeLevel
  rw [h.near]
  simp only [bind, Except.bind]
  cases detectNearest E joint cur with
  | error e => rfl
  | ok x =>
    simp only [updateBetter_mapV h]
    cases updateBetter E joint cur x.1 x.2 with
    | error e => rfl
    | ok y =>
      simp only [Except.map, h.prunes]
      exact mergeReindex_mapV f _ _ _

theorem levelStep_mapV {Pt' : Type} {f : α → β} {E : Env α K Pt} {E' : Env β K Pt'} (h : SameMerge f E E') {K' : Type} {detect : K → Except PyErr (Tbl α)}
    {detect' : K → Except PyErr (Tbl β)} {l l' : K} (hd : detect' l' = (detect l).map (Tbl.mapV f)) (joint : Tbl α) :
    levelStep E' detect' (joint.mapV f) l' = (levelStep E detect joint l).map (Tbl.mapV f) := by
  unfold levelStep
  rw [hd]
  simp only [bind, Except.bind, pure, Except.pure]
  cases detect l with
  | error e => rfl
  | ok cur =>
    simp only [Except.map, rows_mapV_nil]
    split
    · rfl
    · split
      · rfl
      · exact mergeLevel_mapV h joint cur

/-! ### tracking -/

theorem xsTimeLevels_mapV (f : α → β) (T : Tbl (Int × α)) (s : Int) : xsTimeLevels (T.mapV (timedV f)) s = xsTimeLevels T s := by
  unfold xsTimeLevels
  rw [rows_mapV, List.any_map]
  rfl

theorem locList_mapV (f : α → β) (T : Tbl α) (labels : List Nat) : locList (T.mapV f) labels = (locList T labels).map (Tbl.mapV f) := by
  unfold locList
  have e1 : (labels.all fun i => (T.mapV f).rows.any fun r => decide (r.id = i)) = labels.all fun i => T.rows.any fun r => decide (r.id = i) := by
    congr 1
    funext i
    rw [rows_mapV, List.any_map]
    rfl
  rw [e1]
  split
  · simp only [Except.map, Tbl.mapV, List.map_flatMap]
    congr 3
    funext i
    rw [filter_mapV f (fun r => decide (r.id = i))]
    intro r
    rfl
  · rfl

theorem groupMaxTime_mapV (f : α → β) (T : Tbl (Int × α)) : groupMaxTime (T.mapV (timedV f)) = groupMaxTime T := by
  unfold groupMaxTime
  rw [ids_mapV]
  congr 1
  funext i
  rw [rows_mapV, filter_mapV (timedV f) (fun r => decide (r.id = i)), List.map_map]
  · rfl
  · intro r; rfl

theorem groupLast_mapV (f : α → β) (T : Tbl α) : groupLast (T.mapV f) = (groupLast T).map (Row.mapV f) := by
  unfold groupLast
  rw [ids_mapV, List.map_flatMap]
  congr 1
  funext i
  rw [List.map_filterMap, rows_mapV, filter_mapV f (fun r => decide (r.id = i)), List.map_map]
  · congr 1
    funext j
    rw [filter_mapV f (fun r => decide (r.id = i ∧ r.idx = j)), List.getLast?_map]
    intro r
    rfl
  · intro r; rfl

theorem unlink_mapV (f : α → β) (T : Tbl (Int × α)) (time ntimes : Int) :
    unlink (T.mapV (timedV f)) time ntimes = (unlink T time ntimes).map (Tbl.mapV (timedV f)) := by
  unfold unlink
  simp only [xsTimeLevels_mapV]
  simp only [bind, Except.bind, pure, Except.pure]
  cases xsTimeLevels T time with
  | error e => rfl
  | ok last =>
    simp only
    generalize List.foldlM (m := Except PyErr) _ last (irange (time - if time < ntimes then time else ntimes) time) = u
    cases u with
    | error e => rfl
    | ok u =>
      simp only [locList_mapV]
      cases locList T (usort u) with
      | error e => rfl
      | ok sel =>
        simp only [Except.map, groupMaxTime_mapV, groupLast_mapV]
        rw [mapM_map_except (F := fun r : Row (Int × α) => match (groupMaxTime sel)[r.id]? with
          | some s => Except.ok ({ r with val := (s, r.val.2) } : Row (Int × α))
          | none => Except.error PyErr.indexError) (b := Row.mapV (timedV f))]
        · generalize (groupLast sel).mapM (m := Except PyErr) _ = u
          cases u with
          | error e => rfl
          | ok rows =>
            simp only [Except.map]
            congr 1
            exact resetSet_mapV (timedV f) ⟨[], rows⟩
        · intro r
          simp only [Row.mapV, timedV]
          cases (groupMaxTime sel)[r.id]? <;> rfl

theorem renameInTime_mapV (f : α → β) (cur : Tbl α) (index nearest : List Nat) (prev : Nat) :
    renameInTime (cur.mapV f) index nearest prev = (renameInTime cur index nearest prev).map (Tbl.mapV f) := by
  unfold renameInTime
  apply foldlM_mapV
  intro x i
  cases index[i]? with
  | none => rfl
  | some j => simp only [rename_mapV]; rfl

/-- all that tracking needs: the search for the nearest eddies has the same answer before and after the change -/
structure SameSearch {Pt' : Type} (f : α → β) (E : Env α K Pt) (E' : Env β K Pt') : Prop where
  prunes : E'.prunes = E.prunes
  near : ∀ p n : Tbl (Int × α), detectNearest E'.timed (p.mapV (timedV f)) (n.mapV (timedV f)) = detectNearest E.timed p n

theorem SameEnv.search {f : α → β} {E : Env α K Pt} {E' : Env β K Pt} (h : SameEnv f E E') : SameSearch f E E' :=
  ⟨h.prunes, detectNearest_mapV h.timed⟩

theorem trackOnline_mapV {Pt' : Type} {f : α → β} {E : Env α K Pt} {E' : Env β K Pt'} (h : SameSearch f E E') (T cur : Tbl (Int × α)) (time ntimes : Int) :
    trackOnline E' (T.mapV (timedV f)) (cur.mapV (timedV f)) time ntimes =
      (trackOnline E T cur time ntimes).map (Tbl.mapV (timedV f)) := by
  unfold trackOnline
  rw [unlink_mapV]
  simp only [bind, Except.bind, pure, Except.pure]
  cases unlink T (time - 1) ntimes with
  | error e => rfl
  | ok prevTime =>
    simp only [Except.map, h.near]
    cases detectNearest E.timed prevTime cur with
    | error e => rfl
    | ok x =>
      simp only [updateCounter_mapV]
      cases updateCounter prevTime cur with
      | error e => rfl
      | ok y =>
        simp only [Except.map, renameInTime_mapV]
        cases renameInTime y.1 x.1 x.2 y.2 with
        | error e => rfl
        | ok cur' =>
          simp only [Except.map, mergeReindex_mapV, h.prunes]
          cases mergeReindex E.prunes T cur' with
          | error e => rfl
          | ok M =>
            simp only [Except.map]
            congr 1
            rw [← resetSet_mapV, rows_mapV, sortBy_map (key := fun r : Row (Int × α) => toLex (r.id, toLex (r.val.1, r.idx)))]
            · rfl
            · intro r; rfl

theorem stamp_mapV (f : α → β) (time : Int) (t : Tbl α) : stamp time (t.mapV f) = (stamp time t).mapV (timedV f) := by
  unfold stamp
  rw [← resetSet_mapV]
  congr 1
  simp only [Tbl.mapV, List.map_map]
  rfl

/-- the result of a run with changed columns -/
def LoopState.mapV (f : α → β) (s : LoopState α) : LoopState β :=
  ⟨s.table.mapV (timedV f), s.processed, s.written.map fun w => (w.1, w.2.mapV (timedV f))⟩

theorem loopStep_mapV {Pt' : Type} {f : α → β} {E : Env α K Pt} {E' : Env β K Pt'} (h : SameSearch f E E') {snap : Int → Except PyErr (Tbl α)}
    {snap' : Int → Except PyErr (Tbl β)} {time : Int} (hs : snap' time = (snap time).map (Tbl.mapV f)) (tf : Option Int) (ntimes : Int)
    (online : Bool) (s : LoopState α) :
    loopStep E' snap' tf ntimes online (s.mapV f) time = (loopStep E snap tf ntimes online s time).map (LoopState.mapV f) := by
  unfold loopStep
  rw [hs]
  simp only [bind, Except.bind, pure, Except.pure]
  cases snap time with
  | error e => rfl
  | ok cur =>
    have ht : (s.mapV f).table.rows = [] ↔ s.table.rows = [] := rows_mapV_nil _ _
    simp only [Except.map, rows_mapV_nil, ht]
    split
    · rfl
    · split
      · simp only [LoopState.mapV]
        congr 2
        rw [stamp_mapV, ← resetSet_mapV, rows_mapV, sortBy_map (key := fun r : Row (Int × α) => toLex (r.id, toLex (r.val.1, r.idx)))]
        · rfl
        · intro r; rfl
      · cases online with
        | true =>
          have ht' : (s.mapV f).table = s.table.mapV (timedV f) := rfl
          simp only [if_true, stamp_mapV, ht', trackOnline_mapV h]
          cases trackOnline E s.table (stamp time cur) time ntimes with
          | error e => rfl
          | ok T =>
            simp only [Except.map]
            cases progress tf time <;> rfl
        | false =>
          simp only [Bool.false_eq_true, if_false, stamp_mapV]
          cases progress tf time with
          | error e => rfl
          | ok u => simp [LoopState.mapV]

/-- tracking commutes with changes after which the search has the same answers -/
theorem timeTracking_search {Pt' : Type} {f : α → β} {E : Env α K Pt} {E' : Env β K Pt'} (h : SameSearch f E E') {snap : Int → Except PyErr (Tbl α)}
    {snap' : Int → Except PyErr (Tbl β)} {t0 : Int} {tf : Option Int} {T : Nat}
    (hs : ∀ t ∈ trackTimes t0 tf T, snap' t = (snap t).map (Tbl.mapV f)) (ntimes : Int) (online : Bool) :
    timeTracking E' snap' t0 tf T ntimes online = (timeTracking E snap t0 tf T ntimes online).map (LoopState.mapV f) := by
  unfold timeTracking
  have key : ∀ (l : List Int) (s : LoopState α), (∀ t ∈ l, snap' t = (snap t).map (Tbl.mapV f)) →
      l.foldlM (loopStep E' snap' tf ntimes online) (s.mapV f) =
        (l.foldlM (loopStep E snap tf ntimes online) s).map (LoopState.mapV f) := by
    intro l
    induction l with
    | nil => intro s _; rfl
    | cons t l ih =>
      intro s hl
      rw [List.foldlM_cons, List.foldlM_cons, loopStep_mapV h (hl t List.mem_cons_self)]
      simp only [bind, Except.bind]
      cases loopStep E snap tf ntimes online s t with
      | error e => rfl
      | ok s' => exact ih s' (fun t ht => hl t (List.mem_cons_of_mem _ ht))
  exact key _ ⟨⟨[], []⟩, [], []⟩ hs

/-- **tracking commutes with changes of the columns that are not read** -/
theorem timeTracking_mapV {f : α → β} {E : Env α K Pt} {E' : Env β K Pt} (h : SameEnv f E E') {snap : Int → Except PyErr (Tbl α)}
    {snap' : Int → Except PyErr (Tbl β)} {t0 : Int} {tf : Option Int} {T : Nat}
    (hs : ∀ t ∈ trackTimes t0 tf T, snap' t = (snap t).map (Tbl.mapV f)) (ntimes : Int) (online : Bool) :
    timeTracking E' snap' t0 tf T ntimes online = (timeTracking E snap t0 tf T ntimes online).map (LoopState.mapV f) :=
  timeTracking_search h.search hs ntimes online

end Trackeddy
