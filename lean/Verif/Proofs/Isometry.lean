import Verif.Proofs.Units
import Mathlib.Data.List.Forall2

/-!
Tracking reads the detections only through distances and radii: runs whose detections correspond, with the same distances and radii,
correspond.
-/
namespace Trackeddy

variable {α β K Pt Pt' : Type} [Field K] [LinearOrder K] [IsStrictOrderedRing K]

/-- rows at the same place of two tables, with related values -/
def RowRel (R : α → β → Prop) (r : Row α) (r' : Row β) : Prop := r'.id = r.id ∧ r'.idx = r.idx ∧ R r.val r'.val

/-- tables with the same numbers and related values -/
def TblRel (R : α → β → Prop) (t : Tbl α) (t' : Tbl β) : Prop := t'.lev = t.lev ∧ List.Forall₂ (RowRel R) t.rows t'.rows

/-- the same for values with a time -/
def TimedRel (R : α → β → Prop) (v : Int × α) (v' : Int × β) : Prop := v'.1 = v.1 ∧ R v.2 v'.2

/-- results with the same numbers and related values, or the same exception -/
def ResRel {A B : Type} (R : A → B → Prop) : Except PyErr A → Except PyErr B → Prop
  | .ok a, .ok b => R a b
  | .error e, .error e' => e' = e
  | _, _ => False

/-- runs with the same numbers and related values -/
structure RunRel (R : α → β → Prop) (s : LoopState α) (s' : LoopState β) : Prop where
  table : TblRel (TimedRel R) s.table s'.table
  processed : s'.processed = s.processed
  written : List.Forall₂ (fun w w' => w'.1 = w.1 ∧ TblRel (TimedRel R) w.2 w'.2) s.written s'.written

/-- the two searches choose the same candidate whenever the distances are the same -/
def AlikeSearch (E : Env α K Pt) (E' : Env β K Pt') : Prop :=
  ∀ (P : List Pt) (P' : List Pt') (q : Pt) (q' : Pt'), List.Forall₂ (fun p p' => E'.dist q' p' = E.dist q p) P P' → E'.nn P' q' = E.nn P q

/-- pairs of related values -/
def Pairs (R : α → β → Prop) : Type := {x : α × β // R x.1 x.2}

def Pairs.left {R : α → β → Prop} (x : Pairs R) : α := x.1.1
def Pairs.right {R : α → β → Prop} (x : Pairs R) : β := x.1.2

/-- the columns of the pairs -/
def pairsEnv (R : α → β → Prop) (E : Env α K Pt) : Env (Pairs R) K (Pairs R) where
  prunes := E.prunes
  pos x := x
  radius x := E.radius x.left
  ellErr x := E.ellErr x.left
  gauErr x := E.gauErr x.left
  dist x y := E.dist (E.pos x.left) (E.pos y.left)
  nn P q := E.nn (P.map fun x => E.pos x.left) (E.pos q.left)

theorem detectNearest_of {f : α → β} {E : Env α K Pt} {E' : Env β K Pt'} (hr : ∀ a, E'.radius (f a) = E.radius a)
    (hd : ∀ a b, E'.dist (E'.pos (f a)) (E'.pos (f b)) = E.dist (E.pos a) (E.pos b))
    (hn : ∀ (P : List α) q, E'.nn (P.map fun x => E'.pos (f x)) (E'.pos (f q)) = E.nn (P.map fun x => E.pos x) (E.pos q))
    (p n : Tbl α) : detectNearest E' (p.mapV f) (n.mapV f) = detectNearest E p n := by
  have e : ∀ q : α, E'.nn ((p.first.map (Row.mapV f)).map fun r => E'.pos r.val) (E'.pos (f q)) = E.nn (p.first.map fun r => E.pos r.val) (E.pos q) := by
    intro q
    have := hn (p.first.map fun r => r.val) q
    rw [List.map_map] at this ⊢
    rw [List.map_map] at this
    exact this
  have e2 : ∀ q : α, (match ((p.first.map (Row.mapV f)).map fun r => E'.pos r.val)[E'.nn ((p.first.map (Row.mapV f)).map fun r => E'.pos r.val) (E'.pos (f q))]? with
      | some z => decide (E'.dist (E'.pos (f q)) z * 6371 - E'.radius (f q) < 0)
      | none => false) = match (p.first.map fun r => E.pos r.val)[E.nn (p.first.map fun r => E.pos r.val) (E.pos q)]? with
      | some z => decide (E.dist (E.pos q) z * 6371 - E.radius q < 0)
      | none => false := by
    intro q
    rw [e, List.map_map, List.getElem?_map, List.getElem?_map]
    cases p.first[E.nn (p.first.map fun r => E.pos r.val) (E.pos q)]? with
    | none => rfl
    | some r =>
      simp only [Option.map_some, Function.comp_apply, Row.mapV]
      rw [hd, hr]
  unfold detectNearest
  rw [first_mapV, first_mapV]
  simp only [List.map_eq_nil_iff]
  split
  · rfl
  · congr 2
    · rw [List.map_map]
      exact List.map_congr_left fun r _ => e r.val
    · rw [List.map_map, List.length_map]
      exact List.filter_congr fun i _ => congrArg (fun l : List Bool => decide (l[i]? = some true)) (List.map_congr_left fun r _ => e2 r.val)

theorem search_of {f : α → β} {E : Env α K Pt} {E' : Env β K Pt'} (hp : E'.prunes = E.prunes) (hr : ∀ a, E'.radius (f a) = E.radius a)
    (hd : ∀ a b, E'.dist (E'.pos (f a)) (E'.pos (f b)) = E.dist (E.pos a) (E.pos b))
    (hn : ∀ (P : List α) q, E'.nn (P.map fun x => E'.pos (f x)) (E'.pos (f q)) = E.nn (P.map fun x => E.pos x) (E.pos q)) :
    SameSearch f E E' := by
  refine ⟨hp, fun p n => detectNearest_of (fun a => hr a.2) (fun a b => hd a.2 b.2) (fun P q => ?_) p n⟩
  have := hn (P.map Prod.snd) q.2
  rw [List.map_map, List.map_map] at this
  exact this

theorem left_search (R : α → β → Prop) (E : Env α K Pt) : SameSearch (Pairs.left (R := R)) (pairsEnv R E) E :=
  search_of rfl (fun _ => rfl) (fun _ _ => rfl) fun P q => by simp [pairsEnv]

theorem right_search {R : α → β → Prop} {E : Env α K Pt} {E' : Env β K Pt'} (hp : E'.prunes = E.prunes)
    (hr : ∀ a b, R a b → E'.radius b = E.radius a)
    (hd : ∀ a b c d, R a b → R c d → E'.dist (E'.pos b) (E'.pos d) = E.dist (E.pos a) (E.pos c)) (hn : AlikeSearch E E') :
    SameSearch (Pairs.right (R := R)) (pairsEnv R E) E' := by
  refine search_of hp (fun x => hr _ _ x.2) (fun x y => hd _ _ _ _ x.2 y.2) fun P q => ?_
  simp only [pairsEnv, List.map_id']
  apply hn
  rw [List.forall₂_map_left_iff, List.forall₂_map_right_iff, List.forall₂_same]
  exact fun x _ => hd _ _ _ _ q.2 x.2

theorem pairs_of {R : α → β → Prop} {t : Tbl α} {t' : Tbl β} (h : TblRel R t t') :
    ∃ u : Tbl (Pairs R), t = u.mapV Pairs.left ∧ t' = u.mapV Pairs.right := by
  obtain ⟨lev, rows⟩ := t
  obtain ⟨lev', rows'⟩ := t'
  obtain ⟨h1, h2⟩ := h
  simp only at h1 h2
  subst h1
  have : ∃ us : List (Row (Pairs R)), rows = us.map (Row.mapV Pairs.left) ∧ rows' = us.map (Row.mapV Pairs.right) := by
    induction h2 with
    | nil => exact ⟨[], rfl, rfl⟩
    | @cons r r' l l' hr _ ih =>
      obtain ⟨us, rfl, rfl⟩ := ih
      obtain ⟨id, idx, v⟩ := r
      obtain ⟨id', idx', v'⟩ := r'
      obtain ⟨g1, g2, g3⟩ := hr
      simp only at g1 g2 g3
      subst g1 g2
      exact ⟨⟨id', idx', ⟨(v, v'), g3⟩⟩ :: us, rfl, rfl⟩
  obtain ⟨us, rfl, rfl⟩ := this
  exact ⟨⟨lev', us⟩, rfl, rfl⟩

theorem rel_of_pairs {R : α → β → Prop} (u : Tbl (Int × Pairs R)) :
    TblRel (TimedRel R) (u.mapV (timedV Pairs.left)) (u.mapV (timedV Pairs.right)) := by
  refine ⟨rfl, ?_⟩
  simp only [rows_mapV]
  rw [List.forall₂_map_left_iff, List.forall₂_map_right_iff, List.forall₂_same]
  exact fun r _ => ⟨rfl, rfl, rfl, r.val.2.2⟩

/-- **tracking reads distances and radii only** -/
theorem timeTracking_isometry {R : α → β → Prop} {E : Env α K Pt} {E' : Env β K Pt'} (hp : E'.prunes = E.prunes)
    (hr : ∀ a b, R a b → E'.radius b = E.radius a)
    (hd : ∀ a b c d, R a b → R c d → E'.dist (E'.pos b) (E'.pos d) = E.dist (E.pos a) (E.pos c)) (hn : AlikeSearch E E')
    {snap : Int → Except PyErr (Tbl α)} {snap' : Int → Except PyErr (Tbl β)} {t0 : Int} {tf : Option Int} {T : Nat}
    (hs : ∀ t ∈ trackTimes t0 tf T, ResRel (TblRel R) (snap t) (snap' t)) (ntimes : Int) (online : Bool) :
    ResRel (RunRel R) (timeTracking E snap t0 tf T ntimes online) (timeTracking E' snap' t0 tf T ntimes online) := by
  classical
  have hu : ∀ t ∈ trackTimes t0 tf T, ∃ u : Except PyErr (Tbl (Pairs R)), snap t = u.map (Tbl.mapV Pairs.left) ∧
      snap' t = u.map (Tbl.mapV Pairs.right) := by
    intro t ht
    have := hs t ht
    revert this
    cases snap t with
    | error e =>
      cases snap' t with
      | error e' =>
        intro h
        cases h
        exact ⟨.error e, rfl, rfl⟩
      | ok C' => intro h; cases h
    | ok C =>
      cases snap' t with
      | error e' => intro h; cases h
      | ok C' =>
        intro h
        obtain ⟨u, h1, h2⟩ := pairs_of h
        exact ⟨.ok u, by rw [h1]; rfl, by rw [h2]; rfl⟩
  let su : Int → Except PyErr (Tbl (Pairs R)) := fun t => if h : t ∈ trackTimes t0 tf T then (hu t h).choose else .error .valueError
  have hsu : ∀ t ∈ trackTimes t0 tf T, snap t = (su t).map (Tbl.mapV Pairs.left) ∧ snap' t = (su t).map (Tbl.mapV Pairs.right) := by
    intro t ht
    show snap t = Except.map _ (dite _ _ _) ∧ snap' t = Except.map _ (dite _ _ _)
    rw [dif_pos ht]
    exact (hu t ht).choose_spec
  rw [timeTracking_search (left_search R E) (fun t ht => (hsu t ht).1) ntimes online,
    timeTracking_search (right_search hp hr hd hn) (fun t ht => (hsu t ht).2) ntimes online]
  cases timeTracking (pairsEnv R E) su t0 tf T ntimes online with
  | error e => rfl
  | ok s =>
    refine ⟨rel_of_pairs s.table, rfl, ?_⟩
    show List.Forall₂ _ (s.written.map _) (s.written.map _)
    rw [List.forall₂_map_left_iff, List.forall₂_map_right_iff, List.forall₂_same]
    exact fun w _ => ⟨rfl, rel_of_pairs w.2⟩

/-! ### levels -/

theorem left_merge (R : α → β → Prop) (E : Env α K Pt) : SameMerge (Pairs.left (R := R)) (pairsEnv R E) E :=
  ⟨rfl, detectNearest_of (fun _ => rfl) (fun _ _ => rfl) fun P q => by simp [pairsEnv], fun _ _ => Iff.rfl⟩

theorem right_merge {R : α → β → Prop} {E : Env α K Pt} {E' : Env β K Pt'} (hp : E'.prunes = E.prunes)
    (hr : ∀ a b, R a b → E'.radius b = E.radius a)
    (hd : ∀ a b c d, R a b → R c d → E'.dist (E'.pos b) (E'.pos d) = E.dist (E.pos a) (E.pos c)) (hn : AlikeSearch E E')
    (hl : ∀ a b c d, R a b → R c d → (scoreLt (E'.ellErr d) (E'.ellErr b) ∧ scoreLt (E'.gauErr d) (E'.gauErr b) ↔ scoreLt (E.ellErr c) (E.ellErr a) ∧ scoreLt (E.gauErr c) (E.gauErr a))) :
    SameMerge (Pairs.right (R := R)) (pairsEnv R E) E' := by
  refine ⟨hp, detectNearest_of (fun x => hr _ _ x.2) (fun x y => hd _ _ _ _ x.2 y.2) fun P q => ?_, fun x y => hl _ _ _ _ x.2 y.2⟩
  simp only [pairsEnv, List.map_id']
  apply hn
  rw [List.forall₂_map_left_iff, List.forall₂_map_right_iff, List.forall₂_same]
  exact fun x _ => hd _ _ _ _ q.2 x.2

theorem resRel_pairs {R : α → β → Prop} {x : Except PyErr (Tbl α)} {y : Except PyErr (Tbl β)} (h : ResRel (TblRel R) x y) :
    ∃ u : Except PyErr (Tbl (Pairs R)), x = u.map (Tbl.mapV Pairs.left) ∧ y = u.map (Tbl.mapV Pairs.right) := by
  revert h
  cases x with
  | error e =>
    cases y with
    | error e' =>
      intro h
      cases h
      exact ⟨.error e, rfl, rfl⟩
    | ok C' => intro h; cases h
  | ok C =>
    cases y with
    | error e' => intro h; cases h
    | ok C' =>
      intro h
      obtain ⟨u, h1, h2⟩ := pairs_of h
      exact ⟨.ok u, by rw [h1]; rfl, by rw [h2]; rfl⟩

theorem pairs_resRel {R : α → β → Prop} (u : Except PyErr (Tbl (Pairs R))) :
    ResRel (TblRel R) (u.map (Tbl.mapV Pairs.left)) (u.map (Tbl.mapV Pairs.right)) := by
  cases u with
  | error e => rfl
  | ok u =>
    refine ⟨rfl, ?_⟩
    simp only [rows_mapV]
    rw [List.forall₂_map_left_iff, List.forall₂_map_right_iff, List.forall₂_same]
    exact fun r _ => ⟨rfl, rfl, r.val.2⟩

/-- merging the levels reads distances, radii and which of two eddies has the lower scores -/
theorem detectSnapshot_isometry {R : α → β → Prop} {E : Env α K Pt} {E' : Env β K Pt'} (hp : E'.prunes = E.prunes)
    (hr : ∀ a b, R a b → E'.radius b = E.radius a)
    (hd : ∀ a b c d, R a b → R c d → E'.dist (E'.pos b) (E'.pos d) = E.dist (E.pos a) (E.pos c)) (hn : AlikeSearch E E')
    (hl : ∀ a b c d, R a b → R c d → (scoreLt (E'.ellErr d) (E'.ellErr b) ∧ scoreLt (E'.gauErr d) (E'.gauErr b) ↔ scoreLt (E.ellErr c) (E.ellErr a) ∧ scoreLt (E.gauErr c) (E.gauErr a)))
    {detect : K → Except PyErr (Tbl α)} {detect' : K → Except PyErr (Tbl β)} {levels : List K} {f : K → K} (hf : ∀ l, f l = 0 ↔ l = 0)
    (hs : ∀ l ∈ levels, l ≠ 0 → ResRel (TblRel R) (detect l) (detect' (f l))) :
    ResRel (TblRel R) (detectSnapshot E detect levels) (detectSnapshot E' detect' (levels.map f)) := by
  have hls : ∀ l ∈ levels.filter (· ≠ 0), ∃ u : Except PyErr (Tbl (Pairs R)), detect l = u.map (Tbl.mapV Pairs.left) ∧
      detect' (f l) = u.map (Tbl.mapV Pairs.right) := by
    intro l hl
    have := List.mem_filter.1 hl
    exact resRel_pairs (hs l this.1 (by simpa using this.2))
  unfold detectSnapshot
  have hfl : (levels.map f).filter (· ≠ 0) = (levels.filter (· ≠ 0)).map f := by
    rw [List.filter_map]
    congr 1
    refine List.filter_congr fun l _ => ?_
    simp [hf]
  rw [hfl]
  generalize levels.filter (· ≠ 0) = ls at hls
  have key : ∀ (ls : List K), (∀ l ∈ ls, ∃ u : Except PyErr (Tbl (Pairs R)), detect l = u.map (Tbl.mapV Pairs.left) ∧
      detect' (f l) = u.map (Tbl.mapV Pairs.right)) → ∀ joint : Tbl (Pairs R), ∃ u : Except PyErr (Tbl (Pairs R)),
      ls.foldlM (levelStep E detect) (joint.mapV Pairs.left) = u.map (Tbl.mapV Pairs.left) ∧
      (ls.map f).foldlM (levelStep E' detect') (joint.mapV Pairs.right) = u.map (Tbl.mapV Pairs.right) := by
    intro ls
    induction ls with
    | nil => exact fun _ joint => ⟨.ok joint, rfl, rfl⟩
    | cons l ls ih =>
      intro hls joint
      obtain ⟨u, h1, h2⟩ := hls l List.mem_cons_self
      have e1 := levelStep_mapV (K' := K) (left_merge R E) (detect := fun _ => u) (detect' := detect) (l := l) (l' := l) h1 joint
      have e2 := levelStep_mapV (K' := K) (right_merge hp hr hd hn hl) (detect := fun _ => u) (detect' := detect') (l := l) (l' := f l) h2 joint
      simp only [List.map_cons, List.foldlM_cons, bind, Except.bind]
      rw [e1, e2]
      cases levelStep (pairsEnv R E) (fun _ => u) joint l with
      | error e => exact ⟨.error e, rfl, rfl⟩
      | ok j => exact ih (fun l hl => hls l (List.mem_cons_of_mem _ hl)) j
  obtain ⟨u, h1, h2⟩ := key ls hls ⟨[], []⟩
  have e1 : (⟨[], []⟩ : Tbl (Pairs R)).mapV Pairs.left = ⟨[], []⟩ := rfl
  have e2 : (⟨[], []⟩ : Tbl (Pairs R)).mapV Pairs.right = ⟨[], []⟩ := rfl
  rw [e1] at h1
  rw [e2] at h2
  rw [h1, h2]
  exact pairs_resRel u

/-! ### one level -/

/-- two contours with the same verdict and related rows -/
def VerdictRel (R : α → β → Prop) (c : Criteria K) (m : Measures α K) (m' : Measures β K) : Prop :=
  verdict c m' = verdict c m ∧ (verdict c m = .ok .stored → List.Forall₂ R (m.row0 :: m.rows) (m'.row0 :: m'.rows))

/-- stored tables with the same numbers and related rows -/
def StoredRel (R : α → β → Prop) : List (Nat × List α) → List (Nat × List β) → Prop :=
  List.Forall₂ fun e e' => e'.1 = e.1 ∧ List.Forall₂ R e.2 e'.2

theorem contourLoop_rel {R : α → β → Prop} {c : Criteria K} {ms : List (Measures α K)} {ms' : List (Measures β K)}
    (h : List.Forall₂ (VerdictRel R c) ms ms') {r : Regs α} {r' : Regs β} {l : Locals α} {l' : Locals β} (h1 : r'.sCalls = r.sCalls)
    (h2 : StoredRel R r.sTable r'.sTable) (h3 : Option.Rel (StoredRel R) l.info l'.info) :
    ResRel (fun l l' => Option.Rel (StoredRel R) l.info l'.info) (contourLoop c ms (r, l)).2 (contourLoop c ms' (r', l')).2 := by
  induction h generalizing r r' l l' with
  | nil => exact h3
  | @cons m m' ms ms' hm _ ih =>
    unfold contourLoop contourStep
    rw [hm.1]
    cases hv : verdict c m with
    | error e => rfl
    | ok v =>
      cases v with
      | skipped => exact ih h1 h2 h3
      | discarded d => exact ih h1 h2 h3
      | stored =>
        have hst : StoredRel R (r.sTable ++ [(r.sCalls, m.row0 :: m.rows)]) (r'.sTable ++ [(r'.sCalls, m'.row0 :: m'.rows)]) :=
          List.rel_append h2 (.cons ⟨h1, hm.2 hv⟩ .nil)
        exact ih (r := { r with sCalls := r.sCalls + 1, sTable := r.sTable ++ [(r.sCalls, m.row0 :: m.rows)] })
          (r' := { r' with sCalls := r'.sCalls + 1, sTable := r'.sTable ++ [(r'.sCalls, m'.row0 :: m'.rows)] })
          (by simp only [h1]) hst (.some hst)

theorem levelFrame_rel {R : α → β → Prop} {t : List (Nat × List α)} {t' : List (Nat × List β)} (h : StoredRel R t t') :
    TblRel R (levelFrame t) (levelFrame t') := by
  have hrows : List.Forall₂ (RowRel R) (t.flatMap fun e => e.2.mapIdx fun j v => (⟨e.1, j, v⟩ : Row α))
      (t'.flatMap fun e => e.2.mapIdx fun j v => ⟨e.1, j, v⟩) := by
    induction h with
    | nil => exact .nil
    | @cons e e' t t' he _ ih =>
      simp only [List.flatMap_cons]
      refine List.rel_append ?_ ih
      rw [List.forall₂_iff_get]
      have := List.forall₂_iff_get.1 he.2
      refine ⟨by simpa using this.1, ?_⟩
      intro i h1 h2
      simp only [List.get_eq_getElem, List.getElem_mapIdx]
      exact ⟨he.1, rfl, this.2 i (by simpa using h1) (by simpa using h2)⟩
  refine ⟨?_, hrows⟩
  show usort _ = usort _
  congr 1
  simp only [Tbl.ids]
  apply List.ext_getElem?
  intro i
  have := List.forall₂_iff_get.1 hrows
  by_cases hi : i < (t.flatMap fun e => e.2.mapIdx fun j v => (⟨e.1, j, v⟩ : Row α)).length
  · have hi' := hi
    rw [this.1] at hi'
    simp only [List.getElem?_map, List.getElem?_eq_getElem hi, List.getElem?_eq_getElem hi', Option.map_some]
    exact congrArg some (this.2 i hi hi').1
  · have hi' := hi
    rw [this.1] at hi'
    simp only [List.getElem?_map, List.getElem?_eq_none (not_lt.1 hi), List.getElem?_eq_none (not_lt.1 hi')]
    rfl

theorem pureLevel_rel {R : α → β → Prop} {c : Criteria K} {ms : List (Measures α K)} {ms' : List (Measures β K)}
    (h : List.Forall₂ (VerdictRel R c) ms ms') : ResRel (TblRel R) (pureLevel c ms) (pureLevel c ms') := by
  have := contourLoop_rel h (r := Regs.empty) (r' := Regs.empty) (l := ⟨none, none⟩) (l' := ⟨none, none⟩) rfl .nil .none
  unfold pureLevel detectOneLevel
  revert this
  cases contourLoop c ms (Regs.empty, ⟨none, none⟩) with
  | mk r x =>
    cases contourLoop c ms' (Regs.empty, ⟨none, none⟩) with
    | mk r' x' =>
      cases x with
      | error e =>
        cases x' with
        | error e' => exact fun h => h
        | ok l' => intro h; cases h
      | ok l =>
        cases x' with
        | error e' => intro h; cases h
        | ok l' =>
          obtain ⟨info, disc⟩ := l
          obtain ⟨info', disc'⟩ := l'
          intro h
          simp only [ResRel] at h
          cases h with
          | none => exact levelFrame_rel .nil
          | some h => exact levelFrame_rel h

end Trackeddy
