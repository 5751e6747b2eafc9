import Verif.Props.Tracking

/-!
C12-C16, C63: `TrackEddy._detect_snapshot` (trackeddy/trackeddy.py:226-264) and the merging of levels
(trackeddy/utils.py:23-115).

`detect level` is the table of stored eddies of one level; the condition `LevelTable` on it (eddies
numbered 0,1,2,..., contour points 0,1,2,...) is proved of `_detect_one_level` in C19 and C50.
-/
namespace Trackeddy
open Spec Tbl

variable {α K Pt : Type} [Field K] [LinearOrder K] [IsStrictOrderedRing K]

/-! ### C12 -/

/-- **C12** identifiers of a snapshot are exactly `0..k-1`, rows are sorted by identifier and contour
point, every eddy has its first contour point. -/
theorem C12_snapshot_contiguous_sorted {E : Env α K Pt} {detect : K → Except PyErr (Tbl α)}
    (hdet : ∀ l t, detect l = .ok t → LevelTable t) (levels : List K) {t : Tbl α}
    (h : detectSnapshot E detect levels = .ok t) :
    (∃ k, Contiguous t.rows k) ∧ SortedSnap t.rows ∧ HasFirst t.rows := by
  have := detectSnapshot_inv hdet levels h
  exact ⟨this.contig, this.sorted, this.first⟩

/-- **C12** in the form needed by C01-C09: snapshots computed by merging levels meet the hypothesis of
the tracking theorems, so identifiers are contiguous end to end. -/
theorem C12_feeds_tracking {E : Env α K Pt} (hnn : IsNN E.dist E.nn)
    {detect : Int → K → Except PyErr (Tbl α)}
    (hdet : ∀ t l C, detect t l = .ok C → LevelTable C) (levels : List K)
    {t0 : Int} {tf : Option Int} {T : Nat} {ntimes : Int} {s : LoopState α}
    (h : timeTracking E (fun t => detectSnapshot E (detect t) levels) t0 tf T ntimes true = .ok s) :
    ∃ k, Contiguous s.table.rows k := by
  refine C01_identifiers_contiguous hnn ?_ h
  intro t C hC
  have := detectSnapshot_inv (fun l C => hdet t l C) levels hC
  exact ⟨this.first, this.contig⟩

/-! ### examples: payload (position, radius, ellipse score, Gaussian score) -/

/-- accessors of the examples -/
def exEnvM : Env (ℤ × ℚ × ℚ × ℚ) ℚ ℤ where
  prunes := false
  pos v := v.1
  radius v := v.2.1
  ellErr v := some v.2.2.1
  gauErr v := some v.2.2.2
  dist a b := (|a - b| : ℤ)
  nn P q := argminFrom q P

theorem exEnvM_nn : IsNN exEnvM.dist exEnvM.nn := by
  intro P q hP
  obtain ⟨a, h1, h2⟩ := argminFrom_spec q P hP
  exact ⟨a, h1, fun p hp => by simpa [exEnvM] using (Int.cast_le (R := ℚ)).2 (h2 p hp)⟩

/-- eddies of radius 2·6371 km with two contour points: (position, scores) -/
def exLevel (l : List (ℤ × ℚ)) : List (Eddy (ℤ × ℚ × ℚ × ℚ)) :=
  l.map fun p => [(p.1, 6371 * 2, p.2, p.2), (p.1, 6371 * 2, p.2, p.2)]

theorem exLevel_ne (l : List (ℤ × ℚ)) : ∀ e ∈ exLevel l, e ≠ [] := by
  intro e he; obtain ⟨p, _, rfl⟩ := List.mem_map.1 he; simp

/-- their table -/
def exLTbl (l : List (ℤ × ℚ)) : Tbl (ℤ × ℚ × ℚ × ℚ) := Tbl.resetSet ⟨[], snapRows (exLevel l)⟩

theorem exLTbl_level (l : List (ℤ × ℚ)) : LevelTable (exLTbl l) := ⟨_, exLevel_ne l, rfl, rfl⟩

/-- identifier, position and score of the first contour points -/
def summaryM (r : Except PyErr (Tbl (ℤ × ℚ × ℚ × ℚ))) : Except PyErr (List (Nat × ℤ × ℚ)) :=
  r.map fun t => (t.rows.filter fun r => r.idx = 0).map fun r => (r.id, r.val.1, r.val.2.2.1)

/-- three levels: the second replaces the eddy at 0 (both scores smaller), drops the one at 11 (scores
larger than those of the eddy at 10) and adds one at 30; the third adds one at 20. -/
def exDetect : ℚ → Except PyErr (Tbl (ℤ × ℚ × ℚ × ℚ)) := fun l =>
  if l = 1 then .ok (exLTbl [(0, 9/10), (10, 1/2)])
  else if l = 2 then .ok (exLTbl [(1, 8/10), (11, 6/10), (30, 1/2)])
  else .ok (exLTbl [(20, 1/3)])

example : summaryM (detectSnapshot exEnvM exDetect [1, 2, 0, 3]) =
    .ok [(0, 1, 8/10), (1, 10, 1/2), (2, 30, 1/2), (3, 20, 1/3)] := by decide +kernel

/-- C12 hypotheses are met by `exDetect`. -/
example : ∀ l t, exDetect l = .ok t → LevelTable t := by
  intro l t h
  unfold exDetect at h
  split at h
  · injection h with h; subst h; exact exLTbl_level _
  · split at h <;> (injection h with h; subst h; exact exLTbl_level _)

/-! ### C13 -/

/-- **C13** merging a level `Ns` into a snapshot `Js` succeeds and follows `MergeRule`, provided no two
new eddies replace the same existing one. -/
theorem C13_merge_rule {E : Env α K Pt} (hnn : IsNN E.dist E.nn) {joint cur : Tbl α}
    {Js Ns : List (Eddy α)} (hJ : ∀ e ∈ Js, e ≠ []) (hN : ∀ e ∈ Ns, e ≠ [])
    (hJ0 : Js ≠ []) (hN0 : Ns ≠ []) (hjoint : joint.rows = snapRows Js) (hjwf : joint.WF)
    (hcur : cur.rows = snapRows Ns) (hcwf : cur.WF)
    (hinj : ∀ tgt, NearestChoice E.dist E.pos (heads Js) (heads Ns) tgt →
      NoCollision tgt Ns.length (Near E.dist E.pos E.radius (heads Js) (heads Ns) tgt)
        (Lower E.ellErr E.gauErr (heads Js) (heads Ns) tgt)) :
    ∃ t R tgt, mergeLevel E joint cur = .ok t ∧ t.WF ∧ t.rows = snapRows R ∧ (∀ e ∈ R, e ≠ []) ∧
      NearestChoice E.dist E.pos (heads Js) (heads Ns) tgt ∧
      MergeRule Js Ns R tgt (Near E.dist E.pos E.radius (heads Js) (heads Ns) tgt)
        (Lower E.ellErr E.gauErr (heads Js) (heads Ns) tgt) := by
  have hlen := heads_length hJ
  have holdne : heads Js ≠ [] := by
    intro h; rw [h] at hlen; simp at hlen; exact hJ0 (List.length_eq_zero_iff.1 hlen.symm)
  have hch := tgtOf_choice (E := E) hnn (new := heads Ns) holdne
  have hnc := hinj _ hch
  have hN1 : (fun i => nearB E ((heads Js).map E.pos) (heads Ns) i = true) =
      Near E.dist E.pos E.radius (heads Js) (heads Ns) (tgtOf E (heads Js) (heads Ns)) := by
    funext i; exact propext nearB_iff
  have hN2 : (fun i => actB E (heads Js) (heads Ns) (tgtOf E (heads Js) (heads Ns)) i = true) =
      Lower E.ellErr E.gauErr (heads Js) (heads Ns) (tgtOf E (heads Js) (heads Ns)) := by
    funext i; exact propext actB_iff
  have hnc' : NoCollision (tgtOf E (heads Js) (heads Ns)) Ns.length
      (fun i => nearB E ((heads Js).map E.pos) (heads Ns) i = true)
      (fun i => actB E (heads Js) (heads Ns) (tgtOf E (heads Js) (heads Ns)) i = true) := by
    rw [hN1, hN2]; exact hnc
  obtain ⟨t, h1, h2, h3⟩ := mergeLevel_refines hnn hJ hN hJ0 hN0 hjoint hjwf hcur hcwf hnc'
  refine ⟨t, _, _, h1, h2, h3, ?_, hch, ?_⟩
  · intro e he
    obtain ⟨j, hj⟩ := List.mem_iff_getElem?.1 he
    by_cases hlt : j < Js.length
    · rcases (mergedList_get_lt hlt hnc' e).1 hj with ⟨i, _, _, _, _, h⟩ | ⟨_, h⟩
      · exact hN e (List.mem_of_getElem? h)
      · exact hJ e (List.mem_of_getElem? h)
    · obtain ⟨i, _, _, _, h⟩ := (mergedList_get_ge (by omega) e).1 hj
      exact hN e (List.mem_of_getElem? h)
  · have hr := mergedList_rule (Js := Js) (Ns := Ns) (tgt := tgtOf E (heads Js) (heads Ns))
      (near := nearB E ((heads Js).map E.pos) (heads Ns))
      (act := actB E (heads Js) (heads Ns) (tgtOf E (heads Js) (heads Ns))) ?_ hnc'
    · rw [hN1, hN2] at hr; exact hr
    · intro i hi
      have hl := heads_length hN
      obtain ⟨u, hu, _⟩ := hch i _ (List.getElem?_eq_getElem (show i < (heads Ns).length by omega))
      have := (List.getElem?_eq_some_iff.1 hu).1
      omega

/-- disjoint eddies do not collide -/
theorem noCollision_of_disjoint {dist : Pt → Pt → K} {pos : α → Pt} {radius : α → K}
    (hsym : ∀ a b, dist a b = dist b a) (htri : ∀ a b c, dist a c ≤ dist a b + dist b c)
    {old new : List α} {tgt : Nat → Nat} (hd : DisjointDiscs dist pos radius new) (n : Nat)
    (rep : Nat → Prop) : NoCollision tgt n (Near dist pos radius old new tgt) rep := by
  intro i _ i' _ h1 _ h2 _ heq
  by_contra hne
  obtain ⟨v, u, hv, hu, hlt⟩ := h1
  obtain ⟨v', u', hv', hu', hlt'⟩ := h2
  rw [heq, hu'] at hu
  injection hu with hu
  subst hu
  have h3 := hd i i' v v' hv hv' hne
  have h4 := htri (pos v) (pos u') (pos v')
  rw [hsym (pos u') (pos v')] at h4
  have h5 := mul_le_mul_of_nonneg_right h4 (by norm_num : (0 : K) ≤ 6371)
  rw [add_mul] at h5
  linarith

theorem exDisjointM {l : List (ℤ × ℚ)} (h : l.Pairwise fun a b => 4 ≤ |a.1 - b.1|) :
    DisjointDiscs exEnvM.dist exEnvM.pos exEnvM.radius (heads (exLevel l)) := by
  have hl : ∀ l : List (ℤ × ℚ), heads (exLevel l) = l.map fun p => (p.1, 6371 * 2, p.2, p.2) := by
    intro l
    induction l with
    | nil => rfl
    | cons a l ih => simp only [heads, exLevel] at *; simp [ih]
  rw [hl]
  have key : ∀ (c c' : Nat) (p p' : ℤ × ℚ), l[c]? = some p → l[c']? = some p' → c < c' →
      4 ≤ |p.1 - p'.1| := by
    intro c c' p p' hp hp' hlt
    rw [List.pairwise_iff_getElem] at h
    obtain ⟨h1, rfl⟩ := List.getElem?_eq_some_iff.1 hp
    obtain ⟨h2, rfl⟩ := List.getElem?_eq_some_iff.1 hp'
    exact h c c' h1 h2 hlt
  have hcast : ∀ p p' : ℤ × ℚ, 4 ≤ |p.1 - p'.1| →
      (6371 * 2 + 6371 * 2 : ℚ) ≤ ((|p.1 - p'.1| : ℤ) : ℚ) * 6371 := by
    intro p p' hp
    have : (4 : ℚ) ≤ ((|p.1 - p'.1| : ℤ) : ℚ) := by exact_mod_cast hp
    linarith
  intro c c' v v' hv hv' hne
  rw [List.getElem?_map] at hv hv'
  obtain ⟨p, hp, rfl⟩ := Option.map_eq_some_iff.1 hv
  obtain ⟨p', hp', rfl⟩ := Option.map_eq_some_iff.1 hv'
  show (6371 * 2 + 6371 * 2 : ℚ) ≤ ((|p.1 - p'.1| : ℤ) : ℚ) * 6371
  rcases Nat.lt_or_gt_of_ne hne with hlt | hgt
  · exact hcast p p' (key c c' p p' hp hp' hlt)
  · have := key c' c p' p hp' hp hgt
    rw [abs_sub_comm] at this
    exact hcast p p' this

/-- C13 hypotheses are met by the levels 1 and 2 of `exDetect`. -/
example (tgt : Nat → Nat) : NoCollision tgt (exLevel [(1, 8/10), (11, 6/10), (30, 1/2)]).length
    (Near exEnvM.dist exEnvM.pos exEnvM.radius (heads (exLevel [(0, 9/10), (10, 1/2)]))
      (heads (exLevel [(1, 8/10), (11, 6/10), (30, 1/2)])) tgt)
    (Lower exEnvM.ellErr exEnvM.gauErr (heads (exLevel [(0, 9/10), (10, 1/2)]))
      (heads (exLevel [(1, 8/10), (11, 6/10), (30, 1/2)])) tgt) := by
  apply noCollision_of_disjoint
  · intro a b; simp only [exEnvM]; rw [abs_sub_comm]
  · intro a b c; simp only [exEnvM]; exact_mod_cast abs_sub_le a b c
  · exact exDisjointM (by decide +kernel)

/-! ### C14 -/

/-- **C14** is false for *every* pair of duplicates whose scores differ in the same direction: of an
existing eddy `e` and a new one `e'` near it, the merge keeps the one with the *smaller* similarities
(the columns `contour_ellipse_error` and `contour_gaussian_error` hold similarities, 1 meaning equal;
trackeddy.py:331, 380). -/
theorem C14_refuted {E : Env α K Pt} (hnn : IsNN E.dist E.nn) {e e' : Eddy α} {u v : α}
    (he : e.head? = some u) (he' : e'.head? = some v)
    (hnear : E.dist (E.pos v) (E.pos u) * 6371 < E.radius v) {joint cur : Tbl α}
    (hjoint : joint.rows = snapRows [e]) (hjwf : joint.WF) (hcur : cur.rows = snapRows [e'])
    (hcwf : cur.WF) :
    ((∃ x y, E.ellErr v = some x ∧ E.ellErr u = some y ∧ x < y) ∧ (∃ x y, E.gauErr v = some x ∧ E.gauErr u = some y ∧ x < y) →
      ∃ t, mergeLevel E joint cur = .ok t ∧ t.rows = snapRows [e']) ∧
    ((∃ x y, E.ellErr u = some x ∧ E.ellErr v = some y ∧ x < y) ∧ (∃ x y, E.gauErr u = some x ∧ E.gauErr v = some y ∧ x < y) →
      ∃ t, mergeLevel E joint cur = .ok t ∧ t.rows = snapRows [e]) := by
  have hne : e ≠ [] := by rintro rfl; cases he
  have hne' : e' ≠ [] := by rintro rfl; cases he'
  have hh : heads [e] = [u] := by simp [heads, he]
  have hh' : heads [e'] = [v] := by simp [heads, he']
  obtain ⟨t, R, tgt, h1, h2, h3, h4, h5, h6⟩ := C13_merge_rule hnn (Js := [e]) (Ns := [e'])
    (by simpa using hne) (by simpa using hne') (by simp) (by simp) hjoint hjwf hcur hcwf
    (by
      intro tgt _ i hi i' hi' _ _ _ _ _
      simp at hi hi'; omega)
  rw [hh, hh'] at h5 h6
  obtain ⟨w, hw, _⟩ := h5 0 v rfl
  have ht0 : tgt 0 = 0 := by
    by_contra hcon
    rw [List.getElem?_eq_none (by simp; omega)] at hw
    cases hw
  have hnr : Near E.dist E.pos E.radius [u] [v] tgt 0 := ⟨v, u, rfl, by rw [ht0]; rfl, hnear⟩
  obtain ⟨is, _, his, R', hR, hR'⟩ := h6.appended
  have hnil : is = [] := by
    rw [List.eq_nil_iff_forall_not_mem]
    intro i hi
    obtain ⟨h7, h8⟩ := (his i).1 hi
    have : i = 0 := by simp at h7; omega
    subst this
    exact h8 hnr
  rw [hnil] at hR
  simp at hR hR'
  subst hR
  obtain ⟨x, rfl⟩ := List.length_eq_one_iff.1 hR'
  constructor
  · intro hl
    refine ⟨t, h1, ?_⟩
    have := h6.replaced 0 (by simp) hnr ⟨v, u, rfl, by rw [ht0]; rfl, hl⟩
    rw [ht0] at this
    simp at this
    rw [h3, this]
  · intro hl
    refine ⟨t, h1, ?_⟩
    have := h6.kept 0 (by simp) (by
      intro i hi _ hrep
      have : i = 0 := by simp at hi; omega
      subst this
      obtain ⟨v', u', hv', hu', hlt, _⟩ := hrep
      rw [ht0] at hu'
      simp at hv' hu'
      subst hv'; subst hu'
      obtain ⟨x, y, hx, hy, hxy⟩ := hlt
      obtain ⟨⟨x', y', hx', hy', hxy'⟩, -⟩ := hl
      rw [hy] at hx'
      rw [hx] at hy'
      rw [Option.some.inj hx', Option.some.inj hy'] at hxy
      exact absurd hxy (not_lt.2 hxy'.le))
    simp at this
    rw [h3, this]

/-- C14 concretely: an eddy of similarity 1 is replaced by one of similarity 0. -/
example : summaryM (detectSnapshot exEnvM (fun l => if l = 1 then .ok (exLTbl [(0, 1)]) else
    .ok (exLTbl [(0, 0)])) [1, 2]) = .ok [(0, 0, 0)] := by decide +kernel

/-! ### C15 -/

/-- **C15** is false: two new eddies may replace the same existing one; both get its identifier. -/
theorem C15_refuted : ∃ detect : ℚ → Except PyErr (Tbl (ℤ × ℚ × ℚ × ℚ)),
    (∀ l t, detect l = .ok t → LevelTable t) ∧
    summaryM (detectSnapshot exEnvM detect [1, 2]) = .ok [(0, -1, 1/2), (0, 1, 1/3)] := by
  refine ⟨fun l => if l = 1 then .ok (exLTbl [(0, 1)]) else .ok (exLTbl [(-1, 1/2), (1, 1/3)]), ?_, by
    decide +kernel⟩
  intro l t h
  simp only at h
  split at h <;> (injection h with h; subst h; exact exLTbl_level _)

/-- **C15** holds, and the merge of all levels succeeds, when the eddies found at each single level are
farther apart than the sum of their radii (and the distance is a metric): the snapshot is the table of
a list of eddies, one per identifier.  Missing for the full claim: levels with overlapping eddies, for
which it is false (`C15_refuted`). -/
theorem C15_partial {E : Env α K Pt} (hnn : IsNN E.dist E.nn) (hsym : ∀ a b, E.dist a b = E.dist b a)
    (htri : ∀ a b c, E.dist a c ≤ E.dist a b + E.dist b c) {detect : K → Except PyErr (Tbl α)}
    (hdet : ∀ l, ∃ t, detect l = .ok t ∧ t.lev = usort t.ids ∧ ∃ es : List (Eddy α),
      (∀ e ∈ es, e ≠ []) ∧ t.rows = snapRows es ∧ DisjointDiscs E.dist E.pos E.radius (heads es))
    (levels : List K) :
    ∃ t es, detectSnapshot E detect levels = .ok t ∧ (∀ e ∈ es, e ≠ []) ∧ t.rows = snapRows es := by
  have key : ∀ ls : List K, ∃ t es, ls.foldlM (levelStep E detect) ⟨[], []⟩ = .ok t ∧ t.WF ∧
      (∀ e ∈ es, e ≠ []) ∧ t.rows = snapRows es := by
    intro ls
    induction ls using List.reverseRecOn with
    | nil => exact ⟨_, [], rfl, by intro r hr; simp at hr, by simp, rfl⟩
    | append_singleton ls l ih =>
      obtain ⟨t, es, h1, h2, h3, h4⟩ := ih
      obtain ⟨c, hc, hlev, ns, hns, hrows, hd⟩ := hdet l
      have hcwf : c.WF := by
        intro r hr; rw [hlev, mem_usort]; exact mem_ids.2 ⟨r, hr, rfl⟩
      rw [foldlM_snoc, h1]
      show ∃ t' es, levelStep E detect t l = .ok t' ∧ _
      unfold levelStep
      rw [hc, show (Except.ok c : Except PyErr (Tbl α)) = pure c from rfl, pure_bind]
      by_cases he : c.rows = []
      · simp only [he, if_true]; exact ⟨t, es, rfl, h2, h3, h4⟩
      · simp only [he, if_false]
        by_cases hj : t.rows = []
        · simp only [hj, if_true]; exact ⟨c, ns, rfl, hcwf, hns, hrows⟩
        · simp only [hj, if_false]
          obtain ⟨t', R, tgt, m1, m2, m3, m4, _⟩ := C13_merge_rule hnn h3 hns
            (by rintro rfl; exact hj h4) (by rintro rfl; exact he hrows) h4 h2 hrows hcwf
            (fun tgt _ => noCollision_of_disjoint hsym htri hd _ _)
          exact ⟨t', R, m1, m2, m4, m3⟩
  obtain ⟨t, es, h1, _, h3, h4⟩ := key (levels.filter (· ≠ 0))
  exact ⟨t, es, h1, h3, h4⟩

/-- C15: (identifier, contour point) is a unique key of the table of a list of eddies. -/
theorem C15_unique_key (es : List (Eddy α)) :
    (snapRows es).Pairwise fun r s => ¬ (r.id = s.id ∧ r.idx = s.idx) :=
  (snapRows_strict es).imp fun h hc => by rw [key2_lt] at h; omega

/-- C15 hypotheses are met by `exDetect`. -/
example : ∀ l, ∃ t, exDetect l = .ok t ∧ t.lev = usort t.ids ∧ ∃ es : List (Eddy (ℤ × ℚ × ℚ × ℚ)),
    (∀ e ∈ es, e ≠ []) ∧ t.rows = snapRows es ∧
    DisjointDiscs exEnvM.dist exEnvM.pos exEnvM.radius (heads es) := by
  intro l
  unfold exDetect
  split
  · exact ⟨_, rfl, rfl, _, exLevel_ne _, rfl, exDisjointM (by decide +kernel)⟩
  · split
    · exact ⟨_, rfl, rfl, _, exLevel_ne _, rfl, exDisjointM (by decide +kernel)⟩
    · exact ⟨_, rfl, rfl, _, exLevel_ne _, rfl, exDisjointM (by decide +kernel)⟩

/-! ### C63 -/

/-- **C63** is false: after a collision at one level, the next level raises `ValueError` (comparison of
arrays of different shapes). For the partial result see `C15_partial`: with disjoint eddies at each
level all merges succeed. -/
theorem C63_refuted : ∃ detect : ℚ → Except PyErr (Tbl (ℤ × ℚ × ℚ × ℚ)),
    (∀ l t, detect l = .ok t → LevelTable t) ∧ (∀ l, ∃ t, detect l = .ok t) ∧
    summaryM (detectSnapshot exEnvM detect [1, 2, 3]) = .error .valueError := by
  refine ⟨fun l => if l = 1 then .ok (exLTbl [(0, 1)]) else if l = 2 then .ok (exLTbl [(-1, 1/2), (1, 1/3)])
    else .ok (exLTbl [(0, 0)]), ?_, ?_, by decide +kernel⟩
  · intro l t h
    simp only at h
    split at h
    · injection h with h; subst h; exact exLTbl_level _
    · split at h <;> (injection h with h; subst h; exact exLTbl_level _)
  · intro l
    simp only
    split
    · exact ⟨_, rfl⟩
    · split <;> exact ⟨_, rfl⟩

/-- **C63** (partial) with disjoint eddies at each level, merging any list of levels succeeds.  Missing
for the full claim: levels with overlapping eddies, for which it is false (`C63_refuted`). -/
theorem C63_partial {E : Env α K Pt} (hnn : IsNN E.dist E.nn) (hsym : ∀ a b, E.dist a b = E.dist b a)
    (htri : ∀ a b c, E.dist a c ≤ E.dist a b + E.dist b c) {detect : K → Except PyErr (Tbl α)}
    (hdet : ∀ l, ∃ t, detect l = .ok t ∧ t.lev = usort t.ids ∧ ∃ es : List (Eddy α),
      (∀ e ∈ es, e ≠ []) ∧ t.rows = snapRows es ∧ DisjointDiscs E.dist E.pos E.radius (heads es))
    (levels : List K) : ∃ t, detectSnapshot E detect levels = .ok t := by
  obtain ⟨t, _, h, _⟩ := C15_partial hnn hsym htri hdet levels
  exact ⟨t, h⟩

/-! ### C16 -/

/-- **C16** zeros among the levels do not matter. -/
theorem C16_zero_levels_removed (E : Env α K Pt) (detect : K → Except PyErr (Tbl α))
    (levels : List K) :
    detectSnapshot E detect levels = detectSnapshot E detect (levels.filter (· ≠ 0)) := by
  unfold detectSnapshot
  rw [List.filter_filter]
  simp

/-- **C16** nothing found at level 0 matters (it is not even computed). -/
theorem C16_zero_level_unused (E : Env α K Pt) (detect detect' : K → Except PyErr (Tbl α))
    (h : ∀ l, l ≠ 0 → detect l = detect' l) (levels : List K) :
    detectSnapshot E detect levels = detectSnapshot E detect' levels := by
  have key : ∀ (ls : List K), (∀ l ∈ ls, l ≠ 0) → ∀ t : Tbl α,
      ls.foldlM (levelStep E detect) t = ls.foldlM (levelStep E detect') t := by
    intro ls
    induction ls with
    | nil => intro _ t; rfl
    | cons l ls ih =>
      intro hne t
      rw [List.foldlM_cons, List.foldlM_cons]
      have e : levelStep E detect t l = levelStep E detect' t l := by
        unfold levelStep; rw [h l (hne l (by simp))]
      rw [e]
      congr 1
      funext t'
      exact ih (fun l hl => hne l (by simp [hl])) t'
  unfold detectSnapshot
  exact key _ (fun l hl => by simpa using (List.mem_filter.1 hl).2) _

/-- **C16** the levels are processed in the given order: a further non-zero level is merged into the
snapshot of the preceding levels. -/
theorem C16_levels_in_order (E : Env α K Pt) (detect : K → Except PyErr (Tbl α)) (levels : List K)
    {l : K} (hl : l ≠ 0) :
    detectSnapshot E detect (levels ++ [l]) =
      (detectSnapshot E detect levels).bind fun t => levelStep E detect t l := by
  unfold detectSnapshot
  rw [List.filter_append, List.filter_cons_of_pos (by simpa using hl), List.filter_nil, foldlM_snoc]

end Trackeddy
