import Verif.Spec.Tracks
import Verif.Proofs.Tracks

/-!
C123: what other eddies have to do with the tracks of given ones (trackeddy/trackeddy.py:181-224, utils.py:96-115, 169-256).
-/
namespace Trackeddy
open Spec Tbl

section
variable {α K Pt : Type} [Field K] [LinearOrder K] [IsStrictOrderedRing K]

/-- the table of a run over snapshots whose eddies do not overlap -/
theorem tracked_of_run {E : Env α K Pt} (hnn : IsNN E.dist E.nn) (hsym : ∀ a b, E.dist a b = E.dist b a)
    (htri : ∀ a b c, E.dist a c ≤ E.dist a b + E.dist b c) {snap : Int → Except PyErr (Tbl α)}
    (hsnap : ∀ t C, snap t = .ok C → ∃ es, (∀ e ∈ es, e ≠ []) ∧ C.rows = snapRows es ∧ DisjointDiscs E.dist E.pos E.radius (heads es))
    {t0 f : Int} (h0 : 0 ≤ t0) (hf : f ≠ 0) {T : Nat} {ntimes : Int} {s : LoopState α}
    (h : timeTracking E snap t0 (some f) T ntimes true = .ok s) (hpos : ∀ r ∈ s.table.rows, r.idx = 0 → 0 < E.radius r.val.2)
    {P : Int → α → Prop} (hfar : OutOfReach E.dist E.pos E.radius P s.table.rows) :
    RuleTable E.dist E.pos E.radius (fun v => P v.1 v.2) s.table.rows := by
  have hrows : ∀ t C, snap t = .ok C → SnapRows C.rows := by
    intro t C hC
    obtain ⟨es, h1, h2, -⟩ := hsnap t C hC
    rw [h2]
    exact ⟨snapRows_hasFirst, _, snapRows_contiguous h1⟩
  refine ⟨?_, C05_partial hnn hsym htri hsnap h, (C01_table_sorted hnn hrows h).2, hpos, ?_, hfar⟩
  · exact C107_partial hnn h0 hf (fun t _ _ C hC => by
      obtain ⟨es, h1, h2, -⟩ := hsnap t C hC
      exact ⟨es, h1, h2⟩) h
  · intro r hr q hq r0 q0 ht hid
    obtain ⟨g, hg⟩ := C03_no_detection_lost_or_invented hnn hrows h
    have hmem : ∀ r ∈ s.table.rows, ∃ x ∈ rowsAt snap r.val.1, r = ⟨g r.val.1 x.id, x.idx, (r.val.1, x.val)⟩ := by
      intro r hr
      rw [hg.mem_iff, List.mem_flatMap] at hr
      obtain ⟨u, -, hr⟩ := hr
      unfold tagged at hr
      obtain ⟨x, hx, rfl⟩ := List.mem_map.1 hr
      exact ⟨x, hx, rfl⟩
    obtain ⟨x, hx, hxr⟩ := hmem r hr
    obtain ⟨y, hy, hyr⟩ := hmem q hq
    rw [← ht] at hy hyr
    have hne : x.id ≠ y.id := by
      intro he
      apply hid
      rw [hxr, hyr, he]
    cases hC : snap r.val.1 with
    | error e => simp [rowsAt, hC] at hx
    | ok C =>
      simp only [rowsAt, hC] at hx hy
      obtain ⟨es, h1, h2, h3⟩ := hsnap _ C hC
      rw [h2] at hx hy
      have hx0 : x.idx = 0 := by rw [hxr] at r0; exact r0
      have hy0 : y.idx = 0 := by rw [hyr] at q0; exact q0
      have := h3 x.id y.id x.val y.val (mem_snapRows_first h1 hx hx0) (mem_snapRows_first h1 hy hy0) hne
      have p1 := hpos r hr r0
      have p2 := hpos q hq q0
      have ex : r.val.2 = x.val := by rw [hxr]
      have ey : q.val.2 = y.val := by rw [hyr]
      rw [ex] at p1
      rw [ey] at p2
      rw [ex, ey]
      by_contra hc
      have hc := mul_nonpos_of_nonpos_of_nonneg (not_lt.1 hc) (by norm_num : (0 : K) ≤ 6371)
      linarith

/-- **C123** (partial) Two runs over the same times whose snapshots have non-overlapping eddies. If the eddies with the property `P` are
the same in both, and are out of reach of all others in both, and no two of them are equally far from a third, then they are grouped into
the same tracks in both. Whatever other eddies there are, and in whatever order the eddies are listed, does not matter. Missing: eddies
within reach (false, see `C123_refuted`). -/
theorem C123_partial {E : Env α K Pt} (hnn : IsNN E.dist E.nn) (hself : ∀ a, E.dist a a = 0) (hsym : ∀ a b, E.dist a b = E.dist b a)
    (htri : ∀ a b c, E.dist a c ≤ E.dist a b + E.dist b c) {snap snap' : Int → Except PyErr (Tbl α)}
    (hsnap : ∀ t C, snap t = .ok C → ∃ es, (∀ e ∈ es, e ≠ []) ∧ C.rows = snapRows es ∧ DisjointDiscs E.dist E.pos E.radius (heads es))
    (hsnap' : ∀ t C, snap' t = .ok C → ∃ es, (∀ e ∈ es, e ≠ []) ∧ C.rows = snapRows es ∧ DisjointDiscs E.dist E.pos E.radius (heads es))
    {t0 f : Int} (h0 : 0 ≤ t0) (hf : f ≠ 0) {T T' : Nat} {ntimes ntimes' : Int} {s s' : LoopState α}
    (h : timeTracking E snap t0 (some f) T ntimes true = .ok s) (h' : timeTracking E snap' t0 (some f) T' ntimes' true = .ok s')
    (hpos : ∀ r ∈ s.table.rows, r.idx = 0 → 0 < E.radius r.val.2) (hpos' : ∀ r ∈ s'.table.rows, r.idx = 0 → 0 < E.radius r.val.2)
    {P : Int → α → Prop} (hshare : Share P s.table.rows s'.table.rows) (hfar : OutOfReach E.dist E.pos E.radius P s.table.rows)
    (hfar' : OutOfReach E.dist E.pos E.radius P s'.table.rows) (htie : NoEqualDistances E.dist E.pos E.radius P s.table.rows) :
    SameTracks P s.table.rows s'.table.rows := by
  have k := tracked_of_run hnn hsym htri hsnap h0 hf h hpos hfar
  have k' := tracked_of_run hnn hsym htri hsnap' h0 hf h' hpos' hfar'
  intro r hr q hq r' hr' q' hq' r0 q0 r0' q0' hrP hqP hrv hqv
  refine k.same hsym htri hself k' ?_ ?_ htie hr hq hr' hq' r0 q0 r0' q0' hrP hqP hrv hqv
  · intro r hr r0 hP
    exact (hshare _ _ hP).1 ⟨r, hr, r0, rfl⟩
  · intro r hr r0 hP
    exact (hshare _ _ hP).2 ⟨r, hr, r0, rfl⟩

end

/-! ### from the data -/

section
variable {c c' : Criteria ℝ} {L L' : Libs} {field field' : Int → Fields} {levels levels' : List ℝ} {t0 : Int} {T T' : Nat} {ntimes ntimes' : Int}
  {regs regs' : Regs Cols}

theorem haversine_self (p : ℝ × ℝ) : haversine p p = 0 := by
  unfold haversine
  simp

/-- the distance of the eddies of two rows, as an angle on the sphere -/
noncomputable def angleBetween (p q : ℝ × ℝ) : ℝ := centralAngle p.1 p.2 q.1 q.2

/-- latitude and longitude of the extremum of the eddy of a row -/
noncomputable def extremumOf (v : Cols) : ℝ × ℝ := (column "maxima_y" v, column "maxima_x" v)

theorem colsEnv_dist {prunes : Bool} {nn : List (ℝ × ℝ) → ℝ × ℝ → Nat} (v w : Cols) :
    (colsEnv prunes nn).dist ((colsEnv prunes nn).pos v) ((colsEnv prunes nn).pos w) = angleBetween (extremumOf v) (extremumOf w) := by
  unfold angleBetween extremumOf
  rw [← C83_great_circle]
  rfl

theorem snapsOf_disjoint {prunes : Bool} {nn : List (ℝ × ℝ) → ℝ × ℝ → Nat} {l : ℝ} (hl : levels.filter (· ≠ 0) = [l]) {ts : List Int}
    (h : ∀ t ∈ ts, (field t).Ok) (hd : ∀ t ∈ ts, (foundIn c L (field t) l).Pairwise fun e e' =>
      e.radius + e'.radius ≤ centralAngle e.place.1 e.place.2 e'.place.1 e'.place.2 * 6371) (t : Int) (C : Tbl Cols)
    (hC : snapsOf (colsEnv prunes nn) c L field levels ts t = .ok C) : ∃ es, (∀ e ∈ es, e ≠ []) ∧ C.rows = snapRows es ∧
      DisjointDiscs (colsEnv prunes nn).dist (colsEnv prunes nn).pos (colsEnv prunes nn).radius (heads es) := by
  unfold snapsOf at hC
  by_cases ht : t ∈ ts
  · simp only [ht, if_true] at hC
    have hne := foundIn_ne (c := c) (L := L) (h t ht) l
    refine ⟨_, ?_, snapshot_found (h t ht) hl hC, ?_⟩
    · intro e he
      obtain ⟨o, ho, rfl⟩ := List.mem_map.1 he
      exact hne o ho
    · have hf := (forall₂_getElem? (heads_tableRows hne)).2
      have key : ∀ (i j : Nat) (v v' : Cols), (heads ((foundIn c L (field t) l).map fun e => tableRows e.data))[i]? = some v →
          (heads ((foundIn c L (field t) l).map fun e => tableRows e.data))[j]? = some v' → i < j →
          column "radius_eddy" v + column "radius_eddy" v' ≤ angleBetween (extremumOf v) (extremumOf v') * 6371 := by
        intro i j v v' hv hv' hij
        obtain ⟨e, he, hev⟩ := hf i v hv
        obtain ⟨e', he', hev'⟩ := hf j v' hv'
        obtain ⟨c1, c2, c3, -⟩ := columns_read hev
        obtain ⟨d1, d2, d3, -⟩ := columns_read hev'
        unfold angleBetween extremumOf
        rw [c1, c2, c3, d1, d2, d3]
        obtain ⟨hi, rfl⟩ := List.getElem?_eq_some_iff.1 he
        obtain ⟨hj, rfl⟩ := List.getElem?_eq_some_iff.1 he'
        exact List.pairwise_iff_getElem.1 (hd t ht) i j hi hj hij
      intro i j v v' hv hv' hne'
      rw [colsEnv_dist]
      rcases lt_or_gt_of_ne hne' with hij | hij
      · exact key i j v v' hv hv' hij
      · have := key j i v' v hv' hv hij
        unfold angleBetween at this ⊢
        rw [← C83_great_circle, haversine_symm, C83_great_circle, add_comm] at this
        exact this
  · simp only [ht, if_false] at hC
    injection hC with hC
    subst hC
    exact ⟨[], by simp, rfl, by simp [heads, DisjointDiscs]⟩

/-- **C123** from the data (partial), for one level other than zero in each of two runs over the same times, which may differ in the data,
the level and the criteria. The eddies found at each time are at least the sum of their radii apart on the sphere, their radii are positive.
If the eddies with the property `P` are the same in both tables, are out of reach of all others, and no two of them are equally far from a
third, they are grouped into the same tracks. Missing: eddies within reach (false, see `C123_refuted`). -/
theorem C123_partial_from_data {prunes : Bool} {nn : List (ℝ × ℝ) → ℝ × ℝ → Nat} (hnn : IsNN haversine nn) {l l' : ℝ}
    (hl : levels.filter (· ≠ 0) = [l]) (hl' : levels'.filter (· ≠ 0) = [l']) {f : Int} (h0 : 0 ≤ t0) (hf : f ≠ 0)
    (h : ∀ t, t0 ≤ t → t < f → (field t).Ok) (h' : ∀ t, t0 ≤ t → t < f → (field' t).Ok) (hr : StoreEmpty regs) (hr' : StoreEmpty regs')
    {s s' : LoopState Cols} (hs : (trackFields (colsEnv prunes nn) c L field levels t0 (some f) T ntimes true regs).2 = .ok s)
    (hs' : (trackFields (colsEnv prunes nn) c' L' field' levels' t0 (some f) T' ntimes' true regs').2 = .ok s') :
    (∀ t, t0 ≤ t → t < f → Found c L (field t) l (foundIn c L (field t) l) ∧ Found c' L' (field' t) l' (foundIn c' L' (field' t) l')) ∧
    ((∀ t, t0 ≤ t → t < f → (foundIn c L (field t) l).Pairwise fun e e' =>
        e.radius + e'.radius ≤ centralAngle e.place.1 e.place.2 e'.place.1 e'.place.2 * 6371) →
      (∀ t, t0 ≤ t → t < f → (foundIn c' L' (field' t) l').Pairwise fun e e' =>
        e.radius + e'.radius ≤ centralAngle e.place.1 e.place.2 e'.place.1 e'.place.2 * 6371) →
      (∀ r ∈ s.table.rows, r.idx = 0 → 0 < column "radius_eddy" r.val.2) → (∀ r ∈ s'.table.rows, r.idx = 0 → 0 < column "radius_eddy" r.val.2) →
      ∀ P : Int → Cols → Prop, Share P s.table.rows s'.table.rows →
      OutOfReach angleBetween extremumOf (column "radius_eddy") P s.table.rows →
      OutOfReach angleBetween extremumOf (column "radius_eddy") P s'.table.rows →
      NoEqualDistances angleBetween extremumOf (column "radius_eddy") P s.table.rows → SameTracks P s.table.rows s'.table.rows) := by
  have hm : ∀ {t : Int} {T : Nat}, t ∈ trackTimes t0 (some f) T → t0 ≤ t ∧ t < f := fun {t T} => (mem_trackTimes_some hf).1
  have hok : ∀ t ∈ trackTimes t0 (some f) T, (field t).Ok := fun t ht => h t (hm ht).1 (hm ht).2
  have hok' : ∀ t ∈ trackTimes t0 (some f) T', (field' t).Ok := fun t ht => h' t (hm ht).1 (hm ht).2
  refine ⟨fun t h1 h2 => ⟨foundIn_found (h t h1 h2) l, foundIn_found (h' t h1 h2) l'⟩, ?_⟩
  intro hd hd' hpos hpos' P hshare hfar hfar' htie
  rw [run_snapsOf hok hr] at hs
  rw [run_snapsOf hok' hr'] at hs'
  refine C123_partial (E := colsEnv prunes nn) hnn haversine_self haversine_symm haversine_triangle
    (snapsOf_disjoint hl hok fun t ht => hd t (hm ht).1 (hm ht).2) (snapsOf_disjoint hl' hok' fun t ht => hd' t (hm ht).1 (hm ht).2)
    h0 hf hs hs' hpos hpos' hshare ?_ ?_ ?_
  · intro r hr q hq r0 q0 ht hP
    rw [colsEnv_dist]
    exact hfar r hr q hq r0 q0 ht hP
  · intro r hr q hq r0 q0 ht hP
    rw [colsEnv_dist]
    exact hfar' r hr q hq r0 q0 ht hP
  · intro r hr e he g hg r0 e0 g0 rP eP gP et gt
    rw [colsEnv_dist, colsEnv_dist, colsEnv_dist]
    exact htie r hr e he g hg r0 e0 g0 rP eP gP et gt

end

/-! ### a case, and one where an eddy in between joins two tracks -/

theorem share_of {α : Type} {P : Int → α → Prop} {rows rows' : List (Row (Int × α))}
    (h : ∀ r ∈ rows, r.idx = 0 → P r.val.1 r.val.2 → ∃ r' ∈ rows', r'.idx = 0 ∧ r'.val = r.val)
    (h' : ∀ r ∈ rows', r.idx = 0 → P r.val.1 r.val.2 → ∃ r' ∈ rows, r'.idx = 0 ∧ r'.val = r.val) : Share P rows rows' := by
  intro t v hP
  constructor
  · rintro ⟨r, hr, r0, hv⟩
    obtain ⟨r', x1, x2, x3⟩ := h r hr r0 (by rw [hv]; exact hP)
    exact ⟨r', x1, x2, x3.trans hv⟩
  · rintro ⟨r, hr, r0, hv⟩
    obtain ⟨r', x1, x2, x3⟩ := h' r hr r0 (by rw [hv]; exact hP)
    exact ⟨r', x1, x2, x3.trans hv⟩

/-- eddies of radius 2·6371 km at the places `l` -/
theorem exDisjoint_of {l : List ℤ} (h : l.Pairwise fun a b => 4 ≤ |a - b|) :
    DisjointDiscs exEnv.dist exEnv.pos exEnv.radius (heads (exEddies l)) := by
  have hh : heads (exEddies l) = l.map fun p => (p, 6371 * 2) := by
    clear h
    induction l with
    | nil => rfl
    | cons a l ih => simp only [heads, exEddies] at *; simp [ih]
  rw [hh]
  have key : ∀ (i j : Nat) (p q : ℤ), l[i]? = some p → l[j]? = some q → i < j → 4 ≤ |p - q| := by
    intro i j p q hp hq hij
    obtain ⟨h1, rfl⟩ := List.getElem?_eq_some_iff.1 hp
    obtain ⟨h2, rfl⟩ := List.getElem?_eq_some_iff.1 hq
    exact List.pairwise_iff_getElem.1 h i j h1 h2 hij
  intro i j v w hv hw hne
  rw [List.getElem?_map] at hv hw
  obtain ⟨p, hp, rfl⟩ := Option.map_eq_some_iff.1 hv
  obtain ⟨q, hq, rfl⟩ := Option.map_eq_some_iff.1 hw
  have h4 : 4 ≤ |p - q| := by
    rcases lt_or_gt_of_ne hne with hij | hij
    · exact key i j p q hp hq hij
    · rw [abs_sub_comm]; exact key j i q p hq hp hij
  have h4 : (4 : ℚ) ≤ ((|p - q| : ℤ) : ℚ) := by exact_mod_cast h4
  simp only [exEnv]
  linarith

/-- the rows of the table of a run over three times -/
def threeRows (l : Int → List ℤ) : List (Row (Int × ℤ × ℚ)) :=
  match timeTracking exEnv (fun t => .ok (exTbl (l t))) 0 (some 3) 3 5 true with
  | .ok s => s.table.rows
  | .error _ => []

theorem threeRows_run {l : Int → List ℤ} (h : threeRows l ≠ []) :
    ∃ s, timeTracking exEnv (fun t => .ok (exTbl (l t))) 0 (some 3) 3 5 true = .ok s ∧ s.table.rows = threeRows l := by
  unfold threeRows at h ⊢
  cases hr : timeTracking exEnv (fun t => .ok (exTbl (l t))) 0 (some 3) 3 5 true with
  | ok s => exact ⟨s, rfl, rfl⟩
  | error e => rw [hr] at h; exact absurd rfl h

theorem exTbl_disjoint {l : Int → List ℤ} (h : ∀ t, (l t).Pairwise fun a b => 4 ≤ |a - b|) (t : Int) (C : Tbl (ℤ × ℚ))
    (hC : (.ok (exTbl (l t)) : Except PyErr _) = .ok C) : ∃ es, (∀ e ∈ es, e ≠ []) ∧ C.rows = snapRows es ∧
      DisjointDiscs exEnv.dist exEnv.pos exEnv.radius (heads es) := by
  injection hC with hC
  subst hC
  exact ⟨_, exEddies_ne _, rfl, exDisjoint_of (h t)⟩

/-- places at three times: an eddy moves from 0 to 2, a second one rests at 10 -/
def calmPlaces (t : Int) : List ℤ := if t = 0 then [0, 10] else if t = 1 then [1, 10] else [2, 10]
/-- the same with a third one at 20, which comes first in the list and is gone after time 0 -/
def busyPlaces (t : Int) : List ℤ := if t = 0 then [20, 0, 10] else if t = 1 then [10, 1] else [2, 10]
/-- an eddy at 0, then at 2, none in between -/
def gapPlaces (t : Int) : List ℤ := if t = 0 then [0, 10] else if t = 1 then [10] else [2, 10]

theorem calmPlaces_apart (t : Int) : (calmPlaces t).Pairwise fun a b => 4 ≤ |a - b| := by
  unfold calmPlaces; split_ifs <;> decide
theorem busyPlaces_apart (t : Int) : (busyPlaces t).Pairwise fun a b => 4 ≤ |a - b| := by
  unfold busyPlaces; split_ifs <;> decide
theorem gapPlaces_apart (t : Int) : (gapPlaces t).Pairwise fun a b => 4 ≤ |a - b| := by
  unfold gapPlaces; split_ifs <;> decide

theorem exEnv_self (a : ℤ) : exEnv.dist a a = 0 := by simp [exEnv]
theorem exEnv_symm (a b : ℤ) : exEnv.dist a b = exEnv.dist b a := by simp [exEnv, abs_sub_comm]
theorem exEnv_triangle (a b c : ℤ) : exEnv.dist a c ≤ exEnv.dist a b + exEnv.dist b c := by
  simp only [exEnv]
  exact_mod_cast abs_sub_le a b c

/-- C123: the hypotheses are met by two runs with different eddies in different orders; the shared ones are those below 15 -/
example : ∃ s s' : LoopState (ℤ × ℚ), timeTracking exEnv (fun t => .ok (exTbl (calmPlaces t))) 0 (some 3) 3 5 true = .ok s ∧
    timeTracking exEnv (fun t => .ok (exTbl (busyPlaces t))) 0 (some 3) 3 5 true = .ok s' ∧ s.table.rows ≠ [] ∧
    SameTracks (fun _ v => v.1 < 15) s.table.rows s'.table.rows := by
  obtain ⟨s, hs, e⟩ := threeRows_run (l := calmPlaces) (by decide +kernel)
  obtain ⟨s', hs', e'⟩ := threeRows_run (l := busyPlaces) (by decide +kernel)
  refine ⟨s, s', hs, hs', by rw [e]; decide +kernel, C123_partial exEnv_nn exEnv_self exEnv_symm exEnv_triangle
    (exTbl_disjoint calmPlaces_apart) (exTbl_disjoint busyPlaces_apart) le_rfl (by norm_num) hs hs' ?_ ?_ ?_ ?_ ?_ ?_⟩
  · rw [e]; decide +kernel
  · rw [e']; decide +kernel
  · rw [e, e']
    exact share_of (by decide +kernel) (by decide +kernel)
  · rw [e]; unfold OutOfReach; decide +kernel
  · rw [e']; unfold OutOfReach; decide +kernel
  · rw [e]; unfold NoEqualDistances; decide +kernel

/-- **C123** is false in general: an eddy at 0 and, two times later, an eddy at 2 are in different tracks; with a further eddy at 1 in
between, they are in one track. All hypotheses of `C123_partial` are met except that the further eddy is within reach. -/
theorem C123_refuted : ∃ (snap snap' : Int → Except PyErr (Tbl (ℤ × ℚ))) (s s' : LoopState (ℤ × ℚ)),
    (∀ t C, snap t = .ok C → ∃ es, (∀ e ∈ es, e ≠ []) ∧ C.rows = snapRows es ∧ DisjointDiscs exEnv.dist exEnv.pos exEnv.radius (heads es)) ∧
    (∀ t C, snap' t = .ok C → ∃ es, (∀ e ∈ es, e ≠ []) ∧ C.rows = snapRows es ∧ DisjointDiscs exEnv.dist exEnv.pos exEnv.radius (heads es)) ∧
    timeTracking exEnv snap 0 (some 3) 3 5 true = .ok s ∧ timeTracking exEnv snap' 0 (some 3) 3 5 true = .ok s' ∧
    Share (fun _ v => v.1 ≠ 1) s.table.rows s'.table.rows ∧
    NoEqualDistances exEnv.dist exEnv.pos exEnv.radius (fun _ v => v.1 ≠ 1) s.table.rows ∧
    ¬ SameTracks (fun _ v => v.1 ≠ 1) s.table.rows s'.table.rows := by
  obtain ⟨s, hs, e⟩ := threeRows_run (l := gapPlaces) (by decide +kernel)
  obtain ⟨s', hs', e'⟩ := threeRows_run (l := calmPlaces) (by decide +kernel)
  refine ⟨_, _, s, s', exTbl_disjoint gapPlaces_apart, exTbl_disjoint calmPlaces_apart, hs, hs', ?_, ?_, ?_⟩
  · rw [e, e']
    exact share_of (by decide +kernel) (by decide +kernel)
  · rw [e]; unfold NoEqualDistances; decide +kernel
  · rw [e, e']; unfold SameTracks; decide +kernel

end Trackeddy
