import Verif.Props.SeveralLevels
import Verif.Props.Isometry
import Verif.Props.GaussFit
import Verif.Props.Tracks

/-!
C128: which eddies several levels give with the Gaussian fit.
-/
namespace Trackeddy
open Spec

/-- great-circle distance (radius 1) of two places given by latitude and longitude -/
noncomputable def placeDist (p q : ℝ × ℝ) : ℝ := centralAngle p.1 p.2 q.1 q.2

/-- The eddies `R` after the eddies `new` of a further level have been added to `old`: all of them if there were none; otherwise by the
rule of C13, where nearness is that of the extrema on the sphere (6371 km to the unit). -/
def MergedWith (old new R : List EddyObj) : Prop :=
  old = [] ∧ R = new ∨ old ≠ [] ∧ ∃ tgt, NearestChoice placeDist EddyObj.place old new tgt ∧
    MergeRule old new R tgt (Near placeDist EddyObj.place EddyObj.radius old new tgt) (Lower EddyObj.ellipseError EddyObj.gaussError old new tgt)

/-- the eddies `R` that the levels give, one level after the other, if the eddies of the level `l` are `es l`; a level of zero adds nothing -/
inductive LevelByLevel (es : ℝ → List EddyObj) : List ℝ → List EddyObj → Prop
  | start : LevelByLevel es [] []
  | level {ls : List ℝ} {old R : List EddyObj} {l : ℝ} : LevelByLevel es ls old → (l = 0 → R = old) → (l ≠ 0 → MergedWith old (es l) R) →
      LevelByLevel es (ls ++ [l]) R

/-- the extrema are at least the sum of the radii apart on the sphere -/
def RadiiApart (e e' : EddyObj) : Prop := e.radius + e'.radius ≤ centralAngle e.place.1 e.place.2 e'.place.1 e'.place.2 * 6371

theorem colsEnv_reads {prunes : Bool} {nn : List (ℝ × ℝ) → ℝ × ℝ → Nat} {e : EddyObj} {v : Cols} (hv : v ∈ tableRows e.data) :
    (colsEnv prunes nn).pos v = ballTreePoint e.place.1 e.place.2 ∧ (colsEnv prunes nn).radius v = e.radius ∧
      (colsEnv prunes nn).ellErr v = e.ellipseError ∧ (colsEnv prunes nn).gauErr v = e.gaussError := by
  obtain ⟨c1, c2, c3, -⟩ := columns_read hv
  have hs := columns_scores hv
  unfold colsEnv realEnv
  simp only [c1, c2, c3]
  exact ⟨rfl, trivial, hs.1, hs.2⟩

theorem colsEnv_placeDist {prunes : Bool} {nn : List (ℝ × ℝ) → ℝ × ℝ → Nat} {e e' : EddyObj} {v v' : Cols} (hv : v ∈ tableRows e.data)
    (hv' : v' ∈ tableRows e'.data) :
    (colsEnv prunes nn).dist ((colsEnv prunes nn).pos v) ((colsEnv prunes nn).pos v') = placeDist e.place e'.place := by
  rw [(colsEnv_reads hv).1, (colsEnv_reads hv').1]
  exact C83_great_circle _ _ _ _

section
variable {prunes : Bool} {nn : List (ℝ × ℝ) → ℝ × ℝ → Nat} {old new : List EddyObj} {rows rows' : List Cols} {tgt : Nat → Nat}
  (ho : List.Forall₂ (fun (e : EddyObj) row => row ∈ tableRows e.data) old rows)
  (hn : List.Forall₂ (fun (e : EddyObj) row => row ∈ tableRows e.data) new rows')
include ho hn

theorem nearestChoice_eddies (h : NearestChoice (colsEnv prunes nn).dist (colsEnv prunes nn).pos rows rows' tgt) :
    NearestChoice placeDist EddyObj.place old new tgt := by
  intro i e he
  obtain ⟨v, hv, hev⟩ := (forall₂_getElem? hn).1 i e he
  obtain ⟨u, hu, hmin⟩ := h i v hv
  obtain ⟨k, hk, hku⟩ := (forall₂_getElem? ho).2 _ u hu
  refine ⟨k, hk, fun w hw => ?_⟩
  obtain ⟨j, hj⟩ := List.mem_iff_getElem?.1 hw
  obtain ⟨x, hx, hwx⟩ := (forall₂_getElem? ho).1 j w hj
  have := hmin x (List.mem_of_getElem? hx)
  rwa [colsEnv_placeDist hev hku, colsEnv_placeDist hev hwx] at this

theorem near_eddies (i : Nat) : Near (colsEnv prunes nn).dist (colsEnv prunes nn).pos (colsEnv prunes nn).radius rows rows' tgt i ↔
    Near placeDist EddyObj.place EddyObj.radius old new tgt i := by
  constructor
  · rintro ⟨v, u, hv, hu, h⟩
    obtain ⟨e, he, hev⟩ := (forall₂_getElem? hn).2 i v hv
    obtain ⟨k, hk, hku⟩ := (forall₂_getElem? ho).2 _ u hu
    rw [colsEnv_placeDist hev hku, (colsEnv_reads hev).2.1] at h
    exact ⟨e, k, he, hk, h⟩
  · rintro ⟨e, k, he, hk, h⟩
    obtain ⟨v, hv, hev⟩ := (forall₂_getElem? hn).1 i e he
    obtain ⟨u, hu, hku⟩ := (forall₂_getElem? ho).1 _ k hk
    refine ⟨v, u, hv, hu, ?_⟩
    rwa [colsEnv_placeDist hev hku, (colsEnv_reads hev).2.1]

theorem lower_eddies (i : Nat) : Lower (colsEnv prunes nn).ellErr (colsEnv prunes nn).gauErr rows rows' tgt i ↔
    Lower EddyObj.ellipseError EddyObj.gaussError old new tgt i := by
  constructor
  · rintro ⟨v, u, hv, hu, h⟩
    obtain ⟨e, he, hev⟩ := (forall₂_getElem? hn).2 i v hv
    obtain ⟨k, hk, hku⟩ := (forall₂_getElem? ho).2 _ u hu
    rw [(colsEnv_reads hev).2.2.1, (colsEnv_reads hku).2.2.1, (colsEnv_reads hev).2.2.2, (colsEnv_reads hku).2.2.2] at h
    exact ⟨e, k, he, hk, h⟩
  · rintro ⟨e, k, he, hk, h⟩
    obtain ⟨v, hv, hev⟩ := (forall₂_getElem? hn).1 i e he
    obtain ⟨u, hu, hku⟩ := (forall₂_getElem? ho).1 _ k hk
    refine ⟨v, u, hv, hu, ?_⟩
    rwa [(colsEnv_reads (prunes := prunes) (nn := nn) hev).2.2.1, (colsEnv_reads (prunes := prunes) (nn := nn) hku).2.2.1,
      (colsEnv_reads (prunes := prunes) (nn := nn) hev).2.2.2, (colsEnv_reads (prunes := prunes) (nn := nn) hku).2.2.2]

end

theorem disjoint_eddies {prunes : Bool} {nn : List (ℝ × ℝ) → ℝ × ℝ → Nat} {new : List EddyObj} {rows : List Cols}
    (hn : List.Forall₂ (fun (e : EddyObj) row => row ∈ tableRows e.data) new rows) (hd : new.Pairwise RadiiApart) :
    DisjointDiscs (colsEnv prunes nn).dist (colsEnv prunes nn).pos (colsEnv prunes nn).radius rows := by
  intro i j v v' hv hv' hne
  obtain ⟨e, he, hev⟩ := (forall₂_getElem? hn).2 i v hv
  obtain ⟨e', he', hev'⟩ := (forall₂_getElem? hn).2 j v' hv'
  rw [colsEnv_placeDist hev hev', (colsEnv_reads hev).2.1, (colsEnv_reads hev').2.1]
  obtain ⟨hi, rfl⟩ := List.getElem?_eq_some_iff.1 he
  obtain ⟨hj, rfl⟩ := List.getElem?_eq_some_iff.1 he'
  rcases lt_or_gt_of_ne hne with hij | hij
  · exact List.pairwise_iff_getElem.1 hd i j hi hj hij
  · have := List.pairwise_iff_getElem.1 hd j i hj hi hij
    unfold RadiiApart at this
    unfold placeDist
    rw [← C83_great_circle, haversine_symm, C83_great_circle] at this
    linarith

/-- a merge of images is the image of a merge, if no two new ones replace the same old one -/
theorem mergeRule_map {β γ : Type} {f : β → γ} {old new : List β} {R : List γ} {tgt : Nat → Nat} {near rep : Nat → Prop}
    (h : MergeRule (old.map f) (new.map f) R tgt near rep) (hc : NoCollision tgt new.length near rep)
    (ht : ∀ i < new.length, tgt i < old.length) : ∃ R', R = R'.map f ∧ MergeRule old new R' tgt near rep := by
  classical
  obtain ⟨is, h1, h2, R0, hR, hlen⟩ := h.appended
  simp only [List.length_map] at h2 hlen
  let pick : Nat → Option β := fun j => if hj : ∃ i, i < new.length ∧ near i ∧ rep i ∧ tgt i = j then new[hj.choose]? else old[j]?
  have hlt : ∀ j < old.length, ∃ b, pick j = some b := by
    intro j hj
    show ∃ b, (if hj : ∃ i, i < new.length ∧ near i ∧ rep i ∧ tgt i = j then new[hj.choose]? else old[j]?) = some b
    split
    · rename_i hx
      exact ⟨_, List.getElem?_eq_getElem hx.choose_spec.1⟩
    · exact ⟨_, List.getElem?_eq_getElem hj⟩
  let B : List β := List.ofFn fun j : Fin old.length => (hlt j j.2).choose
  have hB : ∀ j < old.length, B[j]? = pick j := by
    intro j hj
    rw [List.getElem?_ofFn, dif_pos hj]
    exact (hlt j hj).choose_spec.symm
  have hBl : B.length = old.length := by simp [B]
  have hpt : ∀ i < new.length, near i → rep i → pick (tgt i) = new[i]? := by
    intro i hi hn hr
    have hx : ∃ k, k < new.length ∧ near k ∧ rep k ∧ tgt k = tgt i := ⟨i, hi, hn, hr, rfl⟩
    show (if hj : ∃ k, k < new.length ∧ near k ∧ rep k ∧ tgt k = tgt i then new[hj.choose]? else old[tgt i]?) = _
    rw [dif_pos hx]
    have hs := hx.choose_spec
    rw [hc _ hs.1 i hi hs.2.1 hs.2.2.1 hn hr hs.2.2.2]
  have hpk : ∀ j < old.length, (∀ i < new.length, near i → rep i → tgt i ≠ j) → pick j = old[j]? := by
    intro j hj hx
    show (if hj : ∃ k, k < new.length ∧ near k ∧ rep k ∧ tgt k = j then new[hj.choose]? else old[j]?) = _
    rw [dif_neg]
    rintro ⟨k, k1, k2, k3, k4⟩
    exact hx k k1 k2 k3 k4
  have hR0 : R0 = B.map f := by
    apply List.ext_getElem?
    intro j
    by_cases hj : j < old.length
    · have hRj : R[j]? = R0[j]? := by rw [hR, List.getElem?_append_left (by omega)]
      rw [← hRj, List.getElem?_map, hB j hj]
      by_cases hx : ∃ i, i < new.length ∧ near i ∧ rep i ∧ tgt i = j
      · obtain ⟨i, i1, i2, i3, rfl⟩ := hx
        rw [hpt i i1 i2 i3, h.replaced i (by simpa using i1) i2 i3, List.getElem?_map]
      · have hx' : ∀ i < new.length, near i → rep i → tgt i ≠ j := fun i i1 i2 i3 i4 => hx ⟨i, i1, i2, i3, i4⟩
        rw [hpk j hj hx', h.kept j (by simpa using hj) (by simpa using hx'), List.getElem?_map]
    · rw [List.getElem?_eq_none (by omega), List.getElem?_eq_none (by rw [List.length_map]; omega)]
  refine ⟨B ++ is.filterMap fun i => new[i]?, ?_, ?_, ?_, is, h1, h2, B, rfl, hBl⟩
  · rw [hR, hR0, List.map_append, List.map_filterMap]
    congr 1
    apply List.filterMap_congr
    intro i _
    rw [List.getElem?_map]
  · intro j hj hx
    rw [List.getElem?_append_left (by omega), hB j hj, hpk j hj hx]
  · intro i hi hn hr
    rw [List.getElem?_append_left (by rw [hBl]; exact ht i hi), hB _ (ht i hi), hpt i hi hn hr]

theorem mergedWith_ne {old new R : List EddyObj} (h : MergedWith old new R) {P : EddyObj → Prop} (ho : ∀ e ∈ old, P e) (hn : ∀ e ∈ new, P e) :
    ∀ e ∈ R, P e := by
  rcases h with ⟨-, rfl⟩ | ⟨-, tgt, -, hm⟩
  · exact hn
  · obtain ⟨is, -, h2, R0, hR, hlen⟩ := hm.appended
    intro e he
    rw [hR] at he
    rcases List.mem_append.1 he with he | he
    · obtain ⟨j, hj⟩ := List.mem_iff_getElem?.1 he
      have hjl : j < old.length := by
        rw [← hlen]
        exact (List.getElem?_eq_some_iff.1 hj).1
      have hRj : R[j]? = some e := by rw [hR, List.getElem?_append_left (by omega), hj]
      by_cases hx : ∃ i, i < new.length ∧ Near placeDist EddyObj.place EddyObj.radius old new tgt i ∧
          Lower EddyObj.ellipseError EddyObj.gaussError old new tgt i ∧ tgt i = j
      · obtain ⟨i, i1, i2, i3, rfl⟩ := hx
        rw [hm.replaced i i1 i2 i3] at hRj
        exact hn e (List.mem_of_getElem? hRj)
      · rw [hm.kept j hjl fun i i1 i2 i3 i4 => hx ⟨i, i1, i2, i3, i4⟩] at hRj
        exact ho e (List.mem_of_getElem? hRj)
    · obtain ⟨i, -, hi⟩ := List.mem_filterMap.1 he
      exact hn e (List.mem_of_getElem? hi)

/-- every eddy that is kept is found at one of the levels other than zero -/
theorem LevelByLevel.mem {es : ℝ → List EddyObj} {levels : List ℝ} {R : List EddyObj} (h : LevelByLevel es levels R) :
    ∀ e ∈ R, ∃ l ∈ levels, l ≠ 0 ∧ e ∈ es l := by
  induction h with
  | start => simp
  | @level ls old R l _ h0 h1 ih =>
    have hold : ∀ e ∈ old, ∃ m ∈ ls ++ [l], m ≠ 0 ∧ e ∈ es m := fun e he => by
      obtain ⟨m, h1, h2⟩ := ih e he
      exact ⟨m, List.mem_append_left _ h1, h2⟩
    by_cases hl : l = 0
    · rw [h0 hl]
      exact hold
    · exact mergedWith_ne (h1 hl) hold fun e he => ⟨l, by simp, hl, he⟩

section
variable {prunes : Bool} {nn : List (ℝ × ℝ) → ℝ × ℝ → Nat} {c : Criteria ℝ} {L : Libs} {S : Fields}

/-- one level merged into the eddies so far -/
theorem levelStep_eddies (hnn : IsNN haversine nn) {old new : List EddyObj} (ho : ∀ e ∈ old, tableRows e.data ≠ [])
    (hn : ∀ e ∈ new, tableRows e.data ≠ []) (hd : new.Pairwise RadiiApart) {detect : ℝ → Except PyErr (Tbl Cols)} {l : ℝ} {t u : Tbl Cols} (hw : t.WF)
    (ht : t.rows = snapRows (old.map fun e => tableRows e.data)) (hu : detect l = .ok u) (hlev : u.lev = usort u.ids)
    (hur : u.rows = snapRows (new.map fun e => tableRows e.data)) :
    ∃ t' R, levelStep (colsEnv prunes nn) detect t l = .ok t' ∧ t'.WF ∧ t'.rows = snapRows (R.map fun e => tableRows e.data) ∧ MergedWith old new R := by
  have huw : u.WF := by
    intro r hr
    rw [hlev, mem_usort]
    exact Tbl.mem_ids.2 ⟨r, hr, rfl⟩
  have fo := heads_tableRows ho
  have fn := heads_tableRows hn
  have hne : ∀ {es : List EddyObj}, (∀ e ∈ es, tableRows e.data ≠ []) → ∀ e ∈ es.map (fun e => tableRows e.data), e ≠ [] := by
    intro es h e he
    obtain ⟨o, ho, rfl⟩ := List.mem_map.1 he
    exact h o ho
  have hdd := disjoint_eddies (prunes := prunes) (nn := nn) fn hd
  unfold levelStep
  rw [hu, show (Except.ok u : Except PyErr (Tbl Cols)) = pure u from rfl, pure_bind]
  by_cases he : u.rows = []
  · rw [if_pos he]
    have hnil : new = [] := (snapRows_eq_nil hn).1 (by rw [← hur, he])
    refine ⟨t, old, rfl, hw, ht, ?_⟩
    by_cases h0 : old = []
    · exact Or.inl ⟨h0, by rw [h0, hnil]⟩
    · subst hnil
      refine Or.inr ⟨h0, id, fun i v hv => by simp at hv, fun j _ _ => rfl, fun i hi => by simp at hi, [], List.Pairwise.nil, by simp, old, by simp⟩
  · rw [if_neg he]
    by_cases hj : t.rows = []
    · rw [if_pos hj]
      exact ⟨u, new, rfl, huw, hur, Or.inl ⟨(snapRows_eq_nil ho).1 (by rw [← ht, hj]), rfl⟩⟩
    · rw [if_neg hj]
      have h0 : old ≠ [] := fun h => hj (by rw [ht, (snapRows_eq_nil ho).2 h])
      have h1 : new ≠ [] := fun h => he (by rw [hur, (snapRows_eq_nil hn).2 h])
      obtain ⟨t', R, tgt, m1, m2, m3, m4, m5, m6⟩ := C13_merge_rule (E := colsEnv prunes nn) hnn (hne ho) (hne hn)
        (by simpa using h0) (by simpa using h1) ht hw hur huw
        (fun tgt _ => noCollision_of_disjoint haversine_symm haversine_triangle hdd _ _)
      have e1 : (Near (colsEnv prunes nn).dist (colsEnv prunes nn).pos (colsEnv prunes nn).radius (heads (old.map fun e => tableRows e.data))
          (heads (new.map fun e => tableRows e.data)) tgt) = Near placeDist EddyObj.place EddyObj.radius old new tgt :=
        funext fun i => propext (near_eddies fo fn i)
      have e2 : (Lower (colsEnv prunes nn).ellErr (colsEnv prunes nn).gauErr (heads (old.map fun e => tableRows e.data))
          (heads (new.map fun e => tableRows e.data)) tgt) = Lower EddyObj.ellipseError EddyObj.gaussError old new tgt :=
        funext fun i => propext (lower_eddies fo fn i)
      have hch := nearestChoice_eddies fo fn m5
      have hnc : NoCollision tgt new.length (Near placeDist EddyObj.place EddyObj.radius old new tgt)
          (Lower EddyObj.ellipseError EddyObj.gaussError old new tgt) := by
        rw [← e1]
        exact noCollision_of_disjoint haversine_symm haversine_triangle hdd _ _
      rw [e1, e2] at m6
      obtain ⟨R', rfl, hm⟩ := mergeRule_map m6 hnc (fun i hi => by
        obtain ⟨u, hu, -⟩ := hch i _ (List.getElem?_eq_getElem hi)
        exact (List.getElem?_eq_some_iff.1 hu).1)
      exact ⟨t', R', m1, m2, m3, Or.inr ⟨h0, tgt, hch, hm⟩⟩

/-- the levels of a snapshot, one after the other -/
theorem snapshot_levels (hnn : IsNN haversine nn) (hS : S.Ok) {levels : List ℝ}
    (hok : ∀ l ∈ levels, l ≠ 0 → ∃ t, pureLevel c (levelMeasures c L S l) = .ok t)
    (hd : ∀ l ∈ levels, l ≠ 0 → (foundIn c L S l).Pairwise RadiiApart) :
    ∃ t R, pureSnapshot (colsEnv prunes nn) c L S levels = .ok t ∧ LevelByLevel (foundIn c L S) levels R ∧
      t.rows = snapRows (R.map fun e => tableRows e.data) := by
  unfold pureSnapshot detectSnapshot
  suffices h : ∃ t R, (levels.filter (· ≠ 0)).foldlM (levelStep (colsEnv prunes nn) fun l => pureLevel c (levelMeasures c L S l)) ⟨[], []⟩ = .ok t ∧
      t.WF ∧ LevelByLevel (foundIn c L S) levels R ∧ t.rows = snapRows (R.map fun e => tableRows e.data) by
    obtain ⟨t, R, h1, -, h2⟩ := h
    exact ⟨t, R, h1, h2⟩
  induction levels using List.reverseRecOn with
  | nil => exact ⟨_, [], rfl, by intro r hr; simp at hr, .start, rfl⟩
  | append_singleton ls l ih =>
    obtain ⟨t, old, h1, h2, h3, h4⟩ := ih (fun m hm => hok m (List.mem_append_left _ hm)) (fun m hm => hd m (List.mem_append_left _ hm))
    by_cases hl : l = 0
    · refine ⟨t, old, ?_, h2, .level h3 (fun _ => rfl) (fun h => absurd hl h), h4⟩
      rw [List.filter_append]
      simpa [hl] using h1
    · have hmem : l ∈ ls ++ [l] := by simp
      obtain ⟨u, hu⟩ := hok l hmem hl
      obtain ⟨_, _, _, hlev⟩ := pureLevel_level hu
      have hold : ∀ e ∈ old, tableRows e.data ≠ [] := by
        intro e he
        obtain ⟨m, -, -, he⟩ := h3.mem e he
        exact foundIn_ne hS m e he
      obtain ⟨t', R, k1, k2, k3, k4⟩ := levelStep_eddies (prunes := prunes) hnn hold (foundIn_ne hS l) (hd l hmem hl)
        (detect := fun l => pureLevel c (levelMeasures c L S l)) h2 h4 hu hlev (by rw [pureLevel_rows hu, storedOf_contours hS]; rfl)
      refine ⟨t', R, ?_, k2, .level h3 (fun h => absurd h hl) (fun _ => k4), k3⟩
      rw [List.filter_append, List.filter_cons_of_pos (by simpa using hl), List.filter_nil, foldlM_snoc, h1]
      exact k1

/-- **C128** Several levels with any settings, also with the Gaussian fit: if each level alone can be examined, whatever was analysed before,
and the eddies found at one level are at least the sum of their radii apart, then all together can, and the eddies follow from those of the levels by
the rule `LevelByLevel`: the levels are taken in the given order; an eddy whose extremum is within its radius of that of the nearest eddy kept so far
replaces it, with its number, if both its scores are lower, and is dropped if not; any other is added with the next number. -/
theorem C128_snapshot (hnn : IsNN haversine nn) (hS : S.Ok) {levels : List ℝ} {regs : Regs Cols} (hr : StoreEmpty regs)
    (hok : ∀ l ∈ levels, l ≠ 0 → ∃ t, (snapshotOf (colsEnv prunes nn) c L S [l] regs).2 = .ok t) :
    ∃ es, (∀ l ∈ levels, l ≠ 0 → Found c L S l (es l)) ∧ ((∀ l ∈ levels, l ≠ 0 → (es l).Pairwise RadiiApart) →
      ∃ t R, (snapshotOf (colsEnv prunes nn) c L S levels regs).2 = .ok t ∧ LevelByLevel es levels R ∧
        t.rows = snapRows (R.map fun e => tableRows e.data)) := by
  refine ⟨foundIn c L S, fun l _ _ => foundIn_found hS l, fun hd => ?_⟩
  obtain ⟨t, R, h1, h2⟩ := snapshot_levels (prunes := prunes) hnn (c := c) (L := L) hS (levels := levels) (by
    intro l hl h0
    obtain ⟨t, ht⟩ := hok l hl h0
    rw [(snapshotOf_pure _ c L hS [l] hr).1] at ht
    exact detectSnapshot_levels ht l (by simp) h0) hd
  exact ⟨t, R, by rw [(snapshotOf_pure _ c L hS levels hr).1, h1], h2⟩

/-- the rows of a snapshot that succeeds -/
theorem snapshot_merged (hnn : IsNN haversine nn) (hS : S.Ok) {levels : List ℝ}
    (hd : ∀ l ∈ levels, l ≠ 0 → (foundIn c L S l).Pairwise RadiiApart) {C : Tbl Cols} (hC : pureSnapshot (colsEnv prunes nn) c L S levels = .ok C) :
    ∃ R, LevelByLevel (foundIn c L S) levels R ∧ C.rows = snapRows (R.map fun e => tableRows e.data) := by
  obtain ⟨t, R, h1, h2, h3⟩ := snapshot_levels (prunes := prunes) hnn (c := c) (L := L) hS (levels := levels) (detectSnapshot_levels hC) hd
  rw [hC] at h1
  injection h1 with h1
  subst h1
  exact ⟨R, h2, h3⟩

theorem merged_ne (hS : S.Ok) {levels : List ℝ} {R : List EddyObj} (h : LevelByLevel (foundIn c L S) levels R) : ∀ e ∈ R, tableRows e.data ≠ [] := by
  intro e he
  obtain ⟨m, -, -, he⟩ := h.mem e he
  exact foundIn_ne hS m e he

/-- **C128** for whole runs: the table consists, for each time, of the eddies that the rule gives, each once. -/
theorem C128_run (hnn : IsNN haversine nn) {field : Int → Fields} {levels : List ℝ} {t0 : Int}
    {tf : Option Int} {T : Nat} {ntimes : Int} {regs : Regs Cols} (h : ∀ t ∈ trackTimes t0 tf T, (field t).Ok) (hr : StoreEmpty regs)
    {s : LoopState Cols} (hs : (trackFields (colsEnv prunes nn) c L field levels t0 tf T ntimes true regs).2 = .ok s) :
    ∃ es : Int → ℝ → List EddyObj, (∀ t ∈ trackTimes t0 tf T, ∀ l ∈ levels, l ≠ 0 → Found c L (field t) l (es t l)) ∧
      ((∀ t ∈ trackTimes t0 tf T, ∀ l ∈ levels, l ≠ 0 → (es t l).Pairwise RadiiApart) → ∃ (R : Int → List EddyObj) (g : Int → Nat → Nat),
        (∀ t ∈ trackTimes t0 tf T, LevelByLevel (es t) levels (R t)) ∧
        s.table.rows.Perm ((trackTimes t0 tf T).flatMap fun t =>
          ((R t).mapIdx fun i e => atTime t (eddyRows (g t i) (tableRows e.data))).flatten)) := by
  classical
  refine ⟨fun t => foundIn c L (field t), fun t ht l _ _ => foundIn_found (h t ht) l, fun hd => ?_⟩
  have hnn' : IsNN (colsEnv prunes nn).dist (colsEnv prunes nn).nn := hnn
  rw [(trackFields_pure _ c L h hr).1] at hs
  have hsnap : ∀ t C, pureSnapshot (colsEnv prunes nn) c L (field t) levels = .ok C → SnapRows C.rows := fun t C hC => pureSnapshot_rows hC
  obtain ⟨g, hg⟩ := C03_no_detection_lost_or_invented hnn' hsnap hs
  have hproc : s.processed = trackTimes t0 tf T :=
    (run_inv hnn' _ (pairwise_trackTimes t0 tf T) (fun t _ => rowsAt_snapRows hsnap t) hs).proc
  have hex : ∀ t : Int, ∃ R, t ∈ trackTimes t0 tf T → LevelByLevel (foundIn c L (field t)) levels R ∧
      rowsAt (fun t => pureSnapshot (colsEnv prunes nn) c L (field t) levels) t = snapRows (R.map fun e => tableRows e.data) := by
    intro t
    by_cases ht : t ∈ trackTimes t0 tf T
    · obtain ⟨C, hC⟩ := run_snaps_ok _ hs t ht
      obtain ⟨R, h1, h2⟩ := snapshot_merged hnn (h t ht) (hd t ht) hC
      refine ⟨R, fun _ => ⟨h1, ?_⟩⟩
      unfold rowsAt
      simp only [hC, h2]
    · exact ⟨[], fun h => absurd h ht⟩
  choose R hR using hex
  refine ⟨R, g, fun t ht => (hR t ht).1, ?_⟩
  rw [hproc] at hg
  refine hg.trans (List.Perm.of_eq ?_)
  apply List.flatMap_congr
  intro t ht
  rw [(hR t ht).2, tagged_snapRows]
  congr 1
  apply List.ext_getElem?
  intro i
  simp only [List.getElem?_mapIdx, List.getElem?_map, Option.map_map]
  rfl

end

theorem mergedWith_length {old new R : List EddyObj} (h : MergedWith old new R) : old.length ≤ R.length := by
  rcases h with ⟨rfl, -⟩ | ⟨-, tgt, -, hm⟩
  · simp
  · obtain ⟨is, -, -, R0, hR, hlen⟩ := hm.appended
    rw [hR, List.length_append]
    omega

/-- **C128** A further level never gives fewer eddies; it gives the same number exactly if, with some eddies there, each new one is within its radius of
its nearest, and it changes nothing if moreover none of them has both scores lower. -/
theorem C128_count {old new R : List EddyObj} (h : MergedWith old new R) (h0 : old ≠ []) :
    old.length ≤ R.length ∧ (R.length = old.length ↔ ∀ e ∈ new, ∃ k ∈ old, NearEddy e k) ∧
      ((∀ e ∈ new, ∃ k ∈ old, NearEddy e k) → (∀ e ∈ new, ∀ k ∈ old, NearEddy e k → ¬ ((∃ x y, e.ellipseError = some x ∧ k.ellipseError = some y ∧ x < y) ∧
        ∃ x y, e.gaussError = some x ∧ k.gaussError = some y ∧ x < y)) → R = old) := by
  refine ⟨mergedWith_length h, ?_⟩
  rcases h with ⟨h, -⟩ | ⟨-, tgt, hch, hm⟩
  · exact absurd h h0
  obtain ⟨is, -, h2, R0, hR, hlen⟩ := hm.appended
  have hnear : (∀ i < new.length, Near placeDist EddyObj.place EddyObj.radius old new tgt i) ↔ ∀ e ∈ new, ∃ k ∈ old, NearEddy e k := by
    constructor
    · intro h e he
      obtain ⟨i, hi⟩ := List.mem_iff_getElem?.1 he
      obtain ⟨v, u, hv, hu, hx⟩ := h i (List.getElem?_eq_some_iff.1 hi).1
      rw [hi] at hv
      cases hv
      exact ⟨u, List.mem_of_getElem? hu, hx⟩
    · intro h i hi
      obtain ⟨k, hk, hx⟩ := h new[i] (List.getElem_mem hi)
      obtain ⟨u, hu, hmin⟩ := hch i _ (List.getElem?_eq_getElem hi)
      refine ⟨_, u, List.getElem?_eq_getElem hi, hu, lt_of_le_of_lt ?_ hx⟩
      exact mul_le_mul_of_nonneg_right (hmin k hk) (by norm_num)
  have hnil : (∀ i < new.length, Near placeDist EddyObj.place EddyObj.radius old new tgt i) ↔ is = [] := by
    rw [List.eq_nil_iff_forall_not_mem]
    constructor
    · intro h i hi
      exact ((h2 i).1 hi).2 (h i ((h2 i).1 hi).1)
    · intro h i hi
      by_contra hx
      exact h i ((h2 i).2 ⟨hi, hx⟩)
  constructor
  · rw [← hnear, hnil, hR, List.length_append, hlen]
    constructor
    · intro h
      have : (is.filterMap fun i => new[i]?) = [] := List.length_eq_zero_iff.1 (by omega)
      rw [List.filterMap_eq_nil_iff] at this
      apply List.eq_nil_iff_forall_not_mem.2
      intro i hi
      have h3 := this i hi
      rw [List.getElem?_eq_none_iff] at h3
      have := ((h2 i).1 hi).1
      omega
    · intro h
      simp [h]
  · intro hall hlow
    have his := hnil.1 (hnear.2 hall)
    rw [his, List.filterMap_nil, List.append_nil] at hR
    subst hR
    apply List.ext_getElem?
    intro j
    by_cases hj : j < old.length
    · apply hm.kept j hj
      intro i hi hn hl
      obtain ⟨v, u, hv, hu, hx⟩ := hn
      obtain ⟨v', u', hv', hu', hy⟩ := hl
      rw [hv] at hv'
      rw [hu] at hu'
      cases hv'
      cases hu'
      exact absurd hy (hlow v (List.mem_of_getElem? hv) u (List.mem_of_getElem? hu) hx)
    · rw [List.getElem?_eq_none (by omega), List.getElem?_eq_none (by omega)]

/-- nothing is kept exactly if nothing is found -/
theorem LevelByLevel.ne_nil {es : ℝ → List EddyObj} {levels : List ℝ} {R : List EddyObj} (h : LevelByLevel es levels R) :
    R ≠ [] ↔ ∃ l ∈ levels, l ≠ 0 ∧ es l ≠ [] := by
  constructor
  · intro hne
    obtain ⟨e, he⟩ := List.exists_mem_of_ne_nil _ hne
    obtain ⟨l, hl, h0, he⟩ := h.mem e he
    exact ⟨l, hl, h0, List.ne_nil_of_mem he⟩
  · induction h with
    | start => rintro ⟨l, hl, -⟩; simp at hl
    | @level ls old R l _ h0 h1 ih =>
      rintro ⟨m, hm, hm0, hme⟩
      rcases List.mem_append.1 hm with hm | hm
      · have hold := ih ⟨m, hm, hm0, hme⟩
        by_cases hl : l = 0
        · rw [h0 hl]; exact hold
        · have := mergedWith_length (h1 hl)
          intro hR
          rw [hR] at this
          exact hold (List.length_eq_zero_iff.1 (by simpa using this))
      · rw [List.mem_singleton] at hm
        subst hm
        rcases h1 hm0 with ⟨-, rfl⟩ | ⟨hold, hx⟩
        · exact hme
        · have := mergedWith_length (Or.inr ⟨hold, hx⟩)
          intro hR
          rw [hR] at this
          exact hold (List.length_eq_zero_iff.1 (by simpa using this))

/-! ### the hypotheses can be met -/

/-- what is found in the example with the Gaussian fit -/
theorem exFoundG : ∃ (n : Nat) (e : EddyObj), foundIn exCriteriaG (exLibsG n) exField (1 / 2) = [e] ∧
    ∃ x, (detectLevel exCriteriaG (exLibsG n) exField Regs.empty (1 / 2)).2 = .ok x := by
  obtain ⟨n, e, he⟩ := exStoredG
  refine ⟨n, e, ?_, ?_⟩
  · unfold foundIn
    rw [exField_contours]
    have : storedEddy exCriteriaG (exLibsG n) exField (1 / 2) (exPts.map some) = some e := by unfold storedEddy; rw [he]
    rw [List.filterMap_cons_some this, List.filterMap_nil]
  · exact (detectLevel_total (c := exCriteriaG) (L := exLibsG n) exField_ok (1 / 2) Regs.empty).1.2 (by
      rw [exField_contours]
      intro vs hvs
      rw [List.mem_singleton] at hvs
      subst hvs
      exact ⟨_, he⟩)

/-- the hypotheses of C128 hold for two levels with the Gaussian fit, and an eddy is kept -/
example : ∃ (n : Nat) (nn : List (ℝ × ℝ) → ℝ × ℝ → Nat), IsNN haversine nn ∧ exCriteriaG.skipGauss = false ∧
    (∀ l ∈ [(1 / 2 : ℝ), 1 / 2], l ≠ 0 → ∃ t, (snapshotOf (colsEnv true nn) exCriteriaG (exLibsG n) exField [l] Regs.empty).2 = .ok t) ∧
    (∀ l ∈ [(1 / 2 : ℝ), 1 / 2], l ≠ 0 → (foundIn exCriteriaG (exLibsG n) exField l).Pairwise RadiiApart) ∧
    ∀ R, LevelByLevel (foundIn exCriteriaG (exLibsG n) exField) [1 / 2, 1 / 2] R → R ≠ [] := by
  obtain ⟨nn, hnn⟩ := exists_isNN haversine
  obtain ⟨n, e, h1, h2⟩ := exFoundG
  refine ⟨n, nn, hnn, rfl, ?_, ?_, ?_⟩
  · intro l hl h0
    have : l = 1 / 2 := by simpa using hl
    subst this
    obtain ⟨C, hC⟩ := snapshot_returns (E := colsEnv true nn) (levels := [1 / 2]) exField_ok (l := 1 / 2) (by
      rw [List.filter_cons_of_pos (by norm_num)]; rfl) h2
    exact ⟨C, by rw [(snapshotOf_pure _ _ _ exField_ok _ ⟨rfl, rfl⟩).1, hC]⟩
  · intro l hl _
    have : l = 1 / 2 := by simpa using hl
    rw [this, h1]
    simp
  · intro R hR
    exact hR.ne_nil.2 ⟨1 / 2, by simp, by norm_num, by rw [h1]; simp⟩

/-- the hypotheses of `C128_count` hold for an eddy of the example, found a second time -/
example : ∃ (old new R : List EddyObj), MergedWith old new R ∧ old ≠ [] ∧ new ≠ [] ∧ ∃ n, old = foundIn exCriteriaG (exLibsG n) exField (1 / 2) := by
  obtain ⟨n, e, h1, -⟩ := exFoundG
  have hd : placeDist e.place e.place = 0 := by
    unfold placeDist
    rw [← C83_great_circle, haversine_self]
  have hlow : ∀ i, ¬ Lower EddyObj.ellipseError EddyObj.gaussError [e] [e] (fun _ => 0) i := by
    rintro i ⟨v, u, hv, hu, ⟨x, y, hx, hy, hxy⟩, -⟩
    rw [List.mem_singleton.1 (List.mem_of_getElem? hv)] at hx
    rw [List.mem_singleton.1 (List.mem_of_getElem? hu), hx] at hy
    injection hy with hy
    exact absurd hxy (by rw [hy]; exact lt_irrefl _)
  have hnear : ∀ i, Near placeDist EddyObj.place EddyObj.radius [e] [e] (fun _ => 0) i ↔ i = 0 ∧ 0 < e.radius := by
    intro i
    constructor
    · rintro ⟨v, u, hv, hu, hx⟩
      have hi : i = 0 := by
        have := (List.getElem?_eq_some_iff.1 hv).1
        simpa using this
      rw [List.mem_singleton.1 (List.mem_of_getElem? hv), List.mem_singleton.1 (List.mem_of_getElem? hu), hd, zero_mul] at hx
      exact ⟨hi, hx⟩
    · rintro ⟨rfl, hx⟩
      exact ⟨e, e, rfl, rfl, by rw [hd, zero_mul]; exact hx⟩
  refine ⟨[e], [e], if 0 < e.radius then [e] else [e, e], Or.inr ⟨by simp, fun _ => 0, ?_, ?_⟩, by simp, by simp, n, h1.symm⟩
  · intro i v hv
    refine ⟨e, rfl, fun w hw => ?_⟩
    rw [List.mem_singleton.1 hw]
  · refine ⟨fun j hj _ => ?_, fun i _ _ hx => absurd hx (hlow i), if 0 < e.radius then [] else [0], ?_, ?_, [e], ?_, rfl⟩
    · have hj : j = 0 := by simpa using hj
      subst hj
      split <;> rfl
    · split <;> simp
    · intro i
      rw [hnear i]
      split <;> simp_all
    · split <;> rfl

end Trackeddy
