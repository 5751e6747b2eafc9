import Verif.Proofs.Isometry
import Verif.Props.Mirror
import Verif.Props.Levels

/-!
C126: what tracking reads; C106 and C125 for whole runs.
-/
namespace Trackeddy
open Spec
open Cntr (Vertex SameShape arrGrid)

/-- the same treatment of two contours, with eddies that correspond -/
def Corresponding (Q : EddyObj → EddyObj → Prop) : Except PyErr Outcome → Except PyErr Outcome → Prop
  | .error a, .error b => a = b
  | .ok .skipped, .ok .skipped => True
  | .ok (.discarded a), .ok (.discarded b) => a = b
  | .ok (.stored e), .ok (.stored e') => Q e e'
  | _, _ => False

/-- A correspondence of eddies that keeps the number of points of the contour, the radius and the great-circle distances between the
extrema, and either both scores, or both runs have no Gaussian scores. -/
structure Congruent (Q : EddyObj → EddyObj → Prop) : Prop where
  points : ∀ {e e'}, Q e e' → e'.contour.length = e.contour.length
  radius : ∀ {e e'}, Q e e' → e'.radius = e.radius
  distance : ∀ {e e' f f'}, Q e e' → Q f f' → centralAngle e'.place.1 e'.place.2 f'.place.1 f'.place.2 = centralAngle e.place.1 e.place.2 f.place.1 f.place.2
  scores : (∀ {e e'}, Q e e' → e'.ellipseError = e.ellipseError ∧ e'.gaussError = e.gaussError) ∨
    ∀ {e e'}, Q e e' → e.gaussError = some 0 ∧ e'.gaussError = some 0

/-- the two rows are the rows of the same contour point of corresponding eddies -/
def SameRowOf (Q : EddyObj → EddyObj → Prop) (row row' : Cols) : Prop :=
  ∃ (e e' : EddyObj) (i : Nat), Q e e' ∧ (tableRows e.data)[i]? = some row ∧ (tableRows e'.data)[i]? = some row'

/-- the search decides by the distances from the query only (of equally near candidates, say, it takes the first) -/
def ByDistance (nn : List (ℝ × ℝ) → ℝ × ℝ → Nat) : Prop :=
  ∀ (P P' : List (ℝ × ℝ)) (q q' : ℝ × ℝ), List.Forall₂ (fun p p' => haversine q' p' = haversine q p) P P' → nn P' q' = nn P q

theorem exists_byDistance : ∃ nn, IsNN haversine nn ∧ ByDistance nn := by
  refine ⟨fun P q => (P.map (haversine q)).idxOf (((P.map (haversine q)).argmin id).getD 0), ?_, ?_⟩
  · intro P q hP
    have hP' : P.map (haversine q) ≠ [] := by simpa using hP
    obtain ⟨a, ha⟩ : ∃ a, (P.map (haversine q)).argmin id = some a := by
      rcases h : (P.map (haversine q)).argmin id with _ | a
      · exact absurd (List.argmin_eq_none.mp h) hP'
      · exact ⟨a, rfl⟩
    have hm := List.argmin_mem ha
    have hi : (P.map (haversine q)).idxOf a < (P.map (haversine q)).length := List.idxOf_lt_length_iff.mpr hm
    have hi' := hi
    rw [List.length_map] at hi'
    beta_reduce
    rw [ha]
    refine ⟨P[(P.map (haversine q)).idxOf a], List.getElem?_eq_getElem hi', fun p hp => ?_⟩
    have h1 : haversine q P[(P.map (haversine q)).idxOf a] = a := by
      have := List.getElem_idxOf hi
      rw [List.getElem_map] at this
      exact this
    rw [h1]
    have h2 : haversine q p ∈ P.map (haversine q) := List.mem_map_of_mem hp
    exact List.le_of_mem_argmin (f := id) h2 ha
  · intro P P' q q' h
    have : P'.map (haversine q') = P.map (haversine q) := by
      induction h with
      | nil => rfl
      | cons h _ ih => rw [List.map_cons, List.map_cons, h, ih]
    simp only [this]

theorem corresponding_verdict {Q : EddyObj → EddyObj → Prop} (hQ : Congruent Q) {c : Criteria ℝ} {L : Libs} {S S' : Fields} {l l' : ℝ}
    {vs vs' : List (Vertex ℝ)} (hne : vs ≠ []) (hne' : vs' ≠ []) (h : Corresponding Q (examine c L S l vs) (examine c L S' l' vs')) :
    VerdictRel (SameRowOf Q) c (measures c L S l vs) (measures c L S' l' vs') := by
  unfold VerdictRel
  rw [verdict_measures, verdict_measures]
  cases ho : examine c L S l vs with
  | error a =>
    rw [ho] at h
    cases ho' : examine c L S' l' vs' with
    | error b =>
      rw [ho'] at h
      cases h
      exact ⟨rfl, fun h => by cases h⟩
    | ok o' => rw [ho'] at h; cases h
  | ok o =>
    rw [ho] at h
    cases ho' : examine c L S' l' vs' with
    | error b => rw [ho'] at h; cases o <;> cases h
    | ok o' =>
      rw [ho'] at h
      cases o with
      | skipped => cases o' with
        | skipped => exact ⟨rfl, fun h => by cases h⟩
        | discarded b => cases h
        | stored e' => cases h
      | discarded a => cases o' with
        | skipped => cases h
        | discarded b =>
          cases h
          exact ⟨rfl, fun h => by cases h⟩
        | stored e' => cases h
      | stored e => cases o' with
        | skipped => cases h
        | discarded b => cases h
        | stored e' =>
          refine ⟨rfl, fun _ => ?_⟩
          have h1 : (measures c L S l vs).row0 :: (measures c L S l vs).rows = e.rows := measures_points hne ho
          have h2 : (measures c L S' l' vs').row0 :: (measures c L S' l' vs').rows = e'.rows := measures_points hne' ho'
          rw [h1, h2, List.forall₂_iff_get]
          have hQe : Q e e' := h
          have hlen := hQ.points hQe
          refine ⟨by simp [EddyObj.rows, EddyObj.data, hlen], ?_⟩
          intro i g1 g2
          refine ⟨e, e', i, hQe, ?_, ?_⟩
          · exact List.getElem?_eq_getElem (l := e.rows) g1
          · exact List.getElem?_eq_getElem (l := e'.rows) g2

theorem columns_scores {e : EddyObj} {row : Cols} (h : row ∈ tableRows e.data) :
    score "contour_ellipse_error" row = e.ellipseError ∧ score "contour_gaussian_error" row = e.gaussError := by
  obtain ⟨p, -, rfl⟩ := List.mem_map.1 h
  constructor
  · simp only [score, columns, EddyObj.data]
    cases e.ellipseError <;> simp
  · simp only [score, columns, EddyObj.data]
    cases e.gauss <;> cases e.gaussError <;> simp

/-- **C126** Two runs, on different data, with any number of levels (the second possibly at other levels `f l`, zero for zero): if at
each time the contours of each level are treated alike and the eddies correspond, with the same numbers of contour points, radii, great-circle distances between extrema and scores, then the
tables have the same identifiers, times and numbers of rows, and each row is that of the corresponding contour point of the corresponding
eddy; or both runs raise the same exception. The same holds for the frames written on the way. -/
theorem C126_distances_and_radii {prunes : Bool} {nn : List (ℝ × ℝ) → ℝ × ℝ → Nat} (hnn : ByDistance nn) {Q : EddyObj → EddyObj → Prop}
    (hQ : Congruent Q) {c : Criteria ℝ} {L : Libs} {field field' : Int → Fields} {levels : List ℝ} {t0 : Int} {tf : Option Int} {T : Nat}
    (hf : ∀ t ∈ trackTimes t0 tf T, (field t).Ok) (hf' : ∀ t ∈ trackTimes t0 tf T, (field' t).Ok)
    {f : ℝ → ℝ} (h0 : ∀ l, f l = 0 ↔ l = 0)
    (hc : ∀ t ∈ trackTimes t0 tf T, ∀ l ∈ levels, l ≠ 0 → List.Forall₂ (Corresponding Q)
      ((contourList L (field t) l).map (examine c L (field t) l)) ((contourList L (field' t) (f l)).map (examine c L (field' t) (f l))))
    (ntimes : Int) (online : Bool) {regs regs' : Regs Cols} (hr : StoreEmpty regs) (hr' : StoreEmpty regs') :
    ResRel (RunRel (SameRowOf Q)) (trackFields (colsEnv prunes nn) c L field levels t0 tf T ntimes online regs).2
      (trackFields (colsEnv prunes nn) c L field' (levels.map f) t0 tf T ntimes online regs').2 := by
  rw [(trackFields_pure (colsEnv prunes nn) c L hf hr).1, (trackFields_pure (colsEnv prunes nn) c L hf' hr').1]
  have hrad : ∀ a b, SameRowOf Q a b → (colsEnv prunes nn).radius b = (colsEnv prunes nn).radius a := by
    rintro a b ⟨e, e', i, h, h1, h2⟩
    show column "radius_eddy" b = column "radius_eddy" a
    rw [(columns_read (List.mem_of_getElem? h1)).2.2.1, (columns_read (List.mem_of_getElem? h2)).2.2.1]
    exact hQ.radius h
  have hdist : ∀ a b a' b', SameRowOf Q a b → SameRowOf Q a' b' → (colsEnv prunes nn).dist ((colsEnv prunes nn).pos b) ((colsEnv prunes nn).pos b') =
      (colsEnv prunes nn).dist ((colsEnv prunes nn).pos a) ((colsEnv prunes nn).pos a') := by
    rintro a b a' b' ⟨e, e', i, h, h1, h2⟩ ⟨f, f', j, g, g1, g2⟩
    show haversine (ballTreePoint (column "maxima_y" b) (column "maxima_x" b)) (ballTreePoint (column "maxima_y" b') (column "maxima_x" b')) =
      haversine (ballTreePoint (column "maxima_y" a) (column "maxima_x" a)) (ballTreePoint (column "maxima_y" a') (column "maxima_x" a'))
    have k1 := columns_read (List.mem_of_getElem? h1)
    have k2 := columns_read (List.mem_of_getElem? h2)
    have k3 := columns_read (List.mem_of_getElem? g1)
    have k4 := columns_read (List.mem_of_getElem? g2)
    rw [k1.1, k1.2.1, k2.1, k2.2.1, k3.1, k3.2.1, k4.1, k4.2.1, C83_great_circle, C83_great_circle]
    exact hQ.distance h g
  have halike : AlikeSearch (colsEnv prunes nn) (colsEnv prunes nn) := hnn
  refine timeTracking_isometry rfl hrad hdist halike ?_ ntimes online
  intro t ht
  unfold pureSnapshot
  refine detectSnapshot_isometry rfl hrad hdist halike ?_ h0 ?_
  · rintro a b a' b' ⟨e, e', i, h, h1, h2⟩ ⟨f, f', j, g, g1, g2⟩
    show scoreLt (score "contour_ellipse_error" b') (score "contour_ellipse_error" b) = true ∧
        scoreLt (score "contour_gaussian_error" b') (score "contour_gaussian_error" b) = true ↔
      scoreLt (score "contour_ellipse_error" a') (score "contour_ellipse_error" a) = true ∧
        scoreLt (score "contour_gaussian_error" a') (score "contour_gaussian_error" a) = true
    have k1 := columns_scores (List.mem_of_getElem? h1)
    have k2 := columns_scores (List.mem_of_getElem? h2)
    have k3 := columns_scores (List.mem_of_getElem? g1)
    have k4 := columns_scores (List.mem_of_getElem? g2)
    rw [k1.1, k1.2, k2.1, k2.2, k3.1, k3.2, k4.1, k4.2]
    rcases hQ.scores with hs | hs
    · rw [(hs h).1, (hs h).2, (hs g).1, (hs g).2]
    · rw [(hs h).1, (hs h).2, (hs g).1, (hs g).2]
      simp [scoreLt]
  · intro l hl hz
    apply pureLevel_rel
    have hcl := hc t ht l hl hz
    have hne := contourList_ne L (hf t ht) l
    have hne' := contourList_ne L (hf' t ht) (f l)
    unfold levelMeasures
    revert hcl hne hne'
    generalize contourList L (field t) l = cs
    generalize contourList L (field' t) (f l) = cs'
    intro hcl hne hne'
    rw [List.forall₂_map_left_iff, List.forall₂_map_right_iff] at hcl ⊢
    rw [List.forall₂_iff_get] at hcl ⊢
    refine ⟨hcl.1, fun i g1 g2 => ?_⟩
    exact corresponding_verdict hQ (hne _ (List.get_mem _ _)) (hne' _ (List.get_mem _ _)) (hcl.2 i g1 g2)

/-! ### the hemispheres -/

theorem centralAngle_mirror (y x y' x' : ℝ) : centralAngle (-y) x (-y') x' = centralAngle y x y' x' := by
  rw [← C83_great_circle, ← C83_great_circle]
  unfold haversine ballTreePoint
  have h1 : (1 / 2 : ℝ) * (-y * (Real.pi / 180) - -y' * (Real.pi / 180)) = -(1 / 2 * (y * (Real.pi / 180) - y' * (Real.pi / 180))) := by ring
  simp only [h1, Real.sin_neg, neg_sq]
  rw [neg_mul, neg_mul, Real.cos_neg, Real.cos_neg]

theorem SameRowOf.mono {Q Q' : EddyObj → EddyObj → Prop} (h : ∀ e e', Q e e' → Q' e e') {r r' : Cols} (hr : SameRowOf Q r r') : SameRowOf Q' r r' := by
  obtain ⟨e, e', i, h1, h2⟩ := hr
  exact ⟨e, e', i, h e e' h1, h2⟩

theorem RunRel.mono {α β : Type} {R R' : α → β → Prop} (h : ∀ a b, R a b → R' a b) {s : LoopState α} {s' : LoopState β} (hs : RunRel R s s') :
    RunRel R' s s' := by
  have ht : ∀ {t : Tbl (Int × α)} {t' : Tbl (Int × β)}, TblRel (TimedRel R) t t' → TblRel (TimedRel R') t t' := fun ht =>
    ⟨ht.1, ht.2.imp fun r r' hr => ⟨hr.1, hr.2.1, hr.2.2.1, h _ _ hr.2.2.2⟩⟩
  exact ⟨ht hs.table, hs.processed, hs.written.imp fun w w' hw => ⟨hw.1, ht hw.2⟩⟩

theorem ResRel.mono {A B : Type} {R R' : A → B → Prop} (h : ∀ a b, R a b → R' a b) {x : Except PyErr A} {y : Except PyErr B} (hx : ResRel R x y) :
    ResRel R' x y := by
  cases x <;> cases y
  · exact hx
  · exact hx
  · exact hx
  · exact h _ _ hx

theorem stored_noGauss {c : Criteria ℝ} (hc : c.skipGauss = true) {L : Libs} {S : Fields} {l : ℝ} {vs : List (Vertex ℝ)} {e : EddyObj}
    (h : examine c L S l vs = .ok (.stored e)) : e.gaussError = some 0 := by
  obtain ⟨-, -, curve, i, hst⟩ := examine_stored.1 h
  rcases hst.gauss with ⟨-, -, h⟩ | ⟨h, -⟩
  · exact h
  · rw [hc] at h; cases h

/-- mirrored eddies, without Gaussian scores -/
def MirroredNoGauss (e e' : EddyObj) : Prop := MirroredEddy e e' ∧ e.gaussError = some 0

theorem mirrored_congruent : Congruent MirroredNoGauss where
  points h := by rw [h.1.contour, List.length_map]
  radius h := h.1.radius
  distance {e e' f f'} h g := by
    unfold EddyObj.place
    rw [h.1.maxima, g.1.maxima]
    exact centralAngle_mirror _ _ _ _
  scores := Or.inr fun h => ⟨h.2, h.1.gaussError.trans h.2⟩

/-- **C125** for whole runs, partial: without the Gaussian fit, with a threshold for the similarity of at least one, on rectilinear
grids whose contours meet `MirrorReady`, with any number of levels, the run on the data with latitudes of opposite sign gives the
mirrored table: the same identifiers and times, each row that of the mirrored contour point of the mirrored eddy; or the same exception.
What is missing: as in `C125_partial`. -/
theorem C125_partial_run {prunes : Bool} {nn : List (ℝ × ℝ) → ℝ × ℝ → Nat} (hnn : ByDistance nn) {c : Criteria ℝ} (hc : c.skipGauss = true)
    (h1 : 1 ≤ c.ellipseFit) {L : Libs} (hL : L.Nearest) {field : Int → Fields} {levels : List ℝ} {t0 : Int} {tf : Option Int} {T : Nat}
    (hf : ∀ t ∈ trackTimes t0 tf T, (field t).Ok ∧ (field t).Rectilinear)
    (hv : ∀ t ∈ trackTimes t0 tf T, ∀ l ∈ levels, l ≠ 0 → ∀ vs ∈ contourList L (field t) l, ∀ pts : List (ℝ × ℝ), vs = pts.map some →
      MirrorReady (field t) pts) (ntimes : Int) (online : Bool) {regs regs' : Regs Cols} (hr : StoreEmpty regs) (hr' : StoreEmpty regs') :
    ResRel (RunRel (SameRowOf MirroredEddy)) (trackFields (colsEnv prunes nn) c L field levels t0 tf T ntimes online regs).2
      (trackFields (colsEnv prunes nn) c L (fun t => (field t).mirrored) levels t0 tf T ntimes online regs').2 := by
  have hid : levels = levels.map id := (List.map_id _).symm
  conv => rhs; rw [hid]
  refine ResRel.mono (fun _ _ => RunRel.mono fun _ _ => SameRowOf.mono fun _ _ h => h.1) (C126_distances_and_radii hnn mirrored_congruent
    (fun t ht => (hf t ht).1) (fun t ht => (field t).mirrored_ok (hf t ht).1) (fun _ => Iff.rfl) ?_ ntimes online hr hr')
  intro t ht l hl h0
  have hcl := contourList_mirror L (hf t ht).1 l
  rw [hcl, List.map_map, List.forall₂_map_left_iff, List.forall₂_map_right_iff, List.forall₂_same]
  intro vs hvs
  have he := (examine_mirror hc hL (hf t ht).2 l (contourList_ne L (hf t ht).1 l vs hvs) (hv t ht l hl h0 vs hvs)).resolve_right fun h => h.1 h1
  simp only [Function.comp_apply]
  have hg : ∀ e, examine c L (field t) l vs = .ok (.stored e) → e.gaussError = some 0 := fun e he => stored_noGauss hc he
  revert he hg
  cases examine c L (field t) l vs with
  | error a => cases examine c L (field t).mirrored l (vs.map (Option.map mirrorPt)) <;> exact fun h _ => h
  | ok o =>
    cases examine c L (field t).mirrored l (vs.map (Option.map mirrorPt)) with
    | error b => cases o <;> exact fun h _ => h
    | ok o' =>
      cases o <;> cases o' <;> intro he hg
      all_goals first | exact ⟨he, hg _ rfl⟩ | exact he

/-! ### the origin of the longitudes -/

theorem around_congruent (k : ℤ) : Congruent (SameEddyAround k) where
  points h := by rw [h.contour, List.length_map]
  radius h := h.radius
  distance {e e' f f'} h g := by
    unfold EddyObj.place
    rw [h.maxima, g.maxima, ← C83_great_circle, ← C83_great_circle]
    have := C83_turns e.maxima.2.1 e.maxima.2.2 f.maxima.2.1 f.maxima.2.2 k k
    simpa [mul_comm] using this
  scores := Or.inl fun h => ⟨h.ellipseError, h.gaussError⟩

/-- **C106** for whole runs, partial: without the Gaussian fit, under the conditions of `C106_partial` for every contour, with any number
of levels, the run on the data with longitudes counted `k` turns further gives the same table: same identifiers and times, each row that
of the same contour point of the same eddy, longitudes `360 k` higher; or the same exception. What is missing: as in `C106_partial`. -/
theorem C106_partial_run {prunes : Bool} {nn : List (ℝ × ℝ) → ℝ × ℝ → Nat} (hnn : ByDistance nn) {c : Criteria ℝ} (hc : c.skipGauss = true)
    {L : Libs} (hL : L.Nearest) (k : ℤ) {field : Int → Fields} {levels : List ℝ} {t0 : Int} {tf : Option Int} {T : Nat}
    (hf : ∀ t ∈ trackTimes t0 tf T, (field t).Ok ∧ (field t).Rectilinear)
    (hv : ∀ t ∈ trackTimes t0 tf T, ∀ l ∈ levels, l ≠ 0 → ∀ vs ∈ contourList L (field t) l,
      Cntr.skipsContour (vs.map (Option.map fun p => (p.1 + 360 * (k : ℝ), p.2))) = Cntr.skipsContour vs ∧
      ∀ pts : List (ℝ × ℝ), vs = pts.map some → ∀ v ∈ pts, ∃ p, (field t).ClearPixel (meanPt pts) v p)
    (ntimes : Int) (online : Bool) {regs regs' : Regs Cols} (hr : StoreEmpty regs) (hr' : StoreEmpty regs') :
    ResRel (RunRel (SameRowOf (SameEddyAround k))) (trackFields (colsEnv prunes nn) c L field levels t0 tf T ntimes online regs).2
      (trackFields (colsEnv prunes nn) c L (fun t => (field t).around k) levels t0 tf T ntimes online regs').2 := by
  have hid : levels = levels.map id := (List.map_id _).symm
  conv => rhs; rw [hid]
  refine C126_distances_and_radii hnn (around_congruent k) (fun t ht => (hf t ht).1) (fun t ht => (field t).around_ok (hf t ht).1 k)
    (fun _ => Iff.rfl) ?_ ntimes online hr hr'
  intro t ht l hl h0
  refine (C106_partial hc hL (hf t ht).1 (hf t ht).2 l k (hv t ht l hl h0)).2.1.imp fun o o' h => ?_
  cases o with
  | error a => cases o' <;> exact h
  | ok o =>
    cases o' with
    | error b => cases o <;> exact h
    | ok o' => cases o <;> cases o' <;> exact h

/-- the hypotheses of the three theorems hold for a map with an eddy, repeated at all times -/
example : ∃ nn, IsNN haversine nn ∧ ByDistance nn ∧ Congruent MirroredNoGauss ∧ exCriteria.skipGauss = true ∧ 1 ≤ exCriteria.ellipseFit ∧
    exLibs.Nearest ∧ (∀ t ∈ trackTimes 0 none 4, ((fun _ : Int => orField) t).Ok ∧ ((fun _ : Int => orField) t).Rectilinear) ∧
    (∀ t ∈ trackTimes 0 none 4, ∀ l ∈ [(0 : ℝ), 3 / 5], l ≠ 0 → ∀ vs ∈ contourList exLibs ((fun _ : Int => orField) t) l,
      ∀ pts : List (ℝ × ℝ), vs = pts.map some → MirrorReady ((fun _ : Int => orField) t) pts) ∧
    (∀ t ∈ trackTimes 0 none 4, ∀ l ∈ [(0 : ℝ), 3 / 5], l ≠ 0 → ∀ vs ∈ contourList exLibs ((fun _ : Int => orField) t) l,
      Cntr.skipsContour (vs.map (Option.map fun p => (p.1 + 360 * ((1 : ℤ) : ℝ), p.2))) = Cntr.skipsContour vs ∧
      ∀ pts : List (ℝ × ℝ), vs = pts.map some → ∀ v ∈ pts, ∃ p, ((fun _ : Int => orField) t).ClearPixel (meanPt pts) v p) ∧
    ∃ s, (trackFields (colsEnv true nn) exCriteria exLibs (fun _ => orField) [3 / 5] 0 none 1 1 true Regs.empty).2 = .ok s ∧ s.table.rows ≠ [] := by
  obtain ⟨nn, h1, h2⟩ := exists_byDistance
  have hl : ∀ l : ℝ, l ∈ [(0 : ℝ), 3 / 5] → l ≠ 0 → l = 3 / 5 := by
    intro l hl h0
    simp only [List.mem_cons, List.not_mem_nil, or_false] at hl
    exact hl.resolve_left h0
  refine ⟨nn, h1, h2, mirrored_congruent, rfl, le_rfl, exLibs_nearest, fun _ _ => ⟨orField_ok, orField_rect⟩, ?_, ?_, ?_⟩
  · intro t _ l h h0
    rw [hl l h h0]
    exact orReady
  · intro t _ l h h0
    rw [hl l h h0]
    show ∀ vs ∈ contourList exLibs orField (3 / 5), _
    rw [orField_contours]
    intro vs hvs
    rw [List.mem_singleton] at hvs
    subst hvs
    refine ⟨orSkips.trans exSkips.symm, fun pts h => ?_⟩
    have : exPts = pts := List.map_injective_iff.2 (Option.some_injective _) h
    subst this
    exact fun v hv => ⟨_, orClear v hv⟩
  · obtain ⟨e, he⟩ := orStored
    obtain ⟨s, g1, g2⟩ := run_single h1 (by norm_num) orField_ok (orField_contours exLibs) he
    exact ⟨s, g1, g2.2 ⟨e, rfl⟩⟩

end Trackeddy
