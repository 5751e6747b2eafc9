import Verif.Proofs.Reversed
import Verif.Props.Region

/-!
C117: the order in which latitudes and longitudes are stored.
-/
namespace Trackeddy
open Spec
open Cntr (Vertex)

variable {O : Series} {s : SpaceFilter} (ns ew : Bool)

/-- **C117, partial** At every time and level the contours of the reversed series are the same polygons, in some order, some of them from another
vertex or in the other direction. What is missing: what depends on the start and the direction (see `C117_refuted`). -/
theorem C117_partial_contours (L : Libs) (t : ℕ) (l : ℝ) :
    SamePolygons (contourList L (O.seen s t) l) (contourList L ((O.reversed ns ew).seen s t) l) := by
  rw [contourList_same (seen_reversed O s ns ew t) (reversed_ok (fields_ok _ _) ns ew)]
  exact contourList_reversed (fields_ok _ _) ns ew L l

theorem reversed_mono {l : List ℝ} {b : Bool} (h : MonoAxis l.length fun i => l.getD i 0) :
    MonoAxis (if b then l.reverse else l).length fun i => (if b then l.reverse else l).getD i 0 := by
  cases b
  · exact h
  · have hl : (if true then l.reverse else l).length = l.length := by simp
    rw [hl]
    rcases h with h | h
    · right
      intro i j hij hj
      have h1 := h (fromEnd true l.length j) (fromEnd true l.length i) (by unfold fromEnd; simp only [if_true]; omega) (fromEnd_lt (by omega))
      beta_reduce at h1 ⊢
      rwa [getD_fromEnd (b := true) (by omega : i < l.length), getD_fromEnd (b := true) hj]
    · left
      intro i j hij hj
      have h1 := h (fromEnd true l.length j) (fromEnd true l.length i) (by unfold fromEnd; simp only [if_true]; omega) (fromEnd_lt (by omega))
      beta_reduce at h1 ⊢
      rwa [getD_fromEnd (b := true) (by omega : i < l.length), getD_fromEnd (b := true) hj]

theorem near_reversed {O : Series} {s : SpaceFilter} {ns ew : Bool} (hlon : MonoAxis O.nx fun i => O.lon.getD i 0)
    (hlat : MonoAxis O.ny fun i => O.lat.getD i 0) {L : Libs} (hL : L.Nearest) {c : Criteria ℝ} {t : ℕ} {l : ℝ} {vs : List (Vertex ℝ)} {e : EddyObj}
    (he : examine c L ((O.reversed ns ew).seen s t) l vs = .ok (.stored e)) :
    ∃ pix, List.Forall₂ (NearestNear (O.seen s t).grid (centroid e.contour)) e.contour pix ∧ ExtremumIn (O.seen s t).grid e.data pix := by
  have hG := reversed_grid (fields_ok _ _) (seen_reversed O s ns ew t)
  obtain ⟨_, _, curve, i, hst⟩ := examine_stored.1 he
  obtain ⟨pix, h4, h5⟩ := dataInContour_extremum hst.data hst.maxima_ne hst.sign hst.maxima
  set S := (O.reversed ns ew).seen s t
  have hne : masked S.data.rows S.data.cols ((⟨S.data.rows, S.data.cols, S.X.get, S.Y.get⟩ : Grid ℝ).mask (meanPt e.contour)) ≠ [] := by
    intro h0
    have := hst.data
    unfold dataInContour at this
    simp only [h0, if_true] at this
    cases this
  have hrect : S.Rectilinear := ⟨_, _, fun _ _ => rfl, fun _ _ => rfl, reversed_mono hlon, reversed_mono hlat⟩
  have hpix : List.Forall₂ (NearestNear S.grid (centroid e.contour)) e.contour pix :=
    forall₂_map_pix h4 fun v _ q hq => pixel_nearest hL hrect hne hq
  have hin : ∀ p ∈ pix, p.1 < (O.seen s t).grid.ny ∧ p.2 < (O.seen s t).grid.nx := by
    intro p hp
    obtain ⟨k, hk, rfl⟩ := List.mem_iff_getElem.1 hp
    have h6 := (List.forall₂_iff_get.1 hpix).2 k (by rw [hpix.length_eq]; exact hk) hk
    obtain ⟨⟨a1, a2, _⟩, _⟩ := h6
    rw [← hG.ny, ← hG.nx]
    exact ⟨a1, a2⟩
  refine ⟨pix.map (revNat ns ew (O.seen s t).grid.ny (O.seen s t).grid.nx), ?_, extremumIn_reversed hG hin h5⟩
  rw [List.forall₂_map_right_iff]
  exact hpix.imp fun _ _ h => nearestNear_reversed hG h

/-- **C117, partial** What C92 says of the eddies of a run holds for the run on the reversed series with the series itself: every eddy is a complete
contour line of the anomaly of the series, and the reported extremum is that of this anomaly at the enclosed grid points, with the reported
longitude and latitude. -/
theorem C117_partial_eddies {D : Dataset} {name : String} {v : Variable} {tn yn xn : String} (h : Holds D name (O.reversed ns ew) v tn yn xn)
    {nan : Bool} {o : Tracker} (ho : newTracker D name nan = .ok o) {c : Criteria ℝ} (hs : ValidSetup s)
    (hlon : MonoAxis O.nx fun i => O.lon.getD i 0) (hlat : MonoAxis O.ny fun i => O.lat.getD i 0) {Pt : Type} {E : Env Cols ℝ Pt}
    (hnn : IsNN E.dist E.nn) {L : Libs} (hL : L.Nearest) {levels : List ℝ} {t0 : Int} {tf : Option Int} {ntimes : Int} {regs : Regs Cols}
    {st : LoopState Cols} (ht : InSeries (O.reversed ns ew) t0 tf) (hr : StoreEmpty regs)
    (hst : ({ o with setup := s, criteria := c }.timeTracking E L t0 tf (.array levels) ntimes true regs).2 = .ok st) :
    MadeOfT (fun t rows => ∃ d pts pix, rows = tableRows d ∧ HasContour d pts ∧
      OnContour (O.grid (anomaly s O.ny O.nx (O.z t.toNat))) levels d ∧
      List.Forall₂ (NearestNear (O.grid (anomaly s O.ny O.nx (O.z t.toNat))) (centroid pts)) pts pix ∧
      ExtremumIn (O.grid (anomaly s O.ny O.nx (O.z t.toNat))) d pix) st.table.rows := by
  rw [h.new nan] at ho
  injection ho with ho
  subst ho
  have hm : MadeFrom { freshTracker D v (O.reversed ns ew) nan with setup := s, criteria := c } D v (O.reversed ns ew) := ⟨rfl, rfl, rfl, rfl⟩
  rw [h.run_in hm rfl hs E L ht] at hst
  refine (trackFields_made hnn (fun t _ => fields_ok _ _) hr hst).mono ?_
  rintro t rows ⟨l, hl, hl0, vs, hvs, e, he, hre, ht⟩
  obtain ⟨pix, h1, h2⟩ := near_reversed hlon hlat hL he
  have h3 := onContour_reversed (fields_ok _ _) (seen_reversed O s ns ew t.toNat) hl hl0 hvs he
  rw [fields_grid] at h1 h2 h3
  exact ⟨e.data, e.contour, pix, hre, rfl, h3, h1, h2⟩

/-- no vertex has two nearest grid points -/
def OneNearest (G : Spec.Grid ℝ) (pts : List (ℝ × ℝ)) : Prop := ∀ v ∈ pts, ∀ p q, NearestPoint G v p → NearestPoint G v q → p = q

/-- **C117, partial** If a contour and the same polygon in the reversed series both give an eddy, these have the same level, the same area and radius (if no two consecutive vertices have opposite azimuths), and, if the contour is not too large and no vertex has two
nearest grid points, the same sign and extremum. What is missing: centre, ellipse, eccentricity and the scores, and hence whether the contour gives an
eddy. -/
theorem C117_partial_values {c : Criteria ℝ} {L : Libs} {t : ℕ} {l : ℝ} {vs vs' : List (Vertex ℝ)} {e e' : EddyObj} (hrel : Relisted vs vs')
    (he : examine c L (O.seen s t) l vs = .ok (.stored e)) (he' : examine c L ((O.reversed ns ew).seen s t) l vs' = .ok (.stored e')) :
    Relisted e.contour e'.contour ∧ e'.level = e.level ∧
    (e.contour.IsChain NotOpposite → e'.area = e.area ∧ e'.radius = e.radius) ∧
    ∀ ρ ρ', L.Nearest → (MonoAxis O.nx fun i => O.lon.getD i 0) → (MonoAxis O.ny fun i => O.lat.getD i 0) →
      SmallContour (O.seen s t).grid e.contour ρ → SmallContour (O.seen s t).grid e'.contour ρ' → OneNearest (O.seen s t).grid e.contour →
      e'.sign = e.sign ∧ e'.maxima.1 = e.maxima.1 := by
  obtain ⟨_, h2, curve, i, hst⟩ := examine_stored.1 he
  obtain ⟨_, h2', curve', i', hst'⟩ := examine_stored.1 he'
  have hr : Relisted e.contour e'.contour := by
    rw [h2, h2'] at hrel
    have := Cntr.relisted_map (fun v : Vertex ℝ => v.getD (0, 0)) hrel
    simpa using this
  refine ⟨hr, by rw [hst.lev, hst'.lev], fun hch => ?_, fun ρ ρ' hL hlon hlat hsm hsm' h1 => ?_⟩
  · have := relisted_area hr hch
    exact ⟨by rw [hst.area, hst'.area, this], by rw [hst.radius, hst'.radius, this]⟩
  · obtain ⟨pix', a1', a2'⟩ := near_reversed hlon hlat hL he'
    have he0 : examine c L ((O.reversed false false).seen s t) l vs = .ok (.stored e) := he
    obtain ⟨pix, a1, a2⟩ := near_reversed hlon hlat hL he0
    have key : ∀ {pts : List (ℝ × ℝ)} {pix : List (ℕ × ℕ)} {ρ : ℝ}, SmallContour (O.seen s t).grid pts ρ →
        List.Forall₂ (NearestNear (O.seen s t).grid (centroid pts)) pts pix → List.Forall₂ (NearestPoint (O.seen s t).grid) pts pix := by
      intro pts pix ρ hρ hp
      refine forall₂_map_pix hp fun v hv q hq => ?_
      obtain ⟨b1, b2, b3⟩ := hρ.2 v hv
      exact nearest_of_near hq hρ.1 b1 b2 b3
    have n1 := key hsm a1
    have n2 := key hsm' a1'
    have sub : ∀ {A B : List (ℝ × ℝ)} {pA pB : List (ℕ × ℕ)}, List.Forall₂ (NearestPoint (O.seen s t).grid) A pA →
        List.Forall₂ (NearestPoint (O.seen s t).grid) B pB → OneNearest (O.seen s t).grid B → (∀ x, x ∈ A → x ∈ B) → ∀ p, p ∈ pA → p ∈ pB := by
      intro A B pA pB hA hB hone hAB p hp
      obtain ⟨k, hk, rfl⟩ := List.mem_iff_getElem.1 hp
      have hkA : k < A.length := by rw [hA.length_eq]; exact hk
      have g1 := (List.forall₂_iff_get.1 hA).2 k hkA hk
      obtain ⟨k', hk', hkk⟩ := List.mem_iff_getElem.1 (hAB _ (List.getElem_mem hkA))
      have hkB : k' < pB.length := by rw [← hB.length_eq]; exact hk'
      have g2 := (List.forall₂_iff_get.1 hB).2 k' hk' hkB
      simp only [List.get_eq_getElem] at g1 g2
      have := hone _ (List.getElem_mem hk') _ _ (by rw [hkk]; exact g1) g2
      rw [this]
      exact List.getElem_mem hkB
    have hmem := Cntr.relisted_mem hr
    have one' : OneNearest (O.seen s t).grid e'.contour := fun v hv => h1 v ((hmem v).1 hv)
    obtain ⟨b1, b2⟩ := extremumIn_unique a2 a2' fun p => ⟨sub n1 n2 one' (fun x => (hmem x).2) p, sub n2 n1 h1 (fun x => (hmem x).1) p⟩
    simp only [EddyObj.data, Option.some.injEq] at b1 b2
    exact ⟨by exact_mod_cast b1, b2⟩

/-! ### the example: descending longitudes, latitudes in both orders -/

noncomputable def flSeries : Series where
  T := 1
  lon := [3, 2, 1, 0]
  lat := [0, 1, 2]
  z _ r c := some (if r = 1 ∧ (c = 1 ∨ c = 2) then 1 else 0)

/-- the map with reversed latitudes -/
def flField : Fields := ⟨mrField.X, ⟨3, 4, fun r _ => [2, 1, 0].getD r 0⟩, mrField.data⟩

/-- its contour -/
noncomputable def flPts : List (ℝ × ℝ) := [(2, 3 / 2), (1, 3 / 2), (1 / 2, 1), (1, 1 / 2), (2, 1 / 2), (5 / 2, 1), (2, 3 / 2)]

def flqY : Cntr.NdArr ℚ := ⟨3, 4, fun r _ => [2, 1, 0].getD r 0⟩

theorem flq_contours : Cntr.extractContours mrqX flqY exqZ (1 / 2) 50 Cntr.exMem =
    .ok ([[some (2, 3 / 2), some (1, 3 / 2), some (1 / 2, 1), some (1, 1 / 2), some (2, 1 / 2), some (5 / 2, 1),
      some (2, 3 / 2)]].map .points, [.codes [1, 2, 2, 2, 2, 2, 2]]) := by
  decide +kernel

theorem flField_cast : flqY.cast (Rat.castHom ℝ) = flField.Y := by
  unfold Cntr.NdArr.cast flqY flField
  simp only [Cntr.NdArr.mk.injEq, true_and]
  funext r _
  match r with
  | 0 | 1 | 2 => simp
  | r + 3 => simp

theorem flField_contours (L : Libs) : contourList L flField (1 / 2) = [flPts.map some] := by
  have hS : SameMap ⟨mrqX.cast (Rat.castHom ℝ), flqY.cast (Rat.castHom ℝ), exqZ.castO (Rat.castHom ℝ)⟩ flField := by
    rw [mrField_cast.1, flField_cast, exField_cast.2.2]
    exact ⟨SameArr.refl _, SameArr.refl _, SameArr.refl _⟩
  have := contourList_rat (X := mrqX) (Y := flqY) (Z := exqZ) ⟨rfl, rfl, fun M hM => by cases hM⟩ hS (1 / 2)
    (by decide) flq_contours L
  have e : (((1 / 2 : ℚ) : ℝ)) = 1 / 2 := by norm_num
  rw [e] at this
  rw [this]
  simp [flPts]

theorem flMean : meanPt flPts = (11 / 7, 15 / 14) := by
  unfold meanPt flPts
  simp only [List.map_cons, List.map_nil, List.sum_cons, List.sum_nil, List.length_cons, List.length_nil]
  norm_num

theorem flGeneric : Generic flPts := by
  intro A B C D E h
  rw [flMean] at h
  have h1 := h (1, 1 / 2) (by simp [flPts])
  have h2 := h (2, 1 / 2) (by simp [flPts])
  have h3 := h (5 / 2, 1) (by simp [flPts])
  have h4 := h (2, 3 / 2) (by simp [flPts])
  have h5 := h (1, 3 / 2) (by simp [flPts])
  have h6 := h (1 / 2, 1) (by simp [flPts])
  unfold form at h1 h2 h3 h4 h5 h6
  simp only at h1 h2 h3 h4 h5 h6
  norm_num at h1 h2 h3 h4 h5 h6
  refine ⟨?_, ?_, ?_, ?_, ?_⟩ <;> linarith

/-- the fitted conic -/
noncomputable def flConic : Conic := ⟨49 / 48, 0, 147 / 48, 7 / 48, 7 / 16⟩

theorem flFitConic : fitConic flPts = .ok flConic := by
  apply fitConic_exact
  · intro p hp
    rw [flMean]
    unfold OnConic form flConic
    simp only [flPts, List.mem_cons, List.not_mem_nil, or_false] at hp
    rcases hp with rfl | rfl | rfl | rfl | rfl | rfl | rfl <;> norm_num
  · exact (det_ne_zero_iff_generic _).2 flGeneric

theorem flNotTilted : ¬ Tilted flConic := by
  unfold Tilted flConic
  norm_num

theorem flRotate : rotateConic flConic (11 / 7, 15 / 14) = (flConic, (11 / 7, 15 / 14)) := by
  unfold rotateConic
  rw [if_neg flNotTilted]

theorem flF : conicF flConic = 49 / 48 := by
  unfold conicF flConic
  norm_num

theorem flFinite : FiniteEllipse flPts := by
  intro q hq
  rw [flFitConic] at hq
  injection hq with hq
  subst hq
  rw [flMean, flRotate]
  unfold flConic
  norm_num

theorem flEllPoint (t : ℝ) : ellipsePoint flConic (11 / 7, 15 / 14) t = (3 / 2 + Real.cos t, 1 + 1 / Real.sqrt 3 * Real.sin t) := by
  unfold ellipsePoint
  simp only [flRotate, flF]
  have hphi : phiOf flConic = 0 := by unfold phiOf; rw [if_neg flNotTilted]
  rw [hphi]
  have h1 : |(49 / 48 : ℝ) / flConic.a| = 1 := by unfold flConic; norm_num
  have h2 : |(49 / 48 : ℝ) / flConic.c| = 1 / 3 := by unfold flConic; norm_num
  rw [h1, h2, Real.sqrt_one, Real.sqrt_div zero_le_one, Real.sqrt_one]
  simp only [Real.cos_zero, Real.sin_zero]
  unfold flConic
  norm_num

theorem flFit : fitEllipse flPts = .ok (exCurve, (1, 1 / Real.sqrt 3, some 0)) := by
  unfold fitEllipse
  have hlen : flPts.length = 7 := by simp [flPts]
  rw [flFitConic]
  simp only [bind, Except.bind, pure, Except.pure, flMean, hlen, Except.ok.injEq, Prod.mk.injEq]
  have hs : Real.sqrt 3 * Real.sqrt 3 = 3 := Real.mul_self_sqrt (by norm_num)
  have hp : 0 < Real.sqrt 3 := Real.sqrt_pos.2 (by norm_num)
  have hax : semiAxes flConic (11 / 7, 15 / 14) = (1, 1 / Real.sqrt 3) := by
    unfold semiAxes
    simp only [flRotate, flF]
    have h1 : |(49 / 48 : ℝ) / flConic.a| = 1 := by unfold flConic; norm_num
    have h2 : |(49 / 48 : ℝ) / flConic.c| = 1 / 3 := by unfold flConic; norm_num
    rw [h1, h2, Real.sqrt_one, Real.sqrt_div zero_le_one, Real.sqrt_one]
  refine ⟨?_, ?_, ?_, ?_⟩
  · have := exFit
    unfold fitEllipse at this
    rw [exFitConic] at this
    simp only [bind, Except.bind, pure, Except.pure, exMean, Except.ok.injEq, Prod.mk.injEq] at this
    rw [← this.1]
    have h7 : exPts.length = 7 := by simp [exPts]
    rw [h7]
    apply List.map_congr_left
    intro t _
    rw [flEllPoint, exEllPoint]
  · rw [hax]
    exact max_eq_left (by rw [div_le_one hp]; nlinarith)
  · rw [hax]
    exact min_eq_right (by rw [div_le_one hp]; nlinarith)
  · unfold angleOf flConic
    norm_num

theorem flChain : flPts.IsChain NotOpposite := by
  unfold flPts
  simp only [List.isChain_cons_cons, List.isChain_singleton, and_true]
  refine ⟨?_, ?_, ?_, ?_, ?_, ?_⟩ <;> apply notOpposite_quadrant <;> norm_num

theorem flArea : areaPolygon flPts = areaPolygon exCurve := by
  have := C33_first_vertex (2, 3 / 2) (5 / 2, 1) [(1, 3 / 2), (1 / 2, 1), (1, 1 / 2), (2, 1 / 2)] []
  simpa [flPts, exCurve] using this

theorem flRelisted : Relisted mrPts flPts := by
  refine ⟨[(2, 3 / 2), (5 / 2, 1), (2, 1 / 2), (1, 1 / 2), (1 / 2, 1), (1, 3 / 2), (2, 3 / 2)],
    Or.inr ⟨(2, 1 / 2), (2, 3 / 2), [(1, 1 / 2), (1 / 2, 1), (1, 3 / 2)], [(5 / 2, 1)], ?_, ?_⟩, Or.inr ?_⟩
  · simp [mrPts]
  · simp
  · simp [flPts]

theorem flDist : ∃ d, Frechet.frdist 100 eucl flPts exCurve = .ok d ∧ 0 ≤ d ∧ d ≤ Real.sqrt (1 / 2) := by
  obtain ⟨d, hd, hA, hB, hmem, hleast⟩ := Frechet.C24_frdist_is_discrete_frechet 100 eucl eucl_symm flPts exCurve
    (by simp [flPts]) (by simp [exCurve]) (Or.inl (by simp [flPts])) (by simp [flPts, exCurve])
  refine ⟨d, hd, ?_, ?_⟩
  · exact Frechet.C25_frdist_nonneg 100 eucl eucl_symm eucl_nonneg _ _ _ hd
  · apply hleast
    refine ⟨[(0, 0), (0, 1), (1, 2), (2, 3), (3, 4), (4, 5), (5, 6), (6, 6)], ⟨rfl, by simp [flPts, exCurve], ?_⟩, ?_⟩
    · simp [Frechet.Spec.Step]
    · constructor
      · refine ⟨(0, 0), by simp, (2, 3 / 2), (5 / 2, 1), by simp [flPts], by simp [exCurve], ?_⟩
        unfold eucl
        norm_num
      · rintro u ⟨l, hl, a, b, ha, hb, rfl⟩
        simp only [List.mem_cons, List.not_mem_nil, or_false] at hl
        rcases hl with rfl | rfl | rfl | rfl | rfl | rfl | rfl | rfl <;> simp [flPts] at ha <;> simp [exCurve] at hb <;> subst ha hb <;>
          unfold eucl <;> apply Real.sqrt_le_sqrt <;> norm_num

theorem flLength : arcLength flPts = 2 + 2 * Real.sqrt 2 := by
  obtain ⟨h1, -, h2⟩ := sqrt2_bounds
  rw [C28_arcLength_sum]
  simp only [flPts, List.tail_cons, List.zip_cons_cons, List.zip_nil_right, List.map_cons, List.map_nil, List.sum_cons, List.sum_nil]
  rw [eucl_one (p := (2, 3 / 2)) (by norm_num), eucl_one_half (p := (1, 3 / 2)) (by norm_num),
    eucl_one_half (p := (1 / 2, 1)) (by norm_num), eucl_one (p := (1, 1 / 2)) (by norm_num),
    eucl_one_half (p := (2, 1 / 2)) (by norm_num), eucl_one_half (p := (5 / 2, 1)) (by norm_num)]
  field_simp
  nlinarith

theorem flScore : ∃ v, similarity 100 flPts exCurve = .ok (some v) ∧ 3 / 4 < v ∧ v ≤ 1 := by
  obtain ⟨d, hd, h0, h1⟩ := flDist
  obtain ⟨b1, b2, b3⟩ := sqrt2_bounds
  have hA : 0 < Trackeddy.arcLength flPts := by rw [flLength]; positivity
  have hB : 0 < Trackeddy.arcLength exCurve := by rw [mrLength_curve]; positivity
  have hs := similarity_eq (limit := 100) hA hB
  rw [hd] at hs
  obtain ⟨v, d', h3, h4, -, -, h5⟩ := C28_similarity_range 100 hA hB hs
  rw [hd] at h4
  injection h4 with h4
  subst h4
  rw [flLength, mrLength_curve, Real.sqrt_mul_self (by positivity)] at h5
  have hv : similarity 100 flPts exCurve = .ok (some v) := by rw [hs, ← h3]; rfl
  refine ⟨v, hv, ?_, (similarity_unit hv).2⟩
  have h1' : d * Real.sqrt 2 ≤ 1 := by
    have := mul_le_mul_of_nonneg_right h1 (Real.sqrt_nonneg 2)
    rwa [← Real.sqrt_mul (by norm_num), (by norm_num : (1 / 2 : ℝ) * 2 = 1), Real.sqrt_one] at this
  have h3 : d * Real.sqrt 2 / (2 + 2 * Real.sqrt 2) ≤ 22 / 100 := by
    rw [div_le_iff₀ (by positivity)]
    nlinarith
  have h4 : 78 / 100 ≤ max (1 - d * Real.sqrt 2 / (2 + 2 * Real.sqrt 2)) 0 := le_max_of_le_left (by linarith)
  have := (abs_le.1 h5).1
  linarith

/-! ### the data inside -/

theorem flAxis3 {r : Nat} (h : r < 3) : ([2, 1, 0] : List ℝ).getD r 0 = 2 - r := by
  match r with
  | 0 | 1 | 2 => norm_num
  | r + 3 => omega

def flGrid : Grid ℝ := ⟨3, 4, fun _ c => [3, 2, 1, 0].getD c 0, fun r _ => [2, 1, 0].getD r 0⟩

theorem flMask : ∀ r < 3, ∀ c < 4, flGrid.mask (11 / 7, 15 / 14) r c = true := by
  intro r hr c hc
  unfold Grid.mask nearPt flGrid
  simp only [Bool.and_eq_true, decide_eq_true_eq, mrAxis4 hc, flAxis3 hr]
  have h1 : (r : ℝ) ≤ 2 := by exact_mod_cast Nat.le_of_lt_succ hr
  have h2 : (c : ℝ) ≤ 3 := by exact_mod_cast Nat.le_of_lt_succ hc
  have h3 : (0 : ℝ) ≤ r := by positivity
  have h4 : (0 : ℝ) ≤ c := by positivity
  rw [abs_of_pos (by norm_num : (0 : ℝ) < 11 / 7), abs_of_pos (by norm_num : (0 : ℝ) < 15 / 14)]
  constructor <;> rw [abs_le] <;> constructor <;> linarith

theorem flMasked : masked 3 4 (flGrid.mask (11 / 7, 15 / 14)) =
    [(0, 0), (0, 1), (0, 2), (0, 3), (1, 0), (1, 1), (1, 2), (1, 3), (2, 0), (2, 1), (2, 2), (2, 3)] := by
  have e : masked 3 4 (flGrid.mask (11 / 7, 15 / 14)) = masked 3 4 (fun _ _ => true) := by
    unfold masked
    apply List.flatMap_congr
    intro r hr
    congr 1
    apply List.filter_congr
    intro c hc
    exact flMask r (List.mem_range.1 hr) c (List.mem_range.1 hc)
  rw [e]
  decide

theorem flIndex {v : ℝ × ℝ} (hv : v ∈ flPts) :
    mrBallTree flGrid (11 / 7, 15 / 14) v = if v.1 < 3 / 2 then 6 else 5 := by
  unfold mrBallTree
  rw [if_pos]
  unfold Grid.BallTreeAnswer
  simp only [flPts, List.mem_cons, List.not_mem_nil, or_false] at hv
  show ∃ p, (masked 3 4 (flGrid.mask (11 / 7, 15 / 14)))[_]? = some p ∧
    ∀ q ∈ masked 3 4 (flGrid.mask (11 / 7, 15 / 14)), flGrid.dist2 v p ≤ flGrid.dist2 v q
  rw [flMasked]
  unfold Grid.dist2 flGrid
  rcases hv with rfl | rfl | rfl | rfl | rfl | rfl | rfl
  all_goals norm_num

theorem flCode : ∀ v ∈ flPts, codeIndex 3 4 (flGrid.mask (11 / 7, 15 / 14)) (mrBallTree flGrid (11 / 7, 15 / 14) v) =
    .ok (if v.1 < 3 / 2 then (1, 2) else (1, 1)) := by
  intro v hv
  have e : ∀ k, codeIndex 3 4 (flGrid.mask (11 / 7, 15 / 14)) k = codeIndex 3 4 (fun _ _ => true) k := by
    intro k
    have h1 : colSums 3 4 (flGrid.mask (11 / 7, 15 / 14)) = colSums 3 4 fun _ _ => true := by
      unfold colSums
      apply List.map_congr_left
      intro c hc
      apply List.countP_congr
      intro r hr
      rw [flMask r (List.mem_range.1 hr) c (List.mem_range.1 hc)]
    have h2 : rowSums 3 4 (flGrid.mask (11 / 7, 15 / 14)) = rowSums 3 4 fun _ _ => true := by
      unfold rowSums
      apply List.map_congr_left
      intro r hr
      apply List.countP_congr
      intro c hc
      rw [flMask r (List.mem_range.1 hr) c (List.mem_range.1 hc)]
    unfold codeIndex
    rw [h1, h2]
  rw [e, flIndex hv]
  by_cases h : v.1 < 3 / 2
  · rw [if_pos h, if_pos h]
    decide
  · rw [if_neg h, if_neg h]
    decide

theorem flData {e : Extremum ℝ} (he : maskDataInContour 3 4 exWindow.rel.toFinset (cut exWindow flField.data).get = .ok e) :
    dataInContour mrLibs flField flPts = .ok ⟨exWindow, e⟩ := by
  have hgrid : (⟨flField.data.rows, flField.data.cols, flField.X.get, flField.Y.get⟩ : Grid ℝ) = flGrid := rfl
  unfold dataInContour
  rw [hgrid, flMean]
  have hm : masked flGrid.ny flGrid.nx (flGrid.mask (11 / 7, 15 / 14)) ≠ [] := by
    show masked 3 4 (flGrid.mask (11 / 7, 15 / 14)) ≠ []
    rw [flMasked]
    simp
  have hmap : (flPts.mapM fun v => codeIndex flGrid.ny flGrid.nx (flGrid.mask (11 / 7, 15 / 14))
      (mrLibs.ballTree flGrid (11 / 7, 15 / 14) v)) = .ok [(1, 1), (1, 2), (1, 2), (1, 2), (1, 1), (1, 1), (1, 1)] := by
    rw [mapM_ok (g := fun v : ℝ × ℝ => if v.1 < 3 / 2 then ((1 : Nat), (2 : Nat)) else (1, 1))]
    · unfold flPts
      norm_num
    · exact fun v hv => flCode v hv
  simp only [hm, if_false, bind, Except.bind, pure, Except.pure, hmap]
  simp only [List.map_cons, List.map_nil]
  have hw : getWindow flField.data.rows flField.data.cols (((1 : Nat) : Int), ((1 : Nat) : Int))
      [(((1 : Nat) : Int), ((2 : Nat) : Int)), (((1 : Nat) : Int), ((2 : Nat) : Int)), (((1 : Nat) : Int), ((2 : Nat) : Int)),
      (((1 : Nat) : Int), ((1 : Nat) : Int)), (((1 : Nat) : Int), ((1 : Nat) : Int)), (((1 : Nat) : Int), ((1 : Nat) : Int))] .auto =
      exWindow := exGetWindow
  rw [hw, if_pos (by
    show (exWindow.rel.all fun q => decide (0 ≤ q.1 ∧ q.1 < ((3 : Nat) : Int) ∧ 0 ≤ q.2 ∧ q.2 < ((4 : Nat) : Int))) = true
    decide)]
  have he' : maskDataInContour (cut exWindow flField.data).rows (cut exWindow flField.data).cols exWindow.rel.toFinset
    (cut exWindow flField.data).get = .ok e := he
  rw [he']

/-! ### the two outcomes -/

noncomputable def flCriteria (f : ℝ) : Criteria ℝ :=
  ⟨f, 1, 0, Real.sqrt (areaPolygon exCurve / Real.pi) / approxRD (13 / 14) + Real.sqrt (areaPolygon exCurve / Real.pi) / approxRD (15 / 14), true⟩

theorem flSize {l : List (ℝ × ℝ)} (hm : (meanPt l).2 = 13 / 14 ∨ (meanPt l).2 = 15 / 14) (ha : areaPolygon l = areaPolygon exCurve) (f : ℝ) :
    Real.sqrt (areaPolygon l / Real.pi) ≤ (flCriteria f).maxArea * approxRD (meanPt l).2 := by
  have h1 : 0 < approxRD (13 / 14) := by unfold approxRD; positivity
  have h2 : 0 < approxRD (15 / 14) := by unfold approxRD; positivity
  have h0 := Real.sqrt_nonneg (areaPolygon exCurve / Real.pi)
  rw [ha]
  show _ ≤ (Real.sqrt (areaPolygon exCurve / Real.pi) / approxRD (13 / 14) + Real.sqrt (areaPolygon exCurve / Real.pi) / approxRD (15 / 14)) * _
  rcases hm with hm | hm
  · rw [hm, add_mul, div_mul_cancel₀ _ h1.ne']
    have : 0 ≤ Real.sqrt (areaPolygon exCurve / Real.pi) / approxRD (15 / 14) * approxRD (13 / 14) := by positivity
    linarith
  · rw [hm, add_mul, div_mul_cancel₀ _ h2.ne']
    have : 0 ≤ Real.sqrt (areaPolygon exCurve / Real.pi) / approxRD (13 / 14) * approxRD (15 / 14) := by positivity
    linarith

theorem flAreas {l : List (ℝ × ℝ)} (ha : areaPolygon l = areaPolygon exCurve) {f : ℝ} (hf : 0 ≤ f) :
    isclose (areaPolygon l) (areaPolygon exCurve) (1 / 10 * f) = true := by
  rw [ha]
  unfold isclose
  simp only [sub_self, abs_zero, decide_eq_true_eq]
  positivity

theorem flSkips : Cntr.skipsContour (flPts.map some) = false := by
  have h : Cntr.skipsContour (flPts.map some) =
      (Cntr.closeNan (some ((11 : ℝ) / 7)) (some 2) && Cntr.closeNan (some ((15 : ℝ) / 14)) (some (3 / 2))) := by
    unfold Cntr.skipsContour flPts Cntr.meanOf
    simp only [List.map_cons, List.map_nil, Option.map_some, List.all_cons, List.all_nil, Option.isSome_some, Bool.and_true,
      if_true, Option.getD_some, List.sum_cons, List.sum_nil, List.length_cons, List.length_nil]
    norm_num
  rw [h]
  unfold Cntr.closeNan
  norm_num [abs_of_pos]

theorem flStoredUp {f : ℝ} (hf : 3 / 4 ≤ f) : ∃ e, examine (flCriteria f) mrLibs mrField (1 / 2) (mrPts.map some) = .ok (.stored e) ∧ e.contour = mrPts := by
  obtain ⟨v, hv, hv1⟩ := mrScore_up
  obtain ⟨x, h1, h2, h3⟩ := exValue (data := (cut exWindow mrField.data).get) (u := 1) (w := 0) (by norm_num) (by
    intro r hr c hc
    simp only [cut, exWindow, mrField, exField, Int.toNat_zero, Nat.zero_add, hr, hc, and_self, if_true])
  have hM : MrList mrPts := Or.inl rfl
  refine ⟨⟨mrPts, 1 / 2, areaPolygon mrPts, Real.sqrt (areaPolygon mrPts / Real.pi), (1, 1 / Real.sqrt 3, some 0), some v,
    eccentricity 1 (1 / Real.sqrt 3), meanPt mrPts, x.sign, maximaOf mrField ⟨exWindow, x⟩, none, some 0⟩, ?_, rfl⟩
  rw [examine_stored]
  refine ⟨hM.skips, rfl, exCurve, ⟨exWindow, x⟩, ?_⟩
  refine ⟨rfl, rfl, rfl, rfl, rfl, flSize (Or.inl (by rw [hM.mean])) hM.area f, hM.fit, hM.finite, flAreas hM.area (show (0 : ℝ) ≤ f by linarith), rfl, mrEccen, ?_, ?_, mrData h1, rfl, rfl,
    by rw [h2]; exact one_ne_zero, Or.inl ⟨rfl, rfl, rfl⟩⟩
  · show liftFr (similarity 100 mrPts exCurve) = .ok (some v)
    rw [hv]
    rfl
  · rintro ⟨u, hu, h1⟩
    injection hu with hu
    subst hu
    exact absurd h1 (not_lt.2 (hv1.trans hf))

/-- with the threshold one the contour of the reversed map gives an eddy -/
theorem flStoredDown : ∃ e, examine (flCriteria 1) mrLibs flField (1 / 2) (flPts.map some) = .ok (.stored e) ∧ e.contour = flPts := by
  obtain ⟨v, hv, -, hv1⟩ := flScore
  obtain ⟨x, h1, h2, h3⟩ := exValue (data := (cut exWindow flField.data).get) (u := 1) (w := 0) (by norm_num) (by
    intro r hr c hc
    simp only [cut, exWindow, flField, mrField, exField, Int.toNat_zero, Nat.zero_add, hr, hc, and_self, if_true])
  refine ⟨⟨flPts, 1 / 2, areaPolygon flPts, Real.sqrt (areaPolygon flPts / Real.pi), (1, 1 / Real.sqrt 3, some 0), some v,
    eccentricity 1 (1 / Real.sqrt 3), meanPt flPts, x.sign, maximaOf flField ⟨exWindow, x⟩, none, some 0⟩, ?_, rfl⟩
  rw [examine_stored]
  refine ⟨flSkips, rfl, exCurve, ⟨exWindow, x⟩, ?_⟩
  refine ⟨rfl, rfl, rfl, rfl, rfl, flSize (Or.inr (by rw [flMean])) flArea 1, flFit, flFinite, flAreas flArea zero_le_one, rfl, mrEccen, ?_, ?_, flData h1, rfl, rfl,
    by rw [h2]; exact one_ne_zero, Or.inl ⟨rfl, rfl, rfl⟩⟩
  · show liftFr (similarity 100 flPts exCurve) = .ok (some v)
    rw [hv]
    rfl
  · rintro ⟨u, hu, h1⟩
    injection hu with hu
    subst hu
    exact absurd h1 (not_lt.2 hv1)

theorem flDiscarded : examine (flCriteria (3 / 4)) mrLibs flField (1 / 2) (flPts.map some) = .ok (.discarded .similarity) := by
  classical
  obtain ⟨v, hv, hv1, -⟩ := flScore
  unfold examine
  rw [flSkips]
  have hal : allPoints (flPts.map some) = some flPts := by simp [flPts, allPoints]
  simp only [Bool.false_eq_true, if_false, hal]
  unfold examinePoints
  have hsim : liftFr (similarity mrLibs.limit flPts exCurve) = .ok (some v) := by
    show liftFr (similarity 100 flPts exCurve) = .ok (some v)
    rw [hv]
    rfl
  have g1 : ¬ Real.sqrt (areaPolygon flPts / Real.pi) > (flCriteria (3 / 4)).maxArea * approxRD (meanPt flPts).2 :=
    not_lt.2 (flSize (Or.inr (by rw [flMean])) flArea _)
  have g2 : ¬¬ (FiniteEllipse flPts ∧
      isclose (areaPolygon flPts) (areaPolygon exCurve) (1 / 10 * (flCriteria (3 / 4)).ellipseFit) = true) :=
    not_not.2 ⟨flFinite, flAreas flArea (by norm_num [flCriteria])⟩
  have g3 : ¬ gtNan (eccentricity 1 (1 / Real.sqrt 3)) (flCriteria (3 / 4)).eccen := mrEccen
  have g4 : gtNan (some v) (flCriteria (3 / 4)).ellipseFit := ⟨v, rfl, hv1⟩
  simp only [bind, Except.bind, pure, Except.pure]
  rw [if_neg g1, flFit]
  simp only
  rw [if_neg g2, if_neg g3, hsim]
  simp only
  rw [if_pos g4]

/-! ### the two runs -/

theorem mrLibs_proper : mrLibs.Proper := by
  refine ⟨fun g g' h pt v => ?_, fun _ _ _ _ _ _ _ => rfl⟩
  have hm : masked g'.ny g'.nx (g'.mask pt) = masked g.ny g.nx (g.mask pt) := by
    rw [h.ny, h.nx]
    refine masked_same fun r hr c hc => ?_
    unfold Grid.mask
    rw [h.X r hr c hc, h.Y r hr c hc]
  have hB : (fun k => g'.BallTreeAnswer pt v k) = fun k => g.BallTreeAnswer pt v k := by
    funext k
    unfold Grid.BallTreeAnswer
    rw [hm]
    have hd : ∀ q ∈ masked g.ny g.nx (g.mask pt), g'.dist2 v q = g.dist2 v q := by
      intro q hq
      obtain ⟨q1, q2, _⟩ := mem_masked.1 hq
      unfold Grid.dist2
      rw [h.X _ q1 _ q2, h.Y _ q1 _ q2]
    apply propext
    constructor
    · rintro ⟨p, h1, h2⟩
      refine ⟨p, h1, fun q hq => ?_⟩
      rw [← hd p (List.mem_of_getElem? h1), ← hd q hq]
      exact h2 q hq
    · rintro ⟨p, h1, h2⟩
      refine ⟨p, h1, fun q hq => ?_⟩
      rw [hd p (List.mem_of_getElem? h1), hd q hq]
      exact h2 q hq
  exact congrArg (fun B => exChoice B (if v.1 < 3 / 2 then 6 else 5)) hB

/-- unfiltered maps -/
abbrev flFilter : SpaceFilter := .convolution .other 0

theorem flSameUp (t : ℕ) : SameMap mrField (flSeries.seen flFilter t) := by
  refine ⟨SameArr.refl _, SameArr.refl _, rfl, rfl, fun r hr c hc => ?_⟩
  have hr : r < 3 := hr
  have hc : c < 4 := hc
  rw [fields_get _ (show r < flSeries.ny from hr) (show c < flSeries.nx from hc)]
  unfold anomaly
  simp [flSeries, mrField, exField, hr, hc]

theorem flSameDown (t : ℕ) : SameMap flField ((flSeries.reversed true false).seen flFilter t) := by
  refine ⟨SameArr.refl _, SameArr.refl _, rfl, rfl, fun r hr c hc => ?_⟩
  have hr : r < 3 := hr
  have hc : c < 4 := hc
  rw [fields_get _ (show r < (flSeries.reversed true false).ny from hr) (show c < (flSeries.reversed true false).nx from hc)]
  have h1 : fromEnd true flSeries.ny r = 1 ↔ r = 1 := by
    show fromEnd true 3 r = 1 ↔ r = 1
    unfold fromEnd
    simp only [if_true]
    omega
  have h2 : fromEnd false flSeries.nx c = c := by simp [fromEnd]
  unfold anomaly
  simp only [Series.reversed, h2]
  simp [flSeries, flField, mrField, exField, hr, hc]
  simp [← h1, flSeries]

/-- a run over a series of one map with one contour -/
theorem run_series_iff {O : Series} (hT : O.T = 1) (hy : O.ny ≠ 1) (hx : O.nx ≠ 1) {s : SpaceFilter} (hs : ValidSetup s) {nn : List (ℝ × ℝ) → ℝ × ℝ → Nat}
    (hnn : IsNN haversine nn) {c : Criteria ℝ} {L : Libs} {l : ℝ} (hl0 : l ≠ 0) {vs : List (Vertex ℝ)}
    (hcl : contourList L (O.seen s 0) l = [vs]) {out : Outcome} (he : examine c L (O.seen s 0) l vs = .ok out) :
    ∃ (o : Tracker) (st : LoopState Cols), newTracker (storeSeries O) "sla" false = .ok o ∧
      ({ o with criteria := c, setup := s }.timeTracking (colsEnv true nn) L 0 none (.array [l]) 1 true Regs.empty).2 = .ok st ∧
      (st.table.rows ≠ [] ↔ ∃ e, out = .stored e) := by
  obtain ⟨st, h1, h2⟩ := run_single hnn hl0 (fields_ok O _) hcl he
  have hD := storeSeries_holds O hy hx
  refine ⟨_, st, hD.new false, ?_, h2⟩
  rw [hD.run_in (o := { freshTracker (storeSeries O) _ O false with criteria := c, setup := s }) ⟨rfl, rfl, rfl, rfl⟩ rfl hs _ _ (Or.inl rfl), hT]
  have hts : trackTimes 0 none 1 = [0] := by decide
  have : (trackFields (colsEnv true nn) c L (fun t : Int => O.seen s t.toNat) [l] 0 none 1 1 true Regs.empty).2 = .ok st := by
    rw [← h1]
    unfold trackFields
    simp only [hts, List.foldl_cons, List.foldl_nil, Int.toNat_zero]
  exact this

/-- **C117 is false**: a dataset for which the run returns an eddy, while with the latitudes stored in the other order it returns none. (The contour starts at another vertex and has
the other direction; the similarity with the fitted ellipse, whose points have a fixed start and direction, is another one.) -/
theorem C117_refuted : ∃ (O : Series) (s : SpaceFilter) (E : Env Cols ℝ (ℝ × ℝ)) (c : Criteria ℝ) (L : Libs) (l : ℝ) (o o' : Tracker) (st st' : LoopState Cols),
    Ordered O.lon ∧ Ordered O.lat ∧ ValidSetup s ∧ IsNN E.dist E.nn ∧ L.Nearest ∧ L.Proper ∧ c.skipGauss = true ∧
    newTracker (storeSeries O) "sla" false = .ok o ∧ newTracker (storeSeries (O.reversed true false)) "sla" false = .ok o' ∧
    ({ o with criteria := c, setup := s }.timeTracking E L 0 none (.array [l]) 1 true Regs.empty).2 = .ok st ∧ st.table.rows ≠ [] ∧
    ({ o' with criteria := c, setup := s }.timeTracking E L 0 none (.array [l]) 1 true Regs.empty).2 = .ok st' ∧ st'.table.rows = [] := by
  obtain ⟨nn, hnn⟩ := exists_isNN haversine
  obtain ⟨e, he, -⟩ := flStoredUp (f := 3 / 4) le_rfl
  have ok1 : mrField.Ok := ⟨rfl, rfl, fun M hM => by cases hM⟩
  have ok2 : flField.Ok := ⟨rfl, rfl, fun M hM => by cases hM⟩
  obtain ⟨o, st, h1, h2, h3⟩ := run_series_iff (O := flSeries) (s := flFilter) (c := flCriteria (3 / 4)) (L := mrLibs) (l := 1 / 2) rfl (by decide) (by decide) trivial hnn (by norm_num)
    ((contourList_same (flSameUp 0) ok1 _).trans (mrField_contours mrLibs)) ((examine_same mrLibs_proper (flSameUp 0) ok1 _ _ _).trans he)
  obtain ⟨o', st', h1', h2', h3'⟩ := run_series_iff (O := flSeries.reversed true false) (s := flFilter) (c := flCriteria (3 / 4)) (L := mrLibs) (l := 1 / 2) rfl (by decide) (by decide) trivial hnn
    (by norm_num) ((contourList_same (flSameDown 0) ok2 _).trans (flField_contours mrLibs)) ((examine_same mrLibs_proper (flSameDown 0) ok2 _ _ _).trans flDiscarded)
  refine ⟨flSeries, flFilter, colsEnv true nn, flCriteria (3 / 4), mrLibs, 1 / 2, o, o', st, st', ?_, ?_, trivial, hnn, mrLibs_nearest, mrLibs_proper, rfl, h1, h1', h2,
    h3.2 ⟨e, rfl⟩, h2', ?_⟩
  · right; simp only [flSeries]; norm_num
  · left; simp only [flSeries]; norm_num
  · by_contra hn
    obtain ⟨_, hn⟩ := h3'.1 hn
    cases hn

/-! ### a case of the partial theorems: a grid in which the vertices have one nearest point -/

noncomputable def nrSeries : Series where
  T := 1
  lon := [13 / 4, 2, 1, -1 / 4]
  lat := [-1 / 4, 1, 9 / 4]
  z _ r c := some (if r = 1 ∧ (c = 1 ∨ c = 2) then 1 else 0)

noncomputable def nrLat (b : Bool) : List ℝ := if b then [9 / 4, 1, -1 / 4] else [-1 / 4, 1, 9 / 4]

noncomputable def nrField (b : Bool) : Fields := ⟨⟨3, 4, fun _ c => [13 / 4, 2, 1, -1 / 4].getD c 0⟩, ⟨3, 4, fun r _ => (nrLat b).getD r 0⟩, exField.data⟩

noncomputable def nrPts (b : Bool) : List (ℝ × ℝ) := if b then flPts else mrPts

theorem nrField_rect (b : Bool) : (nrField b).Rectilinear := by
  refine ⟨fun c => [13 / 4, 2, 1, -1 / 4].getD c 0, fun r => (nrLat b).getD r 0, fun _ _ => rfl, fun _ _ => rfl, Or.inr ?_, ?_⟩
  · intro i j h hj
    have hj : j < 4 := hj
    interval_cases j <;> interval_cases i <;> norm_num
  · cases b
    · left
      intro i j h hj
      have hj : j < 3 := hj
      interval_cases j <;> interval_cases i <;> norm_num [nrLat]
    · right
      intro i j h hj
      have hj : j < 3 := hj
      interval_cases j <;> interval_cases i <;> norm_num [nrLat]

noncomputable def nrPixel (v : ℝ × ℝ) : ℕ × ℕ := if v.1 < 3 / 2 then (1, 2) else (1, 1)

theorem nrPixels (b : Bool) : (nrPts b).map nrPixel = [(1, 1), (1, 2), (1, 2), (1, 2), (1, 1), (1, 1), (1, 1)] := by
  cases b <;> simp only [nrPts, flPts, mrPts] <;> norm_num [nrPixel]

theorem nrMem {b : Bool} {v : ℝ × ℝ} (hv : v ∈ nrPts b) : v ∈ flPts := by
  cases b
  · exact (Cntr.relisted_mem flRelisted v).2 hv
  · exact hv

theorem nrClear (b : Bool) : ∀ v ∈ nrPts b, (nrField b).ClearPixel (meanPt (nrPts b)) v (nrPixel v) := by
  intro v hv
  replace hv := nrMem hv
  have hm : meanPt (nrPts b) = (11 / 7, if b then 15 / 14 else 13 / 14) := by
    cases b
    · exact MrList.mean (Or.inl rfl)
    · exact flMean
  rw [hm]
  simp only [flPts, List.mem_cons, List.not_mem_nil, or_false] at hv
  have key : ∀ p : ℕ × ℕ, (p = (1, 1) ∨ p = (1, 2)) →
      (∀ r < 3, ∀ c < 4, (r, c) ≠ p → ((nrField b).X.get p.1 p.2 - v.1) ^ 2 + ((nrField b).Y.get p.1 p.2 - v.2) ^ 2 <
        ((nrField b).X.get r c - v.1) ^ 2 + ((nrField b).Y.get r c - v.2) ^ 2) → (nrField b).ClearPixel (11 / 7, if b then 15 / 14 else 13 / 14) v p := by
    intro p hp h
    refine ⟨?_, ?_, ?_, ?_, h⟩
    · show p.1 < 3
      rcases hp with rfl | rfl <;> decide
    · show p.2 < 4
      rcases hp with rfl | rfl <;> decide
    · rcases hp with rfl | rfl <;> simp only [nrField] <;> rw [abs_le] <;> norm_num
    · cases b <;> rcases hp with rfl | rfl <;> simp only [nrField, nrLat] <;> rw [abs_le] <;> norm_num
  apply key
  · unfold nrPixel
    split_ifs <;> simp
  · clear key hm
    cases b <;> rcases hv with rfl | rfl | rfl | rfl | rfl | rfl | rfl <;> unfold nrPixel nrField nrLat <;> norm_num <;>
      intro r hr c hc hne <;> interval_cases r <;> interval_cases c <;>
      first | (exfalso; simp at hne; done) | (clear hne; norm_num)

theorem nrStored (b : Bool) : ∃ e, examine (flCriteria 1) mrLibs (nrField b) (3 / 5) ((nrPts b).map some) = .ok (.stored e) := by
  obtain ⟨i, hi, h0⟩ := orData mrLibs_nearest (nrField_rect b) rfl (fun v hv => clear_nearest (nrClear b v hv)) (nrPixels b)
  cases b
  · obtain ⟨v, hv, hv1⟩ := mrScore_up
    have hM : MrList mrPts := Or.inl rfl
    refine (examine_data (c := flCriteria 1) rfl hM.skips (flSize (Or.inl (by rw [hM.mean])) hM.area 1) hM.fit hM.finite (flAreas hM.area zero_le_one) mrEccen hv ?_).2 i hi h0
    rintro ⟨u, hu, h1⟩
    injection hu with hu
    subst hu
    have h1 : 1 < v := h1
    linarith
  · obtain ⟨v, hv, -, hv1⟩ := flScore
    refine (examine_data (c := flCriteria 1) rfl flSkips (flSize (Or.inr (by rw [flMean])) flArea 1) flFit flFinite (flAreas flArea zero_le_one) mrEccen hv ?_).2 i hi h0
    rintro ⟨u, hu, h1⟩
    injection hu with hu
    subst hu
    exact absurd h1 (not_lt.2 hv1)

theorem nrSame (b : Bool) (t : ℕ) : SameMap (nrField b) ((nrSeries.reversed b false).seen flFilter t) := by
  refine ⟨?_, ?_, by cases b <;> rfl, rfl, fun r hr c hc => ?_⟩
  · cases b <;> exact SameArr.refl _
  · cases b <;> exact SameArr.refl _
  · have hr : r < 3 := hr
    have hc : c < 4 := hc
    rw [fields_get _ (show r < (nrSeries.reversed b false).ny from by cases b <;> exact hr) (show c < (nrSeries.reversed b false).nx from hc)]
    have h1 : fromEnd b nrSeries.ny r = 1 ↔ r = 1 := by
      show fromEnd b 3 r = 1 ↔ r = 1
      unfold fromEnd
      split_ifs <;> omega
    have h2 : fromEnd false nrSeries.nx c = c := by simp [fromEnd]
    unfold anomaly
    simp only [Series.reversed, h2]
    simp [nrSeries, nrField, exField, hr, hc]
    simp [← h1, nrSeries]

theorem nrSmall (b : Bool) : SmallContour (nrSeries.seen flFilter 0).grid (nrPts b) (1 / 2) := by
  have hm : centroid (nrPts b) = (11 / 7, if b then 15 / 14 else 13 / 14) := by
    cases b
    · exact MrList.mean (Or.inl rfl)
    · exact flMean
  refine ⟨by norm_num, fun v hv => ?_⟩
  have hv := nrMem hv
  rw [hm]
  simp only [flPts, List.mem_cons, List.not_mem_nil, or_false] at hv
  refine ⟨?_, ?_, 1, (by decide : 1 < 3), (nrPixel v).2, ?_, ?_⟩
  · rcases hv with rfl | rfl | rfl | rfl | rfl | rfl | rfl <;> rw [abs_le] <;> norm_num
  · rcases hv with rfl | rfl | rfl | rfl | rfl | rfl | rfl <;> cases b <;> rw [abs_le] <;> norm_num
  · show (nrPixel v).2 < 4
    unfold nrPixel
    split_ifs <;> decide
  · show (([13 / 4, 2, 1, -1 / 4] : List ℝ).getD (nrPixel v).2 0 - v.1) ^ 2 + (([-1 / 4, 1, 9 / 4] : List ℝ).getD 1 0 - v.2) ^ 2 ≤ _
    unfold nrPixel
    rcases hv with rfl | rfl | rfl | rfl | rfl | rfl | rfl <;> norm_num

theorem nrOneNearest : OneNearest (nrSeries.seen flFilter 0).grid mrPts := by
  intro v hv p q hp hq
  obtain ⟨c1, c2, -, -, c3⟩ := nrClear false v hv
  have key : ∀ p, NearestPoint (nrSeries.seen flFilter 0).grid v p → p = nrPixel v := by
    intro p hp
    obtain ⟨h1, h2, h3⟩ := hp
    by_contra hne
    have a := c3 p.1 h1 p.2 h2 hne
    have b := h3 (nrPixel v).1 c1 (nrPixel v).2 c2
    exact absurd (lt_of_lt_of_le a b) (lt_irrefl _)
  rw [key p hp, key q hq]

/-- the hypotheses of `C117_partial_values` -/
example : ∃ e e' : EddyObj, examine (flCriteria 1) mrLibs (nrSeries.seen flFilter 0) (3 / 5) (mrPts.map some) = .ok (.stored e) ∧
    examine (flCriteria 1) mrLibs ((nrSeries.reversed true false).seen flFilter 0) (3 / 5) (flPts.map some) = .ok (.stored e') ∧
    Relisted (mrPts.map some) (flPts.map some) ∧ mrLibs.Nearest ∧ (MonoAxis nrSeries.nx fun i => nrSeries.lon.getD i 0) ∧
    (MonoAxis nrSeries.ny fun i => nrSeries.lat.getD i 0) ∧ e.contour.IsChain NotOpposite ∧
    SmallContour (nrSeries.seen flFilter 0).grid e.contour (1 / 2) ∧ SmallContour (nrSeries.seen flFilter 0).grid e'.contour (1 / 2) ∧
    OneNearest (nrSeries.seen flFilter 0).grid e.contour := by
  have ok : ∀ b, (nrField b).Ok := fun b => ⟨rfl, rfl, fun M hM => by cases hM⟩
  obtain ⟨e, he⟩ := nrStored false
  obtain ⟨e', he'⟩ := nrStored true
  have hc : e.contour = mrPts := by
    obtain ⟨_, h2, _⟩ := examine_stored.1 he
    exact (List.map_injective_iff.2 (Option.some_injective _) h2).symm
  have hc' : e'.contour = flPts := by
    obtain ⟨_, h2, _⟩ := examine_stored.1 he'
    exact (List.map_injective_iff.2 (Option.some_injective _) h2).symm
  have hx : MonoAxis nrSeries.nx fun i => nrSeries.lon.getD i 0 := by
    right
    intro i j h hj
    have hj : j < 4 := hj
    interval_cases j <;> interval_cases i <;> norm_num [nrSeries]
  have hy : MonoAxis nrSeries.ny fun i => nrSeries.lat.getD i 0 := by
    left
    intro i j h hj
    have hj : j < 3 := hj
    interval_cases j <;> interval_cases i <;> norm_num [nrSeries]
  refine ⟨e, e', (examine_same mrLibs_proper (nrSame false 0) (ok _) _ _ _).trans he, (examine_same mrLibs_proper (nrSame true 0) (ok _) _ _ _).trans he',
    Cntr.relisted_map some flRelisted, mrLibs_nearest, hx, hy, hc ▸ mrChain, hc ▸ nrSmall false, hc' ▸ nrSmall true, hc ▸ nrOneNearest⟩

/-- the hypotheses of `C117_partial_eddies`: with the threshold one both runs find the eddy -/
example : ∃ (nn : List (ℝ × ℝ) → ℝ × ℝ → Nat) (o' : Tracker) (st' : LoopState Cols) (e e' : EddyObj), IsNN haversine nn ∧ mrLibs.Nearest ∧
    newTracker (storeSeries (flSeries.reversed true false)) "sla" false = .ok o' ∧
    ({ o' with criteria := flCriteria 1, setup := flFilter }.timeTracking (colsEnv true nn) mrLibs 0 none (.array [1 / 2]) 1 true Regs.empty).2 = .ok st' ∧
    st'.table.rows ≠ [] ∧
    examine (flCriteria 1) mrLibs (flSeries.seen flFilter 0) (1 / 2) (mrPts.map some) = .ok (.stored e) ∧
    examine (flCriteria 1) mrLibs ((flSeries.reversed true false).seen flFilter 0) (1 / 2) (flPts.map some) = .ok (.stored e') ∧
    Relisted (mrPts.map some) (flPts.map some) ∧ e.contour.IsChain NotOpposite := by
  obtain ⟨nn, hnn⟩ := exists_isNN haversine
  obtain ⟨e, he, hc⟩ := flStoredUp (f := 1) (by norm_num)
  obtain ⟨e', he', -⟩ := flStoredDown
  have ok1 : mrField.Ok := ⟨rfl, rfl, fun M hM => by cases hM⟩
  have ok2 : flField.Ok := ⟨rfl, rfl, fun M hM => by cases hM⟩
  have g' := (examine_same mrLibs_proper (flSameDown 0) ok2 (flCriteria 1) (1 / 2) (flPts.map some)).trans he'
  obtain ⟨o', st', h1', h2', h3'⟩ := run_series_iff (O := flSeries.reversed true false) (s := flFilter) (c := flCriteria 1) (L := mrLibs) (l := 1 / 2) rfl (by decide) (by decide) trivial hnn
    (by norm_num) ((contourList_same (flSameDown 0) ok2 _).trans (flField_contours mrLibs)) g'
  exact ⟨nn, o', st', e, e', hnn, mrLibs_nearest, h1', h2', h3'.2 ⟨e', rfl⟩, (examine_same mrLibs_proper (flSameUp 0) ok1 _ _ _).trans he, g',
    Cntr.relisted_map some flRelisted, hc ▸ mrChain⟩

end Trackeddy
