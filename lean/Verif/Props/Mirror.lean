import Verif.Proofs.Mirror

/-!
C125: the two hemispheres.
-/
namespace Trackeddy
open Spec
open Cntr (Vertex SameShape arrGrid)

/-- **C28** The similarity of two curves is the same if both are traversed in the opposite direction, as long as one of them has at
most 300 points (otherwise points are left out, and not the same ones from the other end). -/
theorem C28_both_reversed (limit : Nat) {A B : List (ℝ × ℝ)} (h : A.length ≤ 300 ∨ B.length ≤ 300) :
    similarity limit A.reverse B.reverse = similarity limit A B := similarity_reverse limit h

example : mrPts.length ≤ 300 ∨ exCurve.length ≤ 300 := Or.inl (by simp [mrPts])

/-- The second eddy is the first one on the other side of the equator: contour, centre and place of the extremum are mirrored, the
angle of the ellipse has the opposite sign (a quarter turn stays one), everything else is the same. The similarity with the ellipse
is not compared. -/
structure MirroredEddy (e e' : EddyObj) : Prop where
  contour : e'.contour = e.contour.map fun p => (p.1, -p.2)
  level : e'.level = e.level
  area : e'.area = e.area
  radius : e'.radius = e.radius
  axes : e'.ellipse.1 = e.ellipse.1 ∧ e'.ellipse.2.1 = e.ellipse.2.1
  angle : e'.ellipse.2.2 = e.ellipse.2.2.map (fun x => -x) ∨ e.ellipse.2.2 = some (Real.pi / 2) ∧ e'.ellipse.2.2 = some (Real.pi / 2)
  eccen : e'.eccen = e.eccen
  center : e'.center = (e.center.1, -e.center.2)
  sign : e'.sign = e.sign
  maxima : e'.maxima = (e.maxima.1, -e.maxima.2.1, e.maxima.2.2)
  gauss : e'.gauss = e.gauss
  gaussError : e'.gaussError = e.gaussError

/-- the same treatment of two contours, with eddies that are mirror images -/
def MirroredResult : Except PyErr Outcome → Except PyErr Outcome → Prop
  | .error a, .error b => a = b
  | .ok .skipped, .ok .skipped => True
  | .ok (.discarded a), .ok (.discarded b) => a = b
  | .ok (.stored e), .ok (.stored e') => MirroredEddy e e'
  | _, _ => False

/-- the contour is discarded because the similarity with its ellipse is above the threshold -/
def BySimilarity (o : Except PyErr Outcome) : Prop := o = .ok (.discarded .similarity)

/-- what is asked of the vertices of a contour and of its ellipse: no two consecutive vertices in opposite directions from (0, 0), no
vertex and no point of the ellipse at (0, 0) or (180, 0), and every vertex with one nearest grid point in the search box -/
structure MirrorReady (S : Fields) (pts : List (ℝ × ℝ)) : Prop where
  chain : pts.IsChain NotOpposite
  azimuth : ∀ p ∈ pts, HasAzimuth p
  ellipse : ∀ fit, fitEllipse pts = .ok fit → ∀ p ∈ fit.1, HasAzimuth p
  nearest : ∀ v ∈ pts, ∃ p, S.NearestPixel (meanPt pts) v p

theorem examinePoints_mirror {c : Criteria ℝ} (hc : c.skipGauss = true) {L : Libs} (hL : L.Nearest) {S : Fields} (hS : S.Rectilinear) (l : ℝ)
    {pts : List (ℝ × ℝ)} (hne : pts ≠ []) (hr : MirrorReady S pts) :
    let o := examinePoints c L S l pts
    let o' := examinePoints c L S.mirrored l (pts.map mirrorPt)
    MirroredResult o o' ∨ ¬ 1 ≤ c.ellipseFit ∧ (BySimilarity o ∨ BySimilarity o') := by
  classical
  intro o o'
  have hd := dataInContour_mirror hL hS hne hr.nearest
  have ha := area_mirror hr.azimuth hr.chain
  have hm2 : approxRD (mirrorPt (meanPt pts)).2 = approxRD (meanPt pts).2 := approxRD_neg _
  obtain ⟨hf1, hf2⟩ := fitEllipse_mirror pts
  have ho : o = examinePoints c L S l pts := rfl
  have ho' : o' = examinePoints c L S.mirrored l (pts.map mirrorPt) := rfl
  clear_value o o'
  unfold examinePoints at ho ho'
  simp only [bind, Except.bind, pure, Except.pure, ha, meanPt_mirror, finiteEllipse_mirror, hd, hm2] at ho ho'
  by_cases g1 : Real.sqrt (areaPolygon pts / Real.pi) > c.maxArea * approxRD (meanPt pts).2
  · simp only [g1, if_true] at ho ho'
    subst ho ho'
    exact Or.inl rfl
  simp only [g1, if_false] at ho ho'
  cases hf : fitEllipse pts with
  | error e =>
    rw [hf] at ho
    rw [hf1 e hf] at ho'
    subst ho ho'
    exact Or.inl rfl
  | ok fit =>
  obtain ⟨curve, a, b, θ⟩ := fit
  obtain ⟨θ', hf', hang⟩ := hf2 curve a b θ hf
  have har := area_mirror_reverse (hr.ellipse _ hf)
  simp only at har
  rw [hf] at ho
  rw [hf'] at ho'
  simp only [har] at ho ho'
  by_cases hfin : FiniteEllipse pts ∧ isclose (areaPolygon pts) (areaPolygon curve) (1 / 10 * c.ellipseFit) = true
  swap
  · simp only [hfin, not_false_eq_true, if_true] at ho ho'
    subst ho ho'
    exact Or.inl rfl
  simp only [hfin, not_true_eq_false, if_false, and_self] at ho ho'
  by_cases h2 : gtNan (eccentricity a b) c.eccen
  · simp only [h2, if_true] at ho ho'
    subst ho ho'
    exact Or.inl rfl
  simp only [h2, if_false] at ho ho'
  have hsw : similarity L.limit (pts.map mirrorPt) (curve.map mirrorPt).reverse = similarity L.limit curve.reverse pts := by
    rw [← List.map_reverse, similarity_mirror, C28_similarity_symm]
  rw [hsw] at ho'
  rw [C28_similarity_symm] at ho
  cases hs : liftFr (similarity L.limit curve pts) with
  | error e =>
    rw [hs] at ho
    rw [similarity_lengths L.limit curve curve.reverse pts (by simp) e hs] at ho'
    subst ho ho'
    exact Or.inl rfl
  | ok sim =>
  cases hs' : liftFr (similarity L.limit curve.reverse pts) with
  | error e =>
    rw [similarity_lengths L.limit curve.reverse curve pts (by simp) e hs'] at hs
    cases hs
  | ok sim' =>
  have hsim : ∀ {A : List (ℝ × ℝ)} {x : Option ℝ}, liftFr (similarity L.limit A pts) = .ok x → gtNan x c.ellipseFit → ¬ 1 ≤ c.ellipseFit := by
    rintro A x hx ⟨u, rfl, hu⟩ h1
    cases hy : similarity L.limit A pts with
    | error e => rw [hy] at hx; cases e <;> cases hx
    | ok y =>
      rw [hy] at hx
      injection hx with hx
      subst hx
      have := (similarity_unit hy).2
      linarith
  rw [hs] at ho
  rw [hs'] at ho'
  by_cases k1 : gtNan sim c.ellipseFit
  · simp only [k1, if_true] at ho
    exact Or.inr ⟨hsim hs k1, Or.inl ho⟩
  by_cases k2 : gtNan sim' c.ellipseFit
  · simp only [k2, if_true] at ho'
    exact Or.inr ⟨hsim hs' k2, Or.inr ho'⟩
  left
  simp only [k1, k2, if_false] at ho ho'
  cases hi : dataInContour L S pts with
  | error e =>
    rw [hi] at ho ho'
    subst ho ho'
    rfl
  | ok i =>
  simp only [hi, hc, if_true] at ho ho'
  by_cases h4 : i.ext.maxima = 0
  · simp only [h4, if_true] at ho ho'
    subst ho ho'
    rfl
  · simp only [h4, if_false] at ho ho'
    subst ho ho'
    exact ⟨rfl, rfl, rfl, rfl, ⟨rfl, rfl⟩, hang, rfl, rfl, rfl, rfl, rfl, rfl⟩

theorem examine_mirror {c : Criteria ℝ} (hc : c.skipGauss = true) {L : Libs} (hL : L.Nearest) {S : Fields} (hS : S.Rectilinear) (l : ℝ)
    {vs : List (Vertex ℝ)} (hne : vs ≠ []) (hr : ∀ pts : List (ℝ × ℝ), vs = pts.map some → MirrorReady S pts) :
    MirroredResult (examine c L S l vs) (examine c L S.mirrored l (vs.map (Option.map mirrorPt))) ∨
      ¬ 1 ≤ c.ellipseFit ∧ (BySimilarity (examine c L S l vs) ∨ BySimilarity (examine c L S.mirrored l (vs.map (Option.map mirrorPt)))) := by
  unfold examine
  rw [skips_mirror]
  by_cases hsk : Cntr.skipsContour vs = true
  · simp only [hsk, if_true]
    exact Or.inl trivial
  simp only [hsk]
  cases hq : allPoints vs with
  | none =>
    have : allPoints (vs.map (Option.map mirrorPt)) = none := by
      cases hq' : allPoints (vs.map (Option.map mirrorPt)) with
      | none => rfl
      | some qs =>
        exfalso
        have h2 := allPoints_eq.1 hq'
        have h3 : vs = (qs.map mirrorPt).map some := by
          have h4 := congrArg (List.map (Option.map mirrorPt)) h2
          rw [List.map_map, List.map_map] at h4
          rw [List.map_map]
          convert h4 using 1
          · symm
            convert List.map_id vs using 2
            funext v
            cases v <;> simp [mirrorPt]
          · rfl
        rw [allPoints_eq.2 h3] at hq
        cases hq
    rw [this]
    exact Or.inl rfl
  | some pts =>
    have hv := allPoints_eq.1 hq
    have hq' : allPoints (vs.map (Option.map mirrorPt)) = some (pts.map mirrorPt) := by
      rw [allPoints_eq, hv]
      simp
    rw [hq']
    have hne' : pts ≠ [] := by
      rintro rfl
      exact hne hv
    exact examinePoints_mirror hc hL hS l hne' (hr pts hv)

/-- **C125** partial: without the Gaussian fit, on a rectilinear grid, for contours that meet `MirrorReady`, the contours of the map
with the latitudes of opposite sign are the mirror images of those of the map, in the same order and direction; each is treated like
its mirror image, with the mirrored eddy (same area, radius, axes, eccentricity, level, sign and extremum, opposite latitudes and angle),
or one of the two is discarded because of the similarity with its ellipse. With a threshold of at least one the latter does not happen,
and the eddies are the mirror images of each other, in the same order. What is missing: the criterion on the similarity, whose value
depends on the hemisphere (see `C125_refuted`); the Gaussian fit. -/
theorem C125_partial {c : Criteria ℝ} (hc : c.skipGauss = true) {L : Libs} (hL : L.Nearest) {S : Fields} (hok : S.Ok)
    (hS : S.Rectilinear) (l : ℝ) (hv : ∀ vs ∈ contourList L S l, ∀ pts : List (ℝ × ℝ), vs = pts.map some → MirrorReady S pts) :
    contourList L S.mirrored l = (contourList L S l).map (fun vs => vs.map (Option.map fun p => (p.1, -p.2))) ∧
    List.Forall₂ (fun o o' => MirroredResult o o' ∨ BySimilarity o ∨ BySimilarity o') ((contourList L S l).map (examine c L S l))
      ((contourList L S.mirrored l).map (examine c L S.mirrored l)) ∧
    (1 ≤ c.ellipseFit →
      List.Forall₂ MirroredResult ((contourList L S l).map (examine c L S l)) ((contourList L S.mirrored l).map (examine c L S.mirrored l)) ∧
      List.Forall₂ MirroredEddy ((contourList L S l).filterMap (storedEddy c L S l))
        ((contourList L S.mirrored l).filterMap (storedEddy c L S.mirrored l))) := by
  have hcl := contourList_mirror L hok l
  refine ⟨hcl, ?_⟩
  rw [hcl]
  have hne := contourList_ne L hok l
  revert hv hne
  generalize contourList L S l = cs
  intro hv hne
  have hex : ∀ vs ∈ cs, _ := fun vs hvs => examine_mirror hc hL hS l (hne vs hvs) (hv vs hvs)
  clear hv hne
  constructor
  · rw [List.map_map, List.forall₂_map_left_iff, List.forall₂_map_right_iff, List.forall₂_same]
    intro vs hvs
    exact (hex vs hvs).imp id And.right
  intro h1
  induction cs with
  | nil => exact ⟨.nil, .nil⟩
  | cons vs cs ih =>
    have ih := ih (fun us hus => hex us (List.mem_cons_of_mem _ hus))
    have he := (hex vs List.mem_cons_self).resolve_right fun h => h.1 h1
    refine ⟨.cons he ih.1, ?_⟩
    simp only [List.map_cons, List.filterMap_cons]
    unfold storedEddy at ih ⊢
    revert he
    cases examine c L S l vs with
    | error e =>
      cases examine c L S.mirrored l (vs.map (Option.map mirrorPt)) with
      | error e' => exact fun _ => ih.2
      | ok o' => intro he; cases he
    | ok o =>
      cases examine c L S.mirrored l (vs.map (Option.map mirrorPt)) with
      | error e' => cases o <;> (intro he; cases he)
      | ok o' =>
        cases o <;> cases o' <;> intro he <;> first | exact ih.2 | exact .cons he ih.2 | cases he

/-! ### the example -/

theorem hasAzimuth_of_lat {p : ℝ × ℝ} (h : 0 < p.2 ∧ p.2 < 180) : HasAzimuth p := by
  left
  apply ne_of_gt
  unfold deg2rad
  apply Real.sin_pos_of_pos_of_lt_pi
  · have := Real.pi_pos
    have := h.1
    positivity
  · have := Real.pi_pos
    have := h.2
    nlinarith

theorem mrAzimuth : ∀ p ∈ mrPts, HasAzimuth p := by
  intro p hp
  apply hasAzimuth_of_lat
  simp only [mrPts, List.mem_cons, List.not_mem_nil, or_false] at hp
  rcases hp with rfl | rfl | rfl | rfl | rfl | rfl | rfl <;> norm_num

theorem exAzimuth : ∀ p ∈ exCurve, HasAzimuth p := by
  intro p hp
  apply hasAzimuth_of_lat
  simp only [exCurve, List.mem_cons, List.not_mem_nil, or_false] at hp
  rcases hp with rfl | rfl | rfl | rfl | rfl | rfl | rfl <;> norm_num

theorem mrMirrored : examine mrCriteria mrLibs mrField.mirrored (1 / 2) ((mrPts.map mirrorPt).map some) = .ok (.discarded .similarity) := by
  classical
  have hM : MrList mrPts := Or.inl rfl
  have hsim : ∃ v, similarity 100 (mrPts.map mirrorPt) (exCurve.map mirrorPt).reverse = .ok (some v) ∧ 3 / 4 < v := by
    obtain ⟨v, hv, hv1⟩ := mrScore_down
    refine ⟨v, ?_, hv1⟩
    rw [← List.map_reverse, similarity_mirror, ← hv, ← C28_both_reversed 100 (Or.inl (by simp [mrPts])), List.reverse_reverse]
  obtain ⟨v, hv, hv1⟩ := hsim
  obtain ⟨θ', hfit, -⟩ := (fitEllipse_mirror mrPts).2 _ _ _ _ hM.fit
  have ha := area_mirror mrAzimuth mrChain
  unfold examine
  have hsk : Cntr.skipsContour ((mrPts.map mirrorPt).map some) = false := by
    have := skips_mirror (mrPts.map some)
    rw [hM.skips] at this
    rw [← this, List.map_map, List.map_map]
    rfl
  rw [hsk]
  have hal : allPoints ((mrPts.map mirrorPt).map some) = some (mrPts.map mirrorPt) := allPoints_eq.2 rfl
  simp only [Bool.false_eq_true, if_false, hal]
  unfold examinePoints
  have hsim : liftFr (similarity mrLibs.limit (mrPts.map mirrorPt) (exCurve.map mirrorPt).reverse) = .ok (some v) := by
    show liftFr (similarity 100 _ _) = .ok (some v)
    rw [hv]
    rfl
  have g1 : ¬ Real.sqrt (areaPolygon (mrPts.map mirrorPt) / Real.pi) > mrCriteria.maxArea * approxRD (meanPt (mrPts.map mirrorPt)).2 := by
    rw [ha, meanPt_mirror]
    show ¬ _ > _ * approxRD (-(meanPt mrPts).2)
    rw [approxRD_neg]
    exact not_lt.2 hM.size
  have g2 : ¬¬ (FiniteEllipse (mrPts.map mirrorPt) ∧
      isclose (areaPolygon (mrPts.map mirrorPt)) (areaPolygon (exCurve.map mirrorPt).reverse) (1 / 10 * mrCriteria.ellipseFit) = true) := by
    rw [ha, area_mirror_reverse exAzimuth, finiteEllipse_mirror]
    exact not_not.2 ⟨hM.finite, hM.areas le_rfl⟩
  have g3 : ¬ gtNan (eccentricity 1 (1 / Real.sqrt 3)) mrCriteria.eccen := mrEccen
  have g4 : gtNan (some v) mrCriteria.ellipseFit := ⟨v, rfl, hv1⟩
  simp only [bind, Except.bind, pure, Except.pure]
  rw [if_neg g1, hfit]
  simp only
  rw [if_neg g2, if_neg g3, hsim]
  simp only
  rw [if_pos g4]

theorem orChain : exPts.IsChain NotOpposite := by
  unfold exPts
  simp only [List.isChain_cons_cons, List.isChain_singleton, and_true]
  refine ⟨?_, ?_, ?_, ?_, ?_, ?_⟩ <;> exact notOpposite_quadrant (by norm_num) (by norm_num)

theorem exAzimuth' : ∀ p ∈ exPts, HasAzimuth p := by
  intro p hp
  apply hasAzimuth_of_lat
  simp only [exPts, List.mem_cons, List.not_mem_nil, or_false] at hp
  rcases hp with rfl | rfl | rfl | rfl | rfl | rfl | rfl <;> norm_num

/-- the hypotheses of `C125_partial` hold for a map with an eddy, with a threshold of one -/
theorem orReady : ∀ vs ∈ contourList exLibs orField (3 / 5), ∀ pts : List (ℝ × ℝ), vs = pts.map some → MirrorReady orField pts := by
  rw [orField_contours]
  intro vs hvs pts h
  rw [List.mem_singleton] at hvs
  subst hvs
  have : exPts = pts := List.map_injective_iff.2 (Option.some_injective _) h
  subst this
  refine ⟨orChain, exAzimuth', ?_, fun v hv => ⟨_, clear_nearest (orClear v hv)⟩⟩
  intro fit hfit
  rw [exFit] at hfit
  injection hfit with hfit
  subst hfit
  exact exAzimuth

example : exLibs.Nearest ∧ orField.Ok ∧ orField.Rectilinear ∧ exCriteria.skipGauss = true ∧ 1 ≤ exCriteria.ellipseFit ∧
    (∀ vs ∈ contourList exLibs orField (3 / 5), ∀ pts : List (ℝ × ℝ), vs = pts.map some → MirrorReady orField pts) ∧
    ∃ e, (contourList exLibs orField (3 / 5)).filterMap (storedEddy exCriteria exLibs orField (3 / 5)) = [e] := by
  refine ⟨exLibs_nearest, orField_ok, orField_rect, rfl, le_rfl, orReady, ?_⟩
  obtain ⟨e, he⟩ := orStored
  refine ⟨e, ?_⟩
  rw [orField_contours]
  have hst : storedEddy exCriteria exLibs orField (3 / 5) (exPts.map some) = some e := by unfold storedEddy; rw [he]
  simp only [List.filterMap_cons, List.filterMap_nil, hst]

/-- **C125 refuted**: a map in which the run returns an eddy, while the run on the same map on the other side of the equator returns
none, although the contours are mirror images of each other. (The points of the fitted ellipse keep their direction, the contour is
traversed in the opposite one, and the similarity of the two is another one.) -/
theorem C125_refuted : ∃ (E : Env Cols ℝ (ℝ × ℝ)) (c : Criteria ℝ) (L : Libs) (S : Fields) (l : ℝ) (s s' : LoopState Cols),
    IsNN E.dist E.nn ∧ L.Nearest ∧ S.Ok ∧ S.Rectilinear ∧ c.skipGauss = true ∧
    (trackFields E c L (fun _ => S) [l] 0 none 1 1 true Regs.empty).2 = .ok s ∧ s.table.rows ≠ [] ∧
    (trackFields E c L (fun _ => S.mirrored) [l] 0 none 1 1 true Regs.empty).2 = .ok s' ∧ s'.table.rows = [] ∧
    contourList L S.mirrored l = (contourList L S l).map (fun vs => vs.map (Option.map fun p => (p.1, -p.2))) := by
  obtain ⟨nn, hnn⟩ := exists_isNN haversine
  obtain ⟨e, he⟩ := mrStored le_rfl
  have hok : mrField.Ok := ⟨rfl, rfl, fun M hM => by cases hM⟩
  have hcl := contourList_mirror mrLibs hok (1 / 2)
  have hcl' : contourList mrLibs mrField.mirrored (1 / 2) = [(mrPts.map mirrorPt).map some] := by
    rw [hcl, mrField_contours]
    simp
  obtain ⟨s, h1, h2⟩ := run_single hnn (by norm_num) hok (mrField_contours mrLibs) he
  obtain ⟨s', h3, h4⟩ := run_single hnn (by norm_num) (mrField.mirrored_ok hok) hcl' mrMirrored
  refine ⟨colsEnv true nn, mrCriteria, mrLibs, mrField, 1 / 2, s, s', hnn, mrLibs_nearest, hok, mrField_rect, rfl, h1, h2.2 ⟨e, rfl⟩, h3, ?_, hcl⟩
  by_contra h
  obtain ⟨_, h⟩ := h4.1 h
  cases h

end Trackeddy
