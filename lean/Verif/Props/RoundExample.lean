import Verif.Props.Round
import Verif.Props.GaussFit

/-!
A map with a contour on a circle: the run without the Gaussian fit returns an eddy, the run with it raises an exception (C127).
-/
namespace Trackeddy
open Spec
open Cntr (Vertex)

def rdqX : Cntr.NdArr ℚ := ⟨3, 4, fun _ c => [-13 / 16, -1 / 2, 1 / 2, 13 / 16].getD c 0⟩
def rdqY : Cntr.NdArr ℚ := ⟨3, 4, fun r _ => [-15 / 16, 0, 15 / 16].getD r 0⟩

/-- a grid whose contour at 3/5 lies on the circle of radius 5/8 -/
noncomputable def rdField : Fields :=
  ⟨⟨3, 4, fun _ c => [-13 / 16, -1 / 2, 1 / 2, 13 / 16].getD c 0⟩, ⟨3, 4, fun r _ => [-15 / 16, 0, 15 / 16].getD r 0⟩, exField.data⟩

theorem rdq_contours : Cntr.extractContours rdqX rdqY exqZ (3 / 5) 50 Cntr.exMem =
    .ok ([[some (-1 / 2, -3 / 8), some (1 / 2, -3 / 8), some (5 / 8, 0), some (1 / 2, 3 / 8), some (-1 / 2, 3 / 8), some (-5 / 8, 0),
      some (-1 / 2, -3 / 8)]].map .points, [.codes [1, 2, 2, 2, 2, 2, 2]]) := by
  decide +kernel

theorem rdField_cast : rdqX.cast (Rat.castHom ℝ) = rdField.X ∧ rdqY.cast (Rat.castHom ℝ) = rdField.Y := by
  constructor
  · unfold Cntr.NdArr.cast rdqX rdField
    simp only [Cntr.NdArr.mk.injEq, true_and]
    funext _ c
    match c with
    | 0 | 1 | 2 | 3 => norm_num
    | c + 4 => simp
  · unfold Cntr.NdArr.cast rdqY rdField
    simp only [Cntr.NdArr.mk.injEq, true_and]
    funext r _
    match r with
    | 0 | 1 | 2 => norm_num
    | r + 3 => simp

theorem rdField_ok : rdField.Ok := ⟨rfl, rfl, fun M hM => by cases hM⟩

/-- the contour -/
noncomputable def rdPts : List (ℝ × ℝ) :=
  [(-1 / 2, -3 / 8), (1 / 2, -3 / 8), (5 / 8, 0), (1 / 2, 3 / 8), (-1 / 2, 3 / 8), (-5 / 8, 0), (-1 / 2, -3 / 8)]

theorem rdField_contours (L : Libs) : contourList L rdField (3 / 5) = [rdPts.map some] := by
  obtain ⟨cds, h⟩ := Cntr.extract_cast (Rat.castHom ℝ) Rat.cast_strictMono (X := rdqX) (Y := rdqY) (Z := exqZ)
    (mem' := L.mem rdField.data (3 / 5)) (fuel' := 4 * (4 * 3) + 2)
    ⟨rfl, rfl, fun M hM => by cases hM⟩ (3 / 5) (by decide) (by decide) rdq_contours
  obtain ⟨hX, hY⟩ := rdField_cast
  have hZ : exqZ.castO (Rat.castHom ℝ) = rdField.data := exField_cast.2.2
  have hl : Rat.castHom ℝ (3 / 5) = 3 / 5 := by norm_num
  rw [hX, hY, hZ, hl] at h
  unfold contourList contoursOf
  have hd : 4 * (rdField.data.cols * rdField.data.rows) + 2 = 4 * (4 * 3) + 2 := rfl
  rw [hd, h]
  simp [vertsOf, rdPts]

theorem rdField_rect : rdField.Rectilinear := by
  refine ⟨fun c => [-13 / 16, -1 / 2, 1 / 2, 13 / 16].getD c 0, fun r => [-15 / 16, 0, 15 / 16].getD r 0, fun _ _ => rfl, fun _ _ => rfl,
    Or.inl ?_, Or.inl ?_⟩
  · intro i j h hj
    have hj : j < 4 := hj
    interval_cases j <;> interval_cases i <;> norm_num
  · intro i j h hj
    have hj : j < 3 := hj
    interval_cases j <;> interval_cases i <;> norm_num

theorem rdMean : meanPt rdPts = (-(1 / 14), -(3 / 56)) := by
  unfold meanPt rdPts
  norm_num

/-- the nearest grid points -/
noncomputable def rdPixel (v : ℝ × ℝ) : ℕ × ℕ := if v.1 < 0 then (1, 1) else (1, 2)

theorem rdClear : ∀ v ∈ rdPts, rdField.ClearPixel (meanPt rdPts) v (rdPixel v) := by
  intro v hv
  rw [rdMean]
  simp only [rdPts, List.mem_cons, List.not_mem_nil, or_false] at hv
  have key : ∀ p : ℕ × ℕ, (p = (1, 1) ∨ p = (1, 2)) →
      (∀ r < 3, ∀ c < 4, (r, c) ≠ p → (rdField.X.get p.1 p.2 - v.1) ^ 2 + (rdField.Y.get p.1 p.2 - v.2) ^ 2 <
        (rdField.X.get r c - v.1) ^ 2 + (rdField.Y.get r c - v.2) ^ 2) → rdField.ClearPixel (-(1 / 14), -(3 / 56)) v p := by
    intro p hp h
    refine ⟨?_, ?_, ?_, ?_, h⟩
    · show p.1 < 3
      rcases hp with rfl | rfl <;> decide
    · show p.2 < 4
      rcases hp with rfl | rfl <;> decide
    · rcases hp with rfl | rfl <;> simp only [rdField] <;> rw [abs_le] <;> norm_num [abs_of_pos]
    · rcases hp with rfl | rfl <;> simp only [rdField] <;> rw [abs_le] <;> norm_num [abs_of_pos]
  apply key
  · unfold rdPixel
    split_ifs <;> simp
  · rcases hv with rfl | rfl | rfl | rfl | rfl | rfl | rfl <;> unfold rdPixel rdField <;> norm_num <;>
      intro r hr c hc hne <;> interval_cases r <;> interval_cases c <;>
      first | (exfalso; simp at hne; done) | (clear hne; norm_num)

theorem rdPixels : rdPts.map rdPixel = [(1, 1), (1, 2), (1, 2), (1, 2), (1, 1), (1, 1), (1, 1)] := by
  unfold rdPts rdPixel
  norm_num

theorem rdRound : ∀ p ∈ rdPts, (p.1 - 0) ^ 2 + (p.2 - 0) ^ 2 = (5 / 8 : ℝ) ^ 2 := by
  intro p hp
  simp only [rdPts, List.mem_cons, List.not_mem_nil, or_false] at hp
  rcases hp with rfl | rfl | rfl | rfl | rfl | rfl | rfl <;> norm_num

theorem rdGeneric : Generic rdPts := by
  intro A B C D E h
  rw [rdMean] at h
  have h1 := h (-1 / 2, -3 / 8) (by simp [rdPts])
  have h2 := h (1 / 2, -3 / 8) (by simp [rdPts])
  have h3 := h (5 / 8, 0) (by simp [rdPts])
  have h4 := h (1 / 2, 3 / 8) (by simp [rdPts])
  have h5 := h (-1 / 2, 3 / 8) (by simp [rdPts])
  have h6 := h (-5 / 8, 0) (by simp [rdPts])
  unfold form at h1 h2 h3 h4 h5 h6
  simp only at h1 h2 h3 h4 h5 h6
  refine ⟨?_, ?_, ?_, ?_, ?_⟩ <;> linarith

/-- the fitted conic -/
noncomputable def rdConic : Conic := ⟨196 / 75, 0, 196 / 75, -28 / 75, -7 / 25⟩

theorem rdFitConic : fitConic rdPts = .ok rdConic := by
  apply fitConic_exact
  · intro p hp
    rw [rdMean]
    unfold OnConic form rdConic
    simp only [rdPts, List.mem_cons, List.not_mem_nil, or_false] at hp
    rcases hp with rfl | rfl | rfl | rfl | rfl | rfl | rfl <;> norm_num
  · exact (det_ne_zero_iff_generic _).2 rdGeneric

theorem rdNotTilted : ¬ Tilted rdConic := by
  rintro ⟨h, -⟩
  have : rdConic.b = 0 := rfl
  rw [this, abs_zero] at h
  have := abs_nonneg rdConic.a
  linarith

theorem rdRotate (m : ℝ × ℝ) : rotateConic rdConic m = (rdConic, m) := by
  unfold rotateConic
  rw [if_neg rdNotTilted]

theorem rdAxes : Real.sqrt |conicF rdConic / rdConic.a| = 5 / 8 ∧ Real.sqrt |conicF rdConic / rdConic.c| = 5 / 8 := by
  have e : conicF rdConic / (196 / 75) = (5 / 8) ^ 2 := by
    unfold conicF rdConic
    norm_num
  have : Real.sqrt |((5 : ℝ) / 8) ^ 2| = 5 / 8 := by
    rw [abs_of_nonneg (by positivity), Real.sqrt_sq (by positivity)]
  exact ⟨(congrArg (fun x => Real.sqrt |x|) e).trans this, (congrArg (fun x => Real.sqrt |x|) e).trans this⟩

theorem rdFinite : FiniteEllipse rdPts := by
  intro q hq
  rw [rdFitConic] at hq
  injection hq with hq
  subst hq
  rw [rdRotate]
  unfold rdConic
  norm_num

theorem rdEllPoint (t : ℝ) : ellipsePoint rdConic (-(1 / 14), -(3 / 56)) t = (5 / 8 * Real.cos t, 5 / 8 * Real.sin t) := by
  unfold ellipsePoint
  simp only [rdRotate, rdAxes.1, rdAxes.2]
  have hphi : phiOf rdConic = 0 := by unfold phiOf; rw [if_neg rdNotTilted]
  rw [hphi]
  simp only [Real.cos_zero, Real.sin_zero]
  have x0 : -(1 / 14) - rdConic.d / 2 / rdConic.a = 0 := by
    unfold rdConic
    norm_num
  have y0 : -(3 / 56) - rdConic.e / 2 / rdConic.c = 0 := by
    unfold rdConic
    norm_num
  rw [x0, y0]
  simp

/-- the curve of the fit -/
noncomputable def rdCurve : List (ℝ × ℝ) := lvHex (5 / 8) (5 / 8 / 2) (5 / 8 * (Real.sqrt 3 / 2))

theorem rdFit : fitEllipse rdPts = .ok (rdCurve, (5 / 8, 5 / 8, none)) := by
  unfold fitEllipse
  rw [rdFitConic]
  simp only [bind, Except.bind, pure, Except.pure, rdMean, Except.ok.injEq, Prod.mk.injEq]
  have hc : Real.cos (2 * Real.pi / 3) = -1 / 2 ∧ Real.sin (2 * Real.pi / 3) = Real.sqrt 3 / 2 := by
    have : 2 * Real.pi / 3 = Real.pi - Real.pi / 3 := by ring
    rw [this, Real.cos_pi_sub, Real.sin_pi_sub, Real.cos_pi_div_three, Real.sin_pi_div_three]
    norm_num
  have hax : semiAxes rdConic (-(1 / 14), -(3 / 56)) = (5 / 8, 5 / 8) := by
    unfold semiAxes
    simp only [rdRotate, rdAxes.1, rdAxes.2]
  refine ⟨?_, by rw [hax]; simp, by rw [hax]; simp, by simp [angleOf, rdConic]⟩
  have hl : linspace2pi rdPts.length = [0, Real.pi / 3, 2 * Real.pi / 3, Real.pi, Real.pi / 3 + Real.pi,
      2 * Real.pi / 3 + Real.pi, 2 * Real.pi] := by
    unfold linspace2pi
    simp only [rdPts, List.length_cons, List.length_nil, List.range_succ, List.range_zero]
    simp only [List.nil_append, List.cons_append, List.map_cons, List.map_nil]
    norm_num
    refine ⟨?_, ?_, ?_, ?_, ?_⟩ <;> ring
  rw [hl]
  simp only [List.map_cons, List.map_nil, rdEllPoint, Real.cos_add_pi, Real.sin_add_pi, Real.cos_zero, Real.sin_zero,
    Real.cos_pi_div_three, Real.sin_pi_div_three, hc.1, hc.2, Real.cos_pi, Real.sin_pi, Real.cos_two_pi, Real.sin_two_pi]
  unfold rdCurve lvHex
  simp only [List.cons.injEq, Prod.mk.injEq, and_true]
  repeat' apply And.intro
  all_goals ring

theorem rdAreas : 0 < areaPolygon rdPts ∧ 0 < areaPolygon rdCurve := by
  have h3 : 0 < Real.sqrt 3 := Real.sqrt_pos.2 (by norm_num)
  have h4 : Real.sqrt 3 < 2 := by rw [Real.sqrt_lt' (by norm_num)]; norm_num
  constructor
  · have e : areaPolygon rdPts = areaPolygon (lvHex (5 / 8) (1 / 2) (3 / 8)) := by
      refine Eq.trans ?_ (Eq.trans (C33_first_vertex (-(1 / 2), -(3 / 8)) (5 / 8, 0) [(1 / 2, -(3 / 8))]
        [(1 / 2, 3 / 8), (-(1 / 2), 3 / 8), (-(5 / 8), 0)]) ?_)
      · congr 1
        unfold rdPts
        norm_num
      · rfl
    rw [e]
    exact lvHex_area (by norm_num) (by norm_num) (by norm_num) (by norm_num) (by norm_num) (by norm_num)
  · exact lvHex_area (by norm_num) (by norm_num) (by norm_num) (by norm_num) (by positivity) (by linarith)

/-- criteria met by the contour -/
noncomputable def rdCriteria (skip : Bool) : Criteria ℝ :=
  ⟨10 * (1 + areaPolygon rdPts / areaPolygon rdCurve), 1, 0, Real.sqrt (areaPolygon rdPts / Real.pi) / approxRD (-(3 / 56)), skip⟩

theorem rdSkips : Cntr.skipsContour (rdPts.map some) = false := by
  have h : Cntr.skipsContour (rdPts.map some) =
      (Cntr.closeNan (some (-(1 / 14) : ℝ)) (some (-1 / 2)) && Cntr.closeNan (some (-(3 / 56) : ℝ)) (some (-3 / 8))) := by
    have hm := rdMean
    unfold meanPt rdPts at hm
    simp only [List.map_cons, List.map_nil, Prod.mk.injEq] at hm
    unfold Cntr.skipsContour rdPts Cntr.meanOf
    simp only [List.map_cons, List.map_nil, Option.map_some, List.all_cons, List.all_nil, Option.isSome_some, Bool.and_true,
      if_true, Option.getD_some]
    simp only [List.length_cons, List.length_nil] at hm ⊢
    rw [hm.1, hm.2]
  rw [h]
  unfold Cntr.closeNan
  rw [Bool.and_eq_false_iff]
  left
  rw [decide_eq_false_iff_not]
  norm_num [abs_of_pos]

theorem rdSim : ∃ v, similarity 100 rdPts rdCurve = .ok v := by
  obtain ⟨d, hd, _⟩ := Frechet.C24_frdist_is_discrete_frechet 100 eucl eucl_symm rdPts rdCurve (by simp [rdPts])
    (by simp [rdCurve, lvHex]) (Or.inl (by simp [rdPts])) (by simp [rdPts, rdCurve, lvHex])
  unfold similarity
  simp only [hd, bind, Except.bind, pure, Except.pure]
  split <;> exact ⟨_, rfl⟩

theorem rdStored {L : Libs} (hL : L.Nearest) (hlim : L.limit = 100) :
    ∃ e, examine (rdCriteria true) L rdField (3 / 5) (rdPts.map some) = .ok (.stored e) := by
  obtain ⟨v, hv⟩ := rdSim
  obtain ⟨i, hi, h0⟩ := orData hL rdField_rect rfl (fun v hv => clear_nearest (rdClear v hv)) rdPixels
  have hrd : 0 < approxRD (-(3 / 56)) := by unfold approxRD; positivity
  obtain ⟨p1, p2⟩ := rdAreas
  have hr := div_pos p1 p2
  refine (examine_data (c := rdCriteria true) rfl rdSkips ?_ rdFit rdFinite ?_ ?_ (hlim ▸ hv) ?_).2 i hi h0
  · rw [rdMean]
    show Real.sqrt (areaPolygon rdPts / Real.pi) ≤ Real.sqrt (areaPolygon rdPts / Real.pi) / approxRD (-(3 / 56)) * approxRD (-(3 / 56))
    rw [div_mul_cancel₀ _ hrd.ne']
  · unfold isclose rdCriteria
    simp only [decide_eq_true_eq]
    rw [abs_of_pos p2, abs_le]
    have : 1 / 10 * (10 * (1 + areaPolygon rdPts / areaPolygon rdCurve)) * areaPolygon rdCurve = areaPolygon rdCurve + areaPolygon rdPts := by
      field_simp
    constructor <;> nlinarith
  · rintro ⟨u, hu, h1⟩
    unfold eccentricity at hu
    norm_num at hu
    subst hu
    unfold rdCriteria at h1
    norm_num at h1
  · rintro ⟨u, hu, h1⟩
    subst hu
    have h2 := (similarity_unit hv).2
    unfold rdCriteria at h1
    simp only at h1
    linarith

/-- libraries with any answers of `least_squares` -/
noncomputable def rdLibs (ls : FitProblem → Except PyErr (ℝ × ℝ × ℝ × ℝ × ℝ)) : Libs := ⟨100, fun _ _ => Cntr.exMem, lvBallTree, ls⟩

/-- **C127** is false: a map whose run without the Gaussian fit returns an eddy and whose run with the fit raises an exception, although
`least_squares` may answer anything. -/
theorem C127_refuted (ls : FitProblem → Except PyErr (ℝ × ℝ × ℝ × ℝ × ℝ)) : ∃ (c : Criteria ℝ) (S : Fields) (l : ℝ)
    (nn : List (ℝ × ℝ) → ℝ × ℝ → Nat) (s : LoopState Cols), c.skipGauss = false ∧ S.Ok ∧ S.Rectilinear ∧ (rdLibs ls).Nearest ∧
    IsNN haversine nn ∧
    (trackFields (colsEnv true nn) c.noFit (rdLibs ls) (fun _ => S) [l] 0 none 1 1 true Regs.empty).2 = .ok s ∧ s.table.rows ≠ [] ∧
    ∃ er, (trackFields (colsEnv true nn) c (rdLibs ls) (fun _ => S) [l] 0 none 1 1 true Regs.empty).2 = .error er := by
  have hL : (rdLibs ls).Nearest := lvLibs_nearest
  obtain ⟨e, he⟩ := rdStored (L := rdLibs ls) hL rfl
  obtain ⟨nn, s, h1, h2, h3⟩ := run_one (by norm_num) rdField_ok (rdField_contours _) he
  refine ⟨rdCriteria false, rdField, 3 / 5, nn, s, rfl, rdField_ok, rdField_rect, hL, h1, h2, h3, ?_⟩
  have hm : e ∈ foundIn (rdCriteria false).noFit (rdLibs ls) rdField (3 / 5) := by
    unfold foundIn
    rw [rdField_contours]
    refine List.mem_filterMap.2 ⟨_, List.mem_singleton_self _, ?_⟩
    unfold storedEddy
    have : examine (rdCriteria false).noFit (rdLibs ls) rdField (3 / 5) (rdPts.map some) = .ok (.stored e) := he
    rw [this]
  obtain ⟨-, hc, curve, i, hst⟩ := examine_stored.1 he
  have hpts : rdPts = e.contour := List.map_injective_iff.2 (Option.some_injective _) hc
  have ha := round_angle ⟨(0, 0), 5 / 8, by norm_num, hpts ▸ rdRound⟩ hst.fit
  exact run_stops (c := rdCriteria false) ⟨rfl, rfl⟩ (fun _ _ => rdField_ok) (t := 0) (by decide) (List.mem_singleton_self _) (by norm_num)
    (found_level rfl rdField_ok hm ha _)

/-- the hypotheses of `C127_refuted_round` and `C127_refuted_angle` hold for this map -/
example (ls : FitProblem → Except PyErr (ℝ × ℝ × ℝ × ℝ × ℝ)) : ∃ (nn : List (ℝ × ℝ) → ℝ × ℝ → Nat) (s : LoopState Cols) (r : Row (Int × Cols)),
    IsNN haversine nn ∧
    (trackFields (colsEnv true nn) (rdCriteria false).noFit (rdLibs ls) (fun _ => rdField) [3 / 5] 0 none 1 1 true Regs.empty).2 = .ok s ∧
    r ∈ s.table.rows ∧ ("ellipse_params_theta", none) ∈ r.val.2 ∧
    ∀ q ∈ s.table.rows, ∃ x y : ℝ, ("contour_path_x", some x) ∈ q.val.2 ∧ ("contour_path_y", some y) ∈ q.val.2 ∧
      (x - 0) ^ 2 + (y - 0) ^ 2 = (5 / 8) ^ 2 := by
  have hL : (rdLibs ls).Nearest := lvLibs_nearest
  obtain ⟨e, he⟩ := rdStored (L := rdLibs ls) hL rfl
  obtain ⟨nn, s, h1, h2, h3⟩ := run_one (by norm_num) rdField_ok (rdField_contours _) he
  obtain ⟨r, hr⟩ := List.exists_mem_of_ne_nil _ h3
  have key : ∀ q ∈ s.table.rows, ("ellipse_params_theta", none) ∈ q.val.2 ∧ ∃ x y : ℝ, ("contour_path_x", some x) ∈ q.val.2 ∧
      ("contour_path_y", some y) ∈ q.val.2 ∧ (x - 0) ^ 2 + (y - 0) ^ 2 = (5 / 8) ^ 2 := by
    intro q hq
    obtain ⟨-, l, hl, -, e', he', hrow, -⟩ := row_chosen (c := rdCriteria true) h1 rfl (fun _ _ => rdField_ok) ⟨rfl, rfl⟩ h2 hq
    rw [List.mem_singleton] at hl
    subst hl
    unfold foundIn at he'
    rw [rdField_contours] at he'
    obtain ⟨vs, hvs, hst⟩ := List.mem_filterMap.1 he'
    rw [List.mem_singleton] at hvs
    subst hvs
    have e1 : e' = e := by
      unfold storedEddy at hst
      rw [he] at hst
      injection hst with hst
      exact hst.symm
    subst e1
    obtain ⟨-, hc, curve, i, hst⟩ := examine_stored.1 he
    have hpts : rdPts = e'.contour := List.map_injective_iff.2 (Option.some_injective _) hc
    have ha := round_angle ⟨(0, 0), 5 / 8, by norm_num, hpts ▸ rdRound⟩ hst.fit
    obtain ⟨p, hp, hpr⟩ := List.mem_map.1 hrow
    have hp : p ∈ e'.contour.map fun q => (some q.1, some q.2) := hp
    obtain ⟨v, hv, rfl⟩ := List.mem_map.1 hp
    have hth : e'.data.ellipseTheta = none := ha
    rw [← hpr]
    refine ⟨?_, v.1, v.2, ?_, ?_, rdRound v (hpts ▸ hv)⟩
    all_goals
      unfold columns
      cases hg : e'.data.gauss <;> simp [hth]
  exact ⟨nn, s, r, h1, h2, hr, (key r hr).1, fun q hq => (key q hq).2⟩

/-- the hypotheses of `C127_partial` hold for a map with an eddy that passes the Gaussian fit -/
example : ∃ (c : Criteria ℝ) (L : Libs) (S : Fields) (l : ℝ) (x : List (Nat × List Cols) × List (Nat × Reason)), c.skipGauss = false ∧ S.Ok ∧
    (detectLevel c L S Regs.empty l).2 = .ok x ∧ x.1 ≠ [] := by
  obtain ⟨n, e, he⟩ := exStoredG
  obtain ⟨x, hx⟩ := (detectLevel_total (c := exCriteriaG) (L := exLibsG n) exField_ok (1 / 2) Regs.empty).1.2 (by
    rw [exField_contours]
    intro vs hvs
    rw [List.mem_singleton] at hvs
    subst hvs
    exact ⟨_, he⟩)
  refine ⟨_, _, _, _, x, rfl, exField_ok, hx, ?_⟩
  rw [(detectLevel_tables exField_ok hx).1]
  unfold foundIn
  rw [exField_contours]
  have : storedEddy exCriteriaG (exLibsG n) exField (1 / 2) (exPts.map some) = some e := by unfold storedEddy; rw [he]
  rw [List.filterMap_cons_some this]
  simp [numbered]

end Trackeddy
