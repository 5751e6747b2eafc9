import Verif.Props.Robust
import Verif.Props.LevelsExample
import Mathlib.Analysis.SpecialFunctions.Trigonometric.Angle

/-!
C23 for whole contours: points taken from an ellipse with axes along the coordinates, in the order in which `fit_ellipse` lists its
own points, are reproduced exactly by the fit, and the contour is discarded for its similarity (trackeddy/trackeddy.py:284-393,
geometry.py:171-278).
-/
namespace Trackeddy
open Spec

/-- `n` points of the ellipse with the centre `(u, v)` and the semi axes `a` (along the longitude) and `b` -/
noncomputable def ellipsePts (u v a b : ℝ) (n : Nat) : List (ℝ × ℝ) :=
  (linspace2pi n).map fun t => (u + a * Real.cos t, v + b * Real.sin t)

section
variable {u v a b : ℝ} {n : Nat}

/-- the ellipse as a conic -/
noncomputable def axisEllipse (u v : ℝ) (ha : 0 < a) (hb : 0 < b) : Ellipse where
  A := 1 / a ^ 2
  B := 0
  C := 1 / b ^ 2
  centre := (u, v)
  posA := by positivity
  disc := by
    have : 0 < 4 * (1 / a ^ 2) * (1 / b ^ 2) := by positivity
    simpa using this

theorem axisEllipse_on (ha : 0 < a) (hb : 0 < b) (x y : ℝ) (h : x ^ 2 + y ^ 2 = 1) : (axisEllipse u v ha hb).On (u + a * x, v + b * y) := by
  unfold Ellipse.On axisEllipse form
  simp only [add_sub_cancel_left]
  have : (1 / a ^ 2) * (a * x) ^ 2 + 0 * (a * x) * (b * y) + 1 / b ^ 2 * (b * y) ^ 2 = x ^ 2 + y ^ 2 := by
    field_simp
    ring
  linarith

theorem ellipsePts_on (ha : 0 < a) (hb : 0 < b) : ∀ p ∈ ellipsePts u v a b n, (axisEllipse u v ha hb).On p := by
  intro p hp
  unfold ellipsePts at hp
  obtain ⟨t, -, rfl⟩ := List.mem_map.1 hp
  exact axisEllipse_on ha hb _ _ (Real.cos_sq_add_sin_sq t)

theorem ellipsePts_generic (ha : 0 < a) (hb : 0 < b) (hn : 6 ≤ n) : Generic (ellipsePts u v a b n) := by
  set f : Nat → ℝ × ℝ := fun i => (u + a * Real.cos (2 * Real.pi * i / (n - 1 : ℕ)), v + b * Real.sin (2 * Real.pi * i / (n - 1 : ℕ))) with hf
  have hm : (0 : ℝ) < (n - 1 : ℕ) := by
    have : 0 < n - 1 := by omega
    exact_mod_cast this
  have hinj : ∀ i < 5, ∀ j < 5, f i = f j → i = j := by
    intro i hi j hj h
    simp only [hf, Prod.mk.injEq, add_right_inj] at h
    have h1 := mul_left_cancel₀ ha.ne' h.1
    have h2 := mul_left_cancel₀ hb.ne' h.2
    have h3 := Real.Angle.cos_sin_inj h1 h2
    obtain ⟨k, hk⟩ := Real.Angle.angle_eq_iff_two_pi_dvd_sub.1 h3
    have hpi := Real.pi_pos
    have h4 : ((i : ℝ) - j) = k * (n - 1 : ℕ) := by
      field_simp at hk
      nlinarith
    have h5 : (i : ℤ) - j = k * (n - 1 : ℕ) := by exact_mod_cast h4
    have h6 : (5 : ℤ) ≤ (n - 1 : ℕ) := by omega
    have h7 : k = 0 := by
      by_contra hk0
      rcases lt_or_gt_of_ne hk0 with hk1 | hk1
      · nlinarith
      · nlinarith
    rw [h7] at h5
    omega
  have hmem : ∀ i < 5, f i ∈ ellipsePts u v a b n := by
    intro i hi
    unfold ellipsePts linspace2pi
    rw [List.map_map]
    exact List.mem_map.2 ⟨(i : ℝ), by simp; omega, rfl⟩
  refine C31_five_points (axisEllipse u v ha hb) _ (ellipsePts_on ha hb) (f 0) (f 1) (f 2) (f 3) (f 4) ?_ ?_
  · have e : [f 0, f 1, f 2, f 3, f 4] = (List.range 5).map f := rfl
    rw [e]
    refine List.Nodup.map_on ?_ List.nodup_range
    intro i hi j hj h
    exact hinj i (List.mem_range.1 hi) j (List.mem_range.1 hj) h
  · intro p hp
    simp only [List.mem_cons, List.not_mem_nil, or_false] at hp
    rcases hp with rfl | rfl | rfl | rfl | rfl <;> exact hmem _ (by norm_num)

/-- the fit returns the points themselves -/
theorem fit_ellipsePts (ha : 0 < a) (hb : 0 < b) (hn : 6 ≤ n) : FiniteEllipse (ellipsePts u v a b n) ∧
    ∃ θ, fitEllipse (ellipsePts u v a b n) = .ok (ellipsePts u v a b n, (max a b, min a b, θ)) := by
  obtain ⟨q, hq, hiff, -, k, hk, ea, eb, ec⟩ := C31_exact (axisEllipse u v ha hb) _ (ellipsePts_on (n := n) ha hb) (ellipsePts_generic ha hb hn)
  set m := meanPt (ellipsePts u v a b n) with hm
  have hb0 : q.b = 0 := by rw [eb]; show k * 0 = 0; ring
  have ha0 : 0 < q.a := by rw [ea]; exact mul_pos hk (by show 0 < 1 / a ^ 2; positivity)
  have hc0 : 0 < q.c := by rw [ec]; exact mul_pos hk (by show 0 < 1 / b ^ 2; positivity)
  have hnt : ¬ Tilted q := by
    rintro ⟨h, -⟩
    rw [hb0, abs_zero] at h
    have := abs_nonneg q.a
    linarith
  have hrot : rotateConic q m = (q, m) := by unfold rotateConic; rw [if_neg hnt]
  have hphi : phiOf q = 0 := by unfold phiOf; rw [if_neg hnt]
  have p1 := (hiff _).2 (axisEllipse_on (u := u) (v := v) ha hb 1 0 (by norm_num))
  have p2 := (hiff _).2 (axisEllipse_on (u := u) (v := v) ha hb (-1) 0 (by norm_num))
  have p3 := (hiff _).2 (axisEllipse_on (u := u) (v := v) ha hb 0 1 (by norm_num))
  have p4 := (hiff _).2 (axisEllipse_on (u := u) (v := v) ha hb 0 (-1) (by norm_num))
  unfold OnConic form at p1 p2 p3 p4
  simp only [hb0, mul_one, mul_zero, add_zero, mul_neg, zero_mul] at p1 p2 p3 p4
  set X := u - m.1 with hX
  set Y := v - m.2 with hY
  have hd : q.d = -2 * q.a * X := by
    have : a * (q.d + 2 * q.a * X) = 0 := by rw [hX]; linear_combination (p1 - p2) / 2
    rcases mul_eq_zero.1 this with h | h
    · exact absurd h ha.ne'
    · linarith
  have he : q.e = -2 * q.c * Y := by
    have : b * (q.e + 2 * q.c * Y) = 0 := by rw [hY]; linear_combination (p3 - p4) / 2
    rcases mul_eq_zero.1 this with h | h
    · exact absurd h hb.ne'
    · linarith
  have hF : conicF q = 1 + q.a * X ^ 2 + q.c * Y ^ 2 := by
    unfold conicF
    rw [hd, he]
    field_simp
    ring
  have hFa : conicF q = q.a * a ^ 2 := by
    rw [hF]
    rw [hd, he] at p1
    rw [hX, hY] at *
    linear_combination -p1
  have hFc : conicF q = q.c * b ^ 2 := by
    rw [hF]
    rw [hd, he] at p3
    rw [hX, hY] at *
    linear_combination -p3
  have s1 : Real.sqrt |conicF q / q.a| = a := by
    rw [hFa, mul_div_cancel_left₀ _ ha0.ne', abs_of_nonneg (sq_nonneg a), Real.sqrt_sq ha.le]
  have s2 : Real.sqrt |conicF q / q.c| = b := by
    rw [hFc, mul_div_cancel_left₀ _ hc0.ne', abs_of_nonneg (sq_nonneg b), Real.sqrt_sq hb.le]
  have hpt : ∀ t, ellipsePoint q m t = (u + a * Real.cos t, v + b * Real.sin t) := by
    intro t
    unfold ellipsePoint
    simp only [hrot, hphi, s1, s2, Real.cos_zero, Real.sin_zero]
    have e1 : m.1 - q.d / 2 / q.a = u := by rw [hd]; field_simp; rw [hX]; ring
    have e2 : m.2 - q.e / 2 / q.c = v := by rw [he]; field_simp; rw [hY]; ring
    rw [e1, e2]
    simp
  refine ⟨?_, angleOf q, ?_⟩
  · intro q' hq'
    rw [hq] at hq'
    injection hq' with hq'
    subst hq'
    rw [← hm, hrot]
    exact ⟨ha0.ne', hc0.ne'⟩
  · unfold fitEllipse
    rw [hq]
    simp only [bind, Except.bind, pure, Except.pure, Except.ok.injEq, Prod.mk.injEq]
    rw [← hm]
    refine ⟨?_, ?_, ?_, trivial⟩
    · have hl : (ellipsePts u v a b n).length = n := by simp [ellipsePts, linspace2pi]
      rw [hl, funext hpt]
      rfl
    · unfold semiAxes; rw [hrot]; simp only [s1, s2]
    · unfold semiAxes; rw [hrot]; simp only [s1, s2]

/-- **C23** is false for whole contours: the contour consists of six or more points of an ellipse with axes along the coordinates, in the
order of the points of the fit, so that the fitted ellipse is the contour itself. If it meets the criteria on size and eccentricity, it is
discarded for its similarity, for every threshold below one. -/
theorem C23_refuted_ellipse (ha : 0 < a) (hb : 0 < b) (hn : 6 ≤ n) {c : Criteria ℝ} (h0 : 0 ≤ c.ellipseFit) (h1 : c.ellipseFit < 1)
    (L : Libs) (hL : 599 ≤ L.limit) (S : Fields) (level : ℝ) (hsk : Cntr.skipsContour ((ellipsePts u v a b n).map some) = false)
    (hsize : ¬ TooLarge c (ellipsePts u v a b n)) (hecc : ¬ gtNan (eccentricity (max a b) (min a b)) c.eccen) :
    (∃ prm, fitEllipse (ellipsePts u v a b n) = .ok (ellipsePts u v a b n, prm)) ∧
    examine c L S level ((ellipsePts u v a b n).map some) = .ok (.discarded .similarity) := by
  obtain ⟨hfin, θ, hfit⟩ := fit_ellipsePts (u := u) (v := v) ha hb hn
  refine ⟨⟨_, hfit⟩, ?_⟩
  have hne : ellipsePts u v a b n ≠ [] := by
    intro h
    have := congrArg List.length h
    simp [ellipsePts, linspace2pi] at this
    omega
  obtain ⟨s, hs⟩ := similarity_same_length hL hne (rfl : (ellipsePts u v a b n).length = (ellipsePts u v a b n).length)
  have hs1 := C28_similarity_self L.limit (arcLength_pos_of_not_skips hne hsk) hs
  subst hs1
  have hs' : liftFr (similarity L.limit (ellipsePts u v a b n) (ellipsePts u v a b n)) = .ok (some 1) := by rw [hs]; rfl
  have hclose : isclose (areaPolygon (ellipsePts u v a b n)) (areaPolygon (ellipsePts u v a b n)) (1 / 10 * c.ellipseFit) = true := by
    unfold isclose
    rw [decide_eq_true_eq, sub_self, abs_zero]
    positivity
  have hgt : gtNan (some 1) c.ellipseFit := ⟨1, rfl, h1⟩
  unfold examine
  simp only [hsk, Bool.false_eq_true, if_false, allPoints_eq.2 rfl]
  unfold examinePoints
  unfold TooLarge at hsize
  simp only [bind, Except.bind, pure, Except.pure, gt_iff_lt, hsize, if_false, hfit, hfin, hclose, and_self, not_true_eq_false, hecc, hs',
    hgt, if_true]

end

/-- the hypotheses of `C23_refuted_ellipse` hold for seven points of a circle around the origin, and a threshold of 85 % -/
example : ∃ c : Criteria ℝ, c.ellipseFit = 85 / 100 ∧ ∀ (L : Libs) (S : Fields) (level : ℝ), 599 ≤ L.limit →
    examine c L S level ((ellipsePts 0 0 1 1 7).map some) = .ok (.discarded .similarity) := by
  have hc : Real.cos (2 * Real.pi / 3) = -1 / 2 ∧ Real.sin (2 * Real.pi / 3) = Real.sqrt 3 / 2 := by
    have : 2 * Real.pi / 3 = Real.pi - Real.pi / 3 := by ring
    rw [this, Real.cos_pi_sub, Real.sin_pi_sub, Real.cos_pi_div_three, Real.sin_pi_div_three]
    norm_num
  have hl : linspace2pi 7 = [0, Real.pi / 3, 2 * Real.pi / 3, Real.pi, Real.pi / 3 + Real.pi,
      2 * Real.pi / 3 + Real.pi, 2 * Real.pi] := by
    unfold linspace2pi
    simp only [List.range_succ, List.range_zero]
    simp only [List.nil_append, List.cons_append, List.map_cons, List.map_nil]
    norm_num
    refine ⟨?_, ?_, ?_, ?_, ?_⟩ <;> ring
  have hp : ellipsePts 0 0 1 1 7 = lvHex 1 (1 / 2) (Real.sqrt 3 / 2) := by
    unfold ellipsePts
    rw [hl]
    simp only [List.map_cons, List.map_nil, Real.cos_add_pi, Real.sin_add_pi, Real.cos_zero, Real.sin_zero,
      Real.cos_pi_div_three, Real.sin_pi_div_three, hc.1, hc.2, Real.cos_pi, Real.sin_pi, Real.cos_two_pi, Real.sin_two_pi]
    unfold lvHex
    simp only [List.cons.injEq, Prod.mk.injEq, and_true]
    repeat' apply And.intro
    all_goals ring
  have hskip : Cntr.skipsContour ((ellipsePts 0 0 1 1 7).map some) = false := by
    rw [hp]
    unfold lvHex
    simp only [Cntr.skipsContour, Cntr.meanOf, Cntr.closeNan, List.map_cons, List.map_nil]
    norm_num [abs_of_pos, abs_of_neg]
  refine ⟨⟨85 / 100, 1, 0, Real.sqrt (areaPolygon (ellipsePts 0 0 1 1 7) / Real.pi) / approxRD (meanPt (ellipsePts 0 0 1 1 7)).2, true⟩, rfl, ?_⟩
  intro L S level hL
  refine (C23_refuted_ellipse (u := 0) (v := 0) one_pos one_pos (by norm_num) (by norm_num) (by norm_num) L hL S level hskip ?_ ?_).2
  · unfold TooLarge
    have hrd : 0 < approxRD (meanPt (ellipsePts 0 0 1 1 7)).2 := by unfold approxRD; positivity
    rw [not_lt]
    simp only
    rw [div_mul_cancel₀ _ hrd.ne']
  · rintro ⟨x, hx, h⟩
    obtain ⟨e, h1, h2, h3, -⟩ := C29_range (max 1 1) (min 1 1) (by norm_num) (by norm_num)
    rw [h1] at hx
    injection hx with hx
    subst hx
    simp only at h
    linarith

end Trackeddy
