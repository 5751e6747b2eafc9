import Verif.Model.Ellipse
import Verif.Spec.Ellipse
import Mathlib.LinearAlgebra.Matrix.ToLinearEquiv

/-!
Ellipse fit: C29 (eccentricity and ordered axes), C30 (curve on the conic), C31 (exact recovery), C32 (angle).
-/
namespace Trackeddy
open Matrix Spec

/-! ### C29 -/

/-- C29: the score of axes `0 < b ≤ a` is a number in `[0,1)`, zero exactly for a circle. -/
theorem C29_range (a b : ℝ) (hb : 0 < b) (hab : b ≤ a) :
    ∃ e, eccentricity a b = some e ∧ 0 ≤ e ∧ e < 1 ∧ (e = 0 ↔ a = b) := by
  have ha : 0 < a := lt_of_lt_of_le hb hab
  have h1 : b ^ 2 / a ^ 2 ≤ 1 := by
    rw [div_le_one (by positivity)]; nlinarith
  have h0 : 0 < b ^ 2 / a ^ 2 := by positivity
  refine ⟨Real.sqrt (1 - b ^ 2 / a ^ 2), ?_, Real.sqrt_nonneg _, ?_, ?_⟩
  · have : ¬ (1 - b ^ 2 / a ^ 2 < 0) := by linarith
    simp [eccentricity, ha.ne', this]
  · rw [Real.sqrt_lt' one_pos]; linarith
  · rw [Real.sqrt_eq_zero (by linarith)]
    constructor
    · intro h
      have h2 : b ^ 2 / a ^ 2 = 1 := by linarith
      rw [div_eq_one_iff_eq (by positivity)] at h2
      nlinarith
    · rintro rfl
      field_simp
      ring

/-- C29: the signs of the axes do not matter. -/
theorem C29_sign (a b : ℝ) :
    eccentricity (-a) b = eccentricity a b ∧ eccentricity a (-b) = eccentricity a b := by
  simp [eccentricity]

/-- C29: for a fixed major axis the score strictly decreases as the minor axis grows. -/
theorem C29_decreasing (a b b' : ℝ) (hb : 0 ≤ b) (hbb : b < b') (hba : b' ≤ a) :
    ∃ e e', eccentricity a b = some e ∧ eccentricity a b' = some e' ∧ e' < e := by
  have ha : 0 < a := by linarith
  have hm : ∀ t, 0 ≤ t → t ≤ a → t ^ 2 / a ^ 2 ≤ 1 := by
    intro t h0 h1; rw [div_le_one (by positivity)]; nlinarith
  have hlt : b ^ 2 / a ^ 2 < b' ^ 2 / a ^ 2 := by
    apply div_lt_div_of_pos_right _ (by positivity); nlinarith
  have e1 := hm b hb (by linarith)
  have e2 := hm b' (by linarith) hba
  refine ⟨Real.sqrt (1 - b ^ 2 / a ^ 2), Real.sqrt (1 - b' ^ 2 / a ^ 2), ?_, ?_, ?_⟩
  · have : ¬ (1 - b ^ 2 / a ^ 2 < 0) := by linarith
    simp [eccentricity, ha.ne', this]
  · have : ¬ (1 - b' ^ 2 / a ^ 2 < 0) := by linarith
    simp [eccentricity, ha.ne', this]
  · exact Real.sqrt_lt_sqrt (by linarith) (by linarith)

/-- C29: the axes reported by `fit_ellipse` are ordered, so the score is defined whenever `a > 0`. -/
theorem C29_axes (pts curve : List (ℝ × ℝ)) (a b : ℝ) (θ : Option ℝ)
    (h : fitEllipse pts = .ok (curve, (a, b, θ))) :
    0 ≤ b ∧ b ≤ a ∧ (0 < a → ∃ e, eccentricity a b = some e ∧ 0 ≤ e ∧ e ≤ 1) := by
  unfold fitEllipse at h
  cases hq : fitConic pts with
  | error e => rw [hq] at h; simp [bind, Except.bind] at h
  | ok q =>
    rw [hq] at h
    simp only [bind, Except.bind, pure, Except.pure, Except.ok.injEq, Prod.mk.injEq] at h
    obtain ⟨_, rfl, rfl, _⟩ := h
    have hb0 : 0 ≤ min (semiAxes q (meanPt pts)).1 (semiAxes q (meanPt pts)).2 :=
      le_min (Real.sqrt_nonneg _) (Real.sqrt_nonneg _)
    have hle := min_le_max (a := (semiAxes q (meanPt pts)).1) (b := (semiAxes q (meanPt pts)).2)
    refine ⟨hb0, hle, ?_⟩
    generalize max (semiAxes q (meanPt pts)).1 (semiAxes q (meanPt pts)).2 = a at *
    generalize min (semiAxes q (meanPt pts)).1 (semiAxes q (meanPt pts)).2 = b at *
    intro ha
    have h1 : b ^ 2 / a ^ 2 ≤ 1 := by
      rw [div_le_one (by positivity)]; nlinarith
    have h0 : 0 ≤ b ^ 2 / a ^ 2 := by positivity
    refine ⟨Real.sqrt (1 - b ^ 2 / a ^ 2), ?_, Real.sqrt_nonneg _, ?_⟩
    · have : ¬ (1 - b ^ 2 / a ^ 2 < 0) := by linarith
      simp [eccentricity, ha.ne', this]
    · exact Real.sqrt_le_iff.mpr ⟨by norm_num, by linarith⟩

example : eccentricity 5 3 = some (4 / 5) := by
  have h : ¬ ((1:ℝ) - |3| ^ 2 / |5| ^ 2 < 0) := by norm_num
  rw [eccentricity, if_neg (by norm_num), if_neg h]
  congr 1
  rw [Real.sqrt_eq_iff_mul_self_eq (by norm_num) (by norm_num)]
  norm_num

/-! ### C30 -/

/-- the tilt is resolved: there is none, or it is above the tolerance of the code -/
def Resolved (q : Conic) : Prop := q.b = 0 ∨ (1 / 1000 < |q.b / q.a| ∧ 1 / 1000 < |q.b / q.c|)

theorem tilted_of_quot {q : Conic} (ha : q.a ≠ 0) (hc : q.c ≠ 0)
    (h : 1 / 1000 < |q.b / q.a| ∧ 1 / 1000 < |q.b / q.c|) : Tilted q := by
  rw [abs_div, abs_div, lt_div_iff₀ (abs_pos.mpr ha), lt_div_iff₀ (abs_pos.mpr hc)] at h
  exact h

theorem not_tilted_of_zero {q : Conic} (hb : q.b = 0) : ¬ Tilted q := by
  intro h
  have := h.1
  rw [hb, abs_zero] at this
  nlinarith [abs_nonneg q.a]

/-- the rotation removes the mixed term -/
theorem orientation_cross {q : Conic} :
    2 * (q.a - q.c) * Real.cos (orientation q) * Real.sin (orientation q)
      + q.b * (Real.cos (orientation q) ^ 2 - Real.sin (orientation q) ^ 2) = 0 := by
  have key : (q.a - q.c) * Real.sin (2 * orientation q) + q.b * Real.cos (2 * orientation q) = 0 := by
    unfold orientation
    split_ifs with h h'
    · have : 2 * (1 * (1 / 2 * (Real.pi / 2))) = Real.pi / 2 := by ring
      rw [this, h]; simp
    · have : 2 * (-1 * (1 / 2 * (Real.pi / 2))) = -(Real.pi / 2) := by ring
      rw [this, h]; simp
    · have e : 2 * (1 / 2 * Real.arctan (q.b / (q.c - q.a))) = Real.arctan (q.b / (q.c - q.a)) := by ring
      rw [e]
      have hs : Real.sin (Real.arctan (q.b / (q.c - q.a)))
          = q.b / (q.c - q.a) * Real.cos (Real.arctan (q.b / (q.c - q.a))) := by
        rw [Real.sin_arctan, Real.cos_arctan]; ring
      rw [hs]
      have : q.c - q.a ≠ 0 := sub_ne_zero.mpr h
      field_simp
      ring
  rw [Real.sin_two_mul, Real.cos_two_mul'] at key
  linarith

/-- one description of lines 236-256 for all resolved conics -/
theorem rotate_resolved {q : Conic} (m : ℝ × ℝ) (ha : q.a ≠ 0) (hc : q.c ≠ 0) (h : Resolved q) :
    ∃ C S : ℝ, C = Real.cos (phiOf q) ∧ S = Real.sin (phiOf q) ∧ C ^ 2 + S ^ 2 = 1 ∧
      2 * (q.a - q.c) * C * S + q.b * (C ^ 2 - S ^ 2) = 0 ∧
      rotateConic q m =
        (⟨q.a * C ^ 2 - q.b * C * S + q.c * S ^ 2, 0, q.a * S ^ 2 + q.b * C * S + q.c * C ^ 2,
          q.d * C - q.e * S, q.d * S + q.e * C⟩, (C * m.1 - S * m.2, S * m.1 + C * m.2)) := by
  refine ⟨_, _, rfl, rfl, by rw [add_comm]; exact Real.sin_sq_add_cos_sq _, ?_⟩
  rcases h with h | h
  · have ht := not_tilted_of_zero h
    obtain ⟨a, b, c, d, e⟩ := q
    simp only at h
    subst h
    simp [phiOf, rotateConic, ht]
  · have ht := tilted_of_quot ha hc h
    simp only [phiOf, rotateConic, ht, if_true]
    exact ⟨orientation_cross, trivial⟩

/-- sign of the coefficients of a real ellipse after rotation -/
theorem rotated_signs {q : Conic} {m : ℝ × ℝ} (h : RealEllipse q.a q.b q.c q.d q.e m) {C S : ℝ}
    (h1 : C ^ 2 + S ^ 2 = 1) (hx : 2 * (q.a - q.c) * C * S + q.b * (C ^ 2 - S ^ 2) = 0)
    {r : Conic} (hr : r = ⟨q.a * C ^ 2 - q.b * C * S + q.c * S ^ 2, 0,
      q.a * S ^ 2 + q.b * C * S + q.c * C ^ 2, q.d * C - q.e * S, q.d * S + q.e * C⟩) :
    0 < r.a * r.c ∧ 0 < conicF r / r.a ∧ 0 < conicF r / r.c := by
  obtain ⟨hd, p, p', hne, hp, hp'⟩ := h
  have hra : r.a = q.a * C ^ 2 - q.b * C * S + q.c * S ^ 2 := by rw [hr]
  have hrc : r.c = q.a * S ^ 2 + q.b * C * S + q.c * C ^ 2 := by rw [hr]
  have hrd : r.d = q.d * C - q.e * S := by rw [hr]
  have hre : r.e = q.d * S + q.e * C := by rw [hr]
  have hdet : 4 * (r.a * r.c) = (4 * q.a * q.c - q.b ^ 2) * (C ^ 2 + S ^ 2) ^ 2
      + (2 * (q.a - q.c) * C * S + q.b * (C ^ 2 - S ^ 2)) ^ 2 := by
    rw [hra, hrc]; ring
  have hac : 0 < r.a * r.c := by rw [h1, hx] at hdet; nlinarith
  have hra0 : r.a ≠ 0 := fun h => by rw [h] at hac; simp at hac
  have hrc0 : r.c ≠ 0 := fun h => by rw [h] at hac; simp at hac
  -- in the rotated frame
  have hpt : ∀ p : ℝ × ℝ, OnConic q.a q.b q.c q.d q.e m p →
      r.a * ((C * (p.1 - m.1) - S * (p.2 - m.2)) + r.d / 2 / r.a) ^ 2
      + r.c * ((S * (p.1 - m.1) + C * (p.2 - m.2)) + r.e / 2 / r.c) ^ 2 = conicF r := by
    intro p hp
    unfold OnConic form at hp
    generalize p.1 - m.1 = x at *
    generalize p.2 - m.2 = y at *
    have e1 : r.a * ((C * x - S * y) + r.d / 2 / r.a) ^ 2 =
        r.a * (C * x - S * y) ^ 2 + r.d * (C * x - S * y) + r.d ^ 2 / (4 * r.a) := by
      field_simp; ring
    have e2 : r.c * ((S * x + C * y) + r.e / 2 / r.c) ^ 2 =
        r.c * (S * x + C * y) ^ 2 + r.e * (S * x + C * y) + r.e ^ 2 / (4 * r.c) := by
      field_simp; ring
    have e3 : r.a * (C * x - S * y) ^ 2 + r.c * (S * x + C * y) ^ 2
        = (q.a * x ^ 2 + q.b * x * y + q.c * y ^ 2) * (C ^ 2 + S ^ 2) ^ 2
          - (2 * (q.a - q.c) * C * S + q.b * (C ^ 2 - S ^ 2)) * (C * x - S * y) * (S * x + C * y) := by
      rw [hra, hrc]; ring
    have e4 : r.d * (C * x - S * y) + r.e * (S * x + C * y) = (q.d * x + q.e * y) * (C ^ 2 + S ^ 2) := by
      rw [hrd, hre]; ring
    rw [h1, hx] at e3
    rw [h1] at e4
    unfold conicF
    rw [e1, e2]
    linear_combination e3 + e4 + hp
  have g1 := hpt p hp
  have g2 := hpt p' hp'
  have hq : r.c / r.a > 0 := by
    have : r.c / r.a = r.a * r.c / r.a ^ 2 := by field_simp
    rw [this]; positivity
  have hF : 0 < conicF r / r.a := by
    by_contra hneg
    have z : ∀ u v : ℝ, r.a * u ^ 2 + r.c * v ^ 2 = conicF r → u = 0 ∧ v = 0 := by
      intro u v huv
      have : u ^ 2 + r.c / r.a * v ^ 2 = conicF r / r.a := by rw [← huv]; field_simp
      have w0 : 0 ≤ r.c / r.a * v ^ 2 := mul_nonneg hq.le (sq_nonneg v)
      have u0 := sq_nonneg u
      have hu : u ^ 2 = 0 := by linarith
      have hv : r.c / r.a * v ^ 2 = 0 := by linarith
      refine ⟨pow_eq_zero_iff (two_ne_zero) |>.mp hu, ?_⟩
      rcases mul_eq_zero.mp hv with h | h
      · exact absurd h hq.ne'
      · exact pow_eq_zero_iff (two_ne_zero) |>.mp h
    obtain ⟨u1, v1⟩ := z _ _ g1
    obtain ⟨u2, v2⟩ := z _ _ g2
    apply hne
    have du : C * (p.1 - p'.1) - S * (p.2 - p'.2) = 0 := by linear_combination u1 - u2
    have dv : S * (p.1 - p'.1) + C * (p.2 - p'.2) = 0 := by linear_combination v1 - v2
    have ex : p.1 - p'.1 = 0 := by
      have : (C ^ 2 + S ^ 2) * (p.1 - p'.1) = 0 := by linear_combination C * du + S * dv
      rwa [h1, one_mul] at this
    have ey : p.2 - p'.2 = 0 := by
      have : (C ^ 2 + S ^ 2) * (p.2 - p'.2) = 0 := by linear_combination C * dv - S * du
      rwa [h1, one_mul] at this
    exact Prod.ext (by linarith) (by linarith)
  refine ⟨hac, hF, ?_⟩
  have : conicF r / r.c = conicF r / r.a / (r.c / r.a) := by field_simp
  rw [this]; positivity

/-- C30: for a real ellipse with resolved tilt every point of the parametrised curve is on the conic. -/
theorem C30_point_on_conic (q : Conic) (m : ℝ × ℝ) (t : ℝ)
    (h : RealEllipse q.a q.b q.c q.d q.e m) (hr : Resolved q) :
    OnConic q.a q.b q.c q.d q.e m (ellipsePoint q m t) := by
  have ha : q.a ≠ 0 := fun e => by have := h.1; rw [e] at this; nlinarith [sq_nonneg q.b]
  have hc : q.c ≠ 0 := fun e => by have := h.1; rw [e] at this; nlinarith [sq_nonneg q.b]
  obtain ⟨C, S, hC, hS, h1, hx, hrot⟩ := rotate_resolved m ha hc hr
  obtain ⟨hac, hFa, hFc⟩ := rotated_signs h h1 hx rfl
  simp only [ellipsePoint]
  rw [← hC, ← hS, hrot]
  simp only
  set r : Conic := ⟨q.a * C ^ 2 - q.b * C * S + q.c * S ^ 2, 0,
      q.a * S ^ 2 + q.b * C * S + q.c * C ^ 2, q.d * C - q.e * S, q.d * S + q.e * C⟩ with hr
  have hra : r.a = q.a * C ^ 2 - q.b * C * S + q.c * S ^ 2 := by rw [hr]
  have hrc : r.c = q.a * S ^ 2 + q.b * C * S + q.c * C ^ 2 := by rw [hr]
  have hrd : r.d = q.d * C - q.e * S := by rw [hr]
  have hre : r.e = q.d * S + q.e * C := by rw [hr]
  rw [← hra, ← hrc, ← hrd, ← hre]
  have hra0 : r.a ≠ 0 := fun h => by rw [h] at hac; simp at hac
  have hrc0 : r.c ≠ 0 := fun h => by rw [h] at hac; simp at hac
  have A2 : Real.sqrt |conicF r / r.a| ^ 2 = conicF r / r.a := by
    rw [Real.sq_sqrt (abs_nonneg _), abs_of_pos hFa]
  have B2 : Real.sqrt |conicF r / r.c| ^ 2 = conicF r / r.c := by
    rw [Real.sq_sqrt (abs_nonneg _), abs_of_pos hFc]
  set A := Real.sqrt |conicF r / r.a|
  set B := Real.sqrt |conicF r / r.c|
  have hA : r.a * (A * Real.cos t) ^ 2 = conicF r * Real.cos t ^ 2 := by
    rw [mul_pow, A2]; field_simp
  have hB : r.c * (B * Real.sin t) ^ 2 = conicF r * Real.sin t ^ 2 := by
    rw [mul_pow, B2]; field_simp
  have hts := Real.sin_sq_add_cos_sq t
  set u := -(r.d / 2 / r.a) + A * Real.cos t with hu
  set v := -(r.e / 2 / r.c) + B * Real.sin t with hv
  have ex : C * (C * m.1 - S * m.2 - r.d / 2 / r.a + A * Real.cos t) +
      S * (S * m.1 + C * m.2 - r.e / 2 / r.c + B * Real.sin t) - m.1 = C * u + S * v := by
    rw [hu, hv]; linear_combination m.1 * h1
  have ey : -S * (C * m.1 - S * m.2 - r.d / 2 / r.a + A * Real.cos t) +
      C * (S * m.1 + C * m.2 - r.e / 2 / r.c + B * Real.sin t) - m.2 = -S * u + C * v := by
    rw [hu, hv]; linear_combination m.2 * h1
  unfold OnConic form
  simp only
  rw [ex, ey]
  have e3 : q.a * (C * u + S * v) ^ 2 + q.b * (C * u + S * v) * (-S * u + C * v)
      + q.c * (-S * u + C * v) ^ 2 = r.a * u ^ 2 + r.c * v ^ 2
        + (2 * (q.a - q.c) * C * S + q.b * (C ^ 2 - S ^ 2)) * u * v := by
    rw [hra, hrc]; ring
  have e4 : q.d * (C * u + S * v) + q.e * (-S * u + C * v) = r.d * u + r.e * v := by
    rw [hrd, hre]; ring
  have e5 : r.a * u ^ 2 + r.d * u = r.a * (A * Real.cos t) ^ 2 - r.d ^ 2 / (4 * r.a) := by
    rw [hu]; field_simp; ring
  have e6 : r.c * v ^ 2 + r.e * v = r.c * (B * Real.sin t) ^ 2 - r.e ^ 2 / (4 * r.c) := by
    rw [hv]; field_simp; ring
  have e7 : conicF r = 1 + r.d ^ 2 / (4 * r.a) + r.e ^ 2 / (4 * r.c) := rfl
  rw [hx] at e3
  rw [hA] at e5
  rw [hB] at e6
  linear_combination e3 + e4 + e5 + e6 + conicF r * hts + e7

theorem linspace2pi_head {n : Nat} (h : 2 ≤ n) : (linspace2pi n).head? = some 0 := by
  obtain ⟨k, rfl⟩ : ∃ k, n = k + 1 := ⟨n - 1, by omega⟩
  simp [linspace2pi, List.range_succ_eq_map]

theorem linspace2pi_last {n : Nat} (h : 2 ≤ n) : (linspace2pi n).getLast? = some (2 * Real.pi) := by
  obtain ⟨k, rfl⟩ : ∃ k, n = k + 1 := ⟨n - 1, by omega⟩
  have hk : (k : ℝ) ≠ 0 := by exact_mod_cast (by omega : k ≠ 0)
  simp [linspace2pi, List.range_succ, hk]

/-- C30: the curve returned by `fit_ellipse` has as many points as the contour, is closed, and lies on
the fitted conic when this is a real ellipse with resolved tilt. -/
theorem C30_curve (pts curve : List (ℝ × ℝ)) (prm : ℝ × ℝ × Option ℝ) (h : fitEllipse pts = .ok (curve, prm)) :
    curve.length = pts.length ∧ (2 ≤ pts.length → curve.head? = curve.getLast? ∧ curve ≠ []) ∧
    ∃ q, fitConic pts = .ok q ∧
      (RealEllipse q.a q.b q.c q.d q.e (meanPt pts) → Resolved q →
        ∀ p ∈ curve, OnConic q.a q.b q.c q.d q.e (meanPt pts) p) := by
  unfold fitEllipse at h
  cases hq : fitConic pts with
  | error e => rw [hq] at h; simp [bind, Except.bind] at h
  | ok q =>
    rw [hq] at h
    simp only [bind, Except.bind, pure, Except.pure, Except.ok.injEq, Prod.mk.injEq] at h
    obtain ⟨rfl, _⟩ := h
    refine ⟨by simp [linspace2pi], ?_, q, rfl, ?_⟩
    · intro h2
      rw [List.head?_map, List.getLast?_map, linspace2pi_head h2, linspace2pi_last h2]
      refine ⟨?_, ?_⟩
      · simp only [Option.map_some, Option.some.injEq, ellipsePoint, Real.cos_zero, Real.sin_zero,
          Real.cos_two_pi, Real.sin_two_pi]
      · intro he
        have := congrArg List.length he
        simp [linspace2pi] at this
        simp [this] at h2
    · intro hE hR p hp
      obtain ⟨t, _, rfl⟩ := List.mem_map.mp hp
      exact C30_point_on_conic q _ t hE hR

/-- a tilted ellipse off its mean meets the hypotheses of C30 -/
example : RealEllipse 1 1 1 0 0 (2, 3) ∧ Resolved ⟨1, 1, 1, 0, 0⟩ := by
  refine ⟨⟨by norm_num, (3, 3), (2, 4), by simp, ?_, ?_⟩, Or.inr ?_⟩
  · simp [OnConic, form]; norm_num
  · simp [OnConic, form]; norm_num
  · norm_num

/-! ### C31 -/

theorem sum_map_sub_mean_fst (pts : List (ℝ × ℝ)) (h : pts ≠ []) :
    (pts.map fun p => p.1 - (meanPt pts).1).sum = 0 := by
  have hl : (pts.length : ℝ) ≠ 0 := by exact_mod_cast fun e => h (List.length_eq_zero_iff.mp e)
  have : ∀ (l : List (ℝ × ℝ)) (c : ℝ), (l.map fun p => p.1 - c).sum = (l.map Prod.fst).sum - l.length * c := by
    intro l c
    induction l with
    | nil => simp
    | cons a l ih => simp only [List.map_cons, List.sum_cons, ih, List.length_cons]; push_cast; ring
  rw [this]
  simp only [meanPt]
  field_simp
  ring

theorem sum_map_sub_mean_snd (pts : List (ℝ × ℝ)) (h : pts ≠ []) :
    (pts.map fun p => p.2 - (meanPt pts).2).sum = 0 := by
  have hl : (pts.length : ℝ) ≠ 0 := by exact_mod_cast fun e => h (List.length_eq_zero_iff.mp e)
  have : ∀ (l : List (ℝ × ℝ)) (c : ℝ), (l.map fun p => p.2 - c).sum = (l.map Prod.snd).sum - l.length * c := by
    intro l c
    induction l with
    | nil => simp
    | cons a l ih => simp only [List.map_cons, List.sum_cons, ih, List.length_cons]; push_cast; ring
  rw [this]
  simp only [meanPt]
  field_simp
  ring

theorem form_nonneg (E : Ellipse) (x y : ℝ) : 0 ≤ form E.A E.B E.C x y := by
  have h1 := E.posA
  have h2 := E.disc
  have : 4 * E.A * form E.A E.B E.C x y = (2 * E.A * x + E.B * y) ^ 2 + (4 * E.A * E.C - E.B ^ 2) * y ^ 2 := by
    unfold form; ring
  have h3 : 0 ≤ 4 * E.A * form E.A E.B E.C x y := by
    rw [this]; have : 0 ≤ 4 * E.A * E.C - E.B ^ 2 := by linarith
    positivity
  have h4 : 0 < 4 * E.A := by linarith
  exact nonneg_of_mul_nonneg_right h3 h4

theorem form_eq_zero (E : Ellipse) (x y : ℝ) (h : form E.A E.B E.C x y = 0) : x = 0 ∧ y = 0 := by
  have h1 := E.posA
  have h2 := E.disc
  have e : 4 * E.A * form E.A E.B E.C x y = (2 * E.A * x + E.B * y) ^ 2 + (4 * E.A * E.C - E.B ^ 2) * y ^ 2 := by
    unfold form; ring
  rw [h, mul_zero] at e
  have hp : 0 < 4 * E.A * E.C - E.B ^ 2 := by linarith
  have hy2 : (4 * E.A * E.C - E.B ^ 2) * y ^ 2 = 0 := by
    have := sq_nonneg (2 * E.A * x + E.B * y)
    have := mul_nonneg hp.le (sq_nonneg y)
    linarith
  have hy : y = 0 := by
    rcases mul_eq_zero.mp hy2 with h | h
    · exact absurd h hp.ne'
    · exact pow_eq_zero_iff two_ne_zero |>.mp h
  subst hy
  refine ⟨?_, rfl⟩
  have : E.A * x ^ 2 = 0 := by simpa [form] using h
  rcases mul_eq_zero.mp this with h | h
  · exact absurd h h1.ne'
  · exact pow_eq_zero_iff two_ne_zero |>.mp h

theorem sum_lin (l : List (ℝ × ℝ)) (f g h : ℝ × ℝ → ℝ) (a b c k : ℝ)
    (F : ℝ × ℝ → ℝ) (hF : ∀ p ∈ l, F p = a * f p + b * g p + c * h p + k) :
    (l.map F).sum = a * (l.map f).sum + b * (l.map g).sum + c * (l.map h).sum + l.length * k := by
  induction l with
  | nil => simp
  | cons p l ih =>
    simp only [List.map_cons, List.sum_cons, List.length_cons]
    rw [ih (fun q hq => hF q (List.mem_cons_of_mem _ hq)), hF p List.mem_cons_self]
    push_cast; ring

theorem sum_eq_zero_of_nonneg (l : List (ℝ × ℝ)) (F : ℝ × ℝ → ℝ) (hF : ∀ p ∈ l, 0 ≤ F p)
    (h : (l.map F).sum ≤ 0) : ∀ p ∈ l, F p = 0 := by
  induction l with
  | nil => simp
  | cons p l ih =>
    have h0 := hF p List.mem_cons_self
    have h1 : 0 ≤ (l.map F).sum := by
      apply List.sum_nonneg
      intro x hx
      obtain ⟨q, hq, rfl⟩ := List.mem_map.mp hx
      exact hF q (List.mem_cons_of_mem _ hq)
    simp only [List.map_cons, List.sum_cons] at h
    intro q hq
    rcases List.mem_cons.mp hq with rfl | hq
    · linarith
    · exact ih (fun q hq => hF q (List.mem_cons_of_mem _ hq)) (by linarith) q hq

theorem normalMat_zero (m : ℝ × ℝ) (pts : List (ℝ × ℝ)) (h : ∀ p ∈ pts, p.1 - m.1 = 0 ∧ p.2 - m.2 = 0) :
    (normalMat m pts)ᵀ.det = 0 := by
  have : (normalMat m pts)ᵀ = 0 := by
    ext i j
    simp only [normalMat, transpose_apply, of_apply, Matrix.zero_apply]
    apply List.sum_eq_zero
    intro x hx
    obtain ⟨p, hp, rfl⟩ := List.mem_map.mp hx
    obtain ⟨h1, h2⟩ := h p hp
    have : designRow m p j = 0 := by
      unfold designRow; rw [h1, h2]; fin_cases j <;> simp
    rw [this, zero_mul]
  rw [this]
  simp

/-- the centroid of points of an ellipse is strictly inside, unless they all coincide -/
theorem centroid_inside (E : Ellipse) (pts : List (ℝ × ℝ)) (hon : ∀ p ∈ pts, E.On p)
    (hdet : (normalMat (meanPt pts) pts)ᵀ.det ≠ 0) :
    0 < 1 - form E.A E.B E.C ((meanPt pts).1 - E.centre.1) ((meanPt pts).2 - E.centre.2) := by
  have hne : pts ≠ [] := by
    rintro rfl
    exact hdet (normalMat_zero _ _ (by simp))
  have hl : (0 : ℝ) < pts.length := by exact_mod_cast List.length_pos_iff.mpr hne
  set m := meanPt pts with hm
  by_contra hneg
  have hsum : (pts.map fun p => form E.A E.B E.C (p.1 - m.1) (p.2 - m.2)).sum ≤ 0 := by
    have e := sum_lin pts (fun p => p.1 - m.1) (fun p => p.2 - m.2) (fun _ => 0)
      (-(2 * E.A * (m.1 - E.centre.1) + E.B * (m.2 - E.centre.2)))
      (-(2 * E.C * (m.2 - E.centre.2) + E.B * (m.1 - E.centre.1))) 0
      (1 - form E.A E.B E.C (m.1 - E.centre.1) (m.2 - E.centre.2))
      (fun p => form E.A E.B E.C (p.1 - m.1) (p.2 - m.2)) (by
        intro p hp
        have := hon p hp
        unfold Ellipse.On form at this
        unfold form
        linear_combination this)
    rw [e, sum_map_sub_mean_fst pts hne, sum_map_sub_mean_snd pts hne]
    have := mul_nonpos_of_nonneg_of_nonpos hl.le (not_lt.mp hneg)
    linarith
  have hz := sum_eq_zero_of_nonneg pts _ (fun p _ => form_nonneg E _ _) hsum
  exact hdet (normalMat_zero m pts fun p hp => form_eq_zero E _ _ (hz p hp))

/-- the solution of the normal equations when every point satisfies the equation exactly -/
theorem fitConic_exact (pts : List (ℝ × ℝ)) (q : Conic)
    (hq : ∀ p ∈ pts, OnConic q.a q.b q.c q.d q.e (meanPt pts) p)
    (hdet : (normalMat (meanPt pts) pts)ᵀ.det ≠ 0) : fitConic pts = .ok q := by
  set m := meanPt pts with hm
  have hmul : (normalMat m pts)ᵀ *ᵥ ![q.a, q.b, q.c, q.d, q.e] = normalRhs m pts := by
    funext i
    simp only [mulVec, dotProduct, transpose_apply, normalMat, of_apply, normalRhs, Fin.sum_univ_five]
    simp only [cons_val_zero, cons_val_one, cons_val]
    clear hdet hm
    clear_value m
    induction pts with
    | nil => simp
    | cons p pts ih =>
      have hp := hq p List.mem_cons_self
      have ih := ih (fun p hp => hq p (List.mem_cons_of_mem _ hp))
      simp only [List.map_cons, List.sum_cons]
      have key : designRow m p 0 * q.a + designRow m p 1 * q.b + designRow m p 2 * q.c
          + designRow m p 3 * q.d + designRow m p 4 * q.e = 1 := by
        unfold OnConic form at hp
        simp only [designRow, cons_val_zero, cons_val_one, cons_val]
        linear_combination hp
      linear_combination ih + designRow m p i * key
  have hinv : (normalMat m pts)ᵀ⁻¹ *ᵥ normalRhs m pts = ![q.a, q.b, q.c, q.d, q.e] := by
    rw [← hmul, mulVec_mulVec, nonsing_inv_mul _ (isUnit_iff_ne_zero.mpr hdet), one_mulVec]
  unfold fitConic
  simp only [← hm, if_neg hdet, hinv]
  rfl

/-- no quadratic through the centroid passes through all points -/
def Generic (pts : List (ℝ × ℝ)) : Prop :=
  ∀ A B C D E : ℝ, (∀ p ∈ pts, form A B C (p.1 - (meanPt pts).1) (p.2 - (meanPt pts).2)
    + D * (p.1 - (meanPt pts).1) + E * (p.2 - (meanPt pts).2) = 0) → A = 0 ∧ B = 0 ∧ C = 0 ∧ D = 0 ∧ E = 0

theorem normal_quad (m : ℝ × ℝ) (pts : List (ℝ × ℝ)) (v : Fin 5 → ℝ) :
    v ⬝ᵥ ((normalMat m pts)ᵀ *ᵥ v) = (pts.map fun p => (designRow m p ⬝ᵥ v) ^ 2).sum := by
  simp only [mulVec, dotProduct, transpose_apply, normalMat, of_apply, Fin.sum_univ_five]
  induction pts with
  | nil => simp
  | cons p pts ih => simp only [List.map_cons, List.sum_cons, ← ih]; ring

/-- the normal equations are regular exactly for generic points -/
theorem det_ne_zero_iff_generic (pts : List (ℝ × ℝ)) :
    (normalMat (meanPt pts) pts)ᵀ.det ≠ 0 ↔ Generic pts := by
  set m := meanPt pts with hm
  constructor
  · intro hdet A B C D E h
    by_contra hne
    apply hdet
    rw [← exists_mulVec_eq_zero_iff]
    refine ⟨![A, B, C, D, E], ?_, ?_⟩
    · intro h0
      apply hne
      refine ⟨?_, ?_, ?_, ?_, ?_⟩
      · simpa using congrFun h0 0
      · simpa using congrFun h0 1
      · simpa using congrFun h0 2
      · simpa using congrFun h0 3
      · simpa using congrFun h0 4
    · funext i
      simp only [mulVec, dotProduct, transpose_apply, normalMat, of_apply, Fin.sum_univ_five]
      simp only [cons_val_zero, cons_val_one, cons_val, Pi.zero_apply]
      rw [← hm] at h
      clear hdet hm hne
      clear_value m
      induction pts with
      | nil => simp
      | cons p pts ih =>
        have hp := h p List.mem_cons_self
        have ih := ih (fun p hp => h p (List.mem_cons_of_mem _ hp))
        simp only [List.map_cons, List.sum_cons]
        have key : designRow m p 0 * A + designRow m p 1 * B + designRow m p 2 * C
            + designRow m p 3 * D + designRow m p 4 * E = 0 := by
          unfold form at hp
          simp only [designRow, cons_val_zero, cons_val_one, cons_val]
          linear_combination hp
        linear_combination ih + designRow m p i * key
  · intro hg hdet
    rw [← exists_mulVec_eq_zero_iff] at hdet
    obtain ⟨v, hv, h0⟩ := hdet
    have hs := normal_quad m pts v
    rw [h0, dotProduct_zero] at hs
    have hz := sum_eq_zero_of_nonneg pts _ (fun p _ => sq_nonneg (designRow m p ⬝ᵥ v)) hs.symm.le
    obtain ⟨z0, z1, z2, z3, z4⟩ := hg (v 0) (v 1) (v 2) (v 3) (v 4) (by
      intro p hp
      have := pow_eq_zero_iff two_ne_zero |>.mp (hz p hp)
      simp only [dotProduct, Fin.sum_univ_five, designRow, cons_val_zero, cons_val_one, cons_val] at this
      unfold form
      linear_combination this)
    apply hv
    funext i
    fin_cases i
    exacts [z0, z1, z2, z3, z4]

/-- C31: generic points of one ellipse (regular normal equations) give a conic that is this ellipse: it has
the same points, a positive form and is a real ellipse. -/
theorem C31_exact (E : Ellipse) (pts : List (ℝ × ℝ)) (hon : ∀ p ∈ pts, E.On p)
    (hgen : Generic pts) :
    ∃ q, fitConic pts = .ok q ∧ (∀ p, OnConic q.a q.b q.c q.d q.e (meanPt pts) p ↔ E.On p) ∧
      RealEllipse q.a q.b q.c q.d q.e (meanPt pts) ∧
      ∃ k, 0 < k ∧ q.a = k * E.A ∧ q.b = k * E.B ∧ q.c = k * E.C := by
  have hdet := (det_ne_zero_iff_generic pts).mpr hgen
  have hk := centroid_inside E pts hon hdet
  set m := meanPt pts with hm
  set κ := 1 - form E.A E.B E.C (m.1 - E.centre.1) (m.2 - E.centre.2) with hκ
  let q : Conic := ⟨κ⁻¹ * E.A, κ⁻¹ * E.B, κ⁻¹ * E.C,
    κ⁻¹ * (2 * E.A * (m.1 - E.centre.1) + E.B * (m.2 - E.centre.2)),
    κ⁻¹ * (2 * E.C * (m.2 - E.centre.2) + E.B * (m.1 - E.centre.1))⟩
  have hiff : ∀ p, OnConic q.a q.b q.c q.d q.e m p ↔ E.On p := by
    intro p
    have : (form q.a q.b q.c (p.1 - m.1) (p.2 - m.2) + q.d * (p.1 - m.1) + q.e * (p.2 - m.2)) * κ
        = form E.A E.B E.C (p.1 - E.centre.1) (p.2 - E.centre.2) - 1 + κ := by
      simp only [q, form]
      field_simp
      rw [hκ]; unfold form; ring
    unfold OnConic Ellipse.On
    constructor
    · intro h; rw [h] at this; linarith
    · intro h; rw [h] at this
      have : (form q.a q.b q.c (p.1 - m.1) (p.2 - m.2) + q.d * (p.1 - m.1) + q.e * (p.2 - m.2)) * κ = 1 * κ := by
        linarith
      exact mul_right_cancel₀ hk.ne' this
  refine ⟨q, fitConic_exact pts q (fun p hp => (hiff p).mpr (hon p hp)) hdet, hiff, ?_, κ⁻¹,
    inv_pos.mpr hk, rfl, rfl, rfl⟩
  refine ⟨?_, ?_⟩
  · have := E.disc
    have h2 : 0 < κ⁻¹ ^ 2 := by positivity
    show (κ⁻¹ * E.B) ^ 2 < 4 * (κ⁻¹ * E.A) * (κ⁻¹ * E.C)
    nlinarith
  · by_contra hno
    push Not at hno
    cases hp : pts with
    | nil => rw [hp] at hdet; exact hdet (normalMat_zero _ _ (by simp))
    | cons p0 rest =>
      have hall : ∀ p ∈ pts, p = p0 := by
        intro p hpm
        by_contra hpe
        exact hno p p0 hpe ((hiff p).mpr (hon p hpm)) ((hiff p0).mpr (hon p0 (by rw [hp]; simp)))
      have hlen : (pts.length : ℝ) ≠ 0 := by rw [hp]; simp; positivity
      have e1 : (pts.map fun p => p.1 - m.1).sum = pts.length * (p0.1 - m.1) := by
        have := sum_lin pts (fun _ => 0) (fun _ => 0) (fun _ => 0) 0 0 0 (p0.1 - m.1) (fun p => p.1 - m.1)
          (by intro p hpm; rw [hall p hpm]; ring)
        rw [this]; ring
      have e2 : (pts.map fun p => p.2 - m.2).sum = pts.length * (p0.2 - m.2) := by
        have := sum_lin pts (fun _ => 0) (fun _ => 0) (fun _ => 0) 0 0 0 (p0.2 - m.2) (fun p => p.2 - m.2)
          (by intro p hpm; rw [hall p hpm]; ring)
        rw [this]; ring
      have hne : pts ≠ [] := by rw [hp]; simp
      rw [sum_map_sub_mean_fst pts hne] at e1
      rw [sum_map_sub_mean_snd pts hne] at e2
      apply hdet
      apply normalMat_zero
      intro p hpm
      rw [hall p hpm]
      constructor
      · rcases mul_eq_zero.mp e1.symm with h | h
        · exact absurd h hlen
        · exact h
      · rcases mul_eq_zero.mp e2.symm with h | h
        · exact absurd h hlen
        · exact h

/-- the ellipse has no tilt, or one above the tolerance -/
def ResolvedE (E : Ellipse) : Prop := E.B = 0 ∨ (1 / 1000 < |E.B / E.A| ∧ 1 / 1000 < |E.B / E.C|)

/-- C31: the whole function on such points: no exception, and with resolved tilt every point of the
returned curve is on the ellipse. -/
theorem C31_curve (E : Ellipse) (pts : List (ℝ × ℝ)) (hon : ∀ p ∈ pts, E.On p)
    (hgen : Generic pts) :
    ∃ curve prm, fitEllipse pts = .ok (curve, prm) ∧ (ResolvedE E → ∀ p ∈ curve, E.On p) := by
  obtain ⟨q, hq, hiff, hre, k, hk, ea, eb, ec⟩ := C31_exact E pts hon hgen
  have hfit : ∃ curve prm, fitEllipse pts = .ok (curve, prm) := by
    unfold fitEllipse; rw [hq]; exact ⟨_, _, rfl⟩
  obtain ⟨curve, prm, hf⟩ := hfit
  refine ⟨curve, prm, hf, fun hR p hp => ?_⟩
  obtain ⟨_, _, q', hq', hc⟩ := C30_curve pts curve prm hf
  rw [hq] at hq'
  cases hq'
  refine (hiff p).mp (hc hre ?_ p hp)
  unfold Resolved
  rw [ea, eb, ec, mul_div_mul_left _ _ hk.ne', mul_div_mul_left _ _ hk.ne']
  rcases hR with h | h
  · left; rw [h, mul_zero]
  · exact Or.inr h

/-- three points of an ellipse are not collinear -/
theorem no_three_collinear (E : Ellipse) {a b c : ℝ × ℝ} (ha : E.On a) (hb : E.On b) (hc : E.On c)
    (hab : a ≠ b) (hac : a ≠ c) (hbc : b ≠ c) :
    (b.1 - a.1) * (c.2 - a.2) - (b.2 - a.2) * (c.1 - a.1) ≠ 0 := by
  intro hcr
  set ux := b.1 - a.1 with hux
  set uy := b.2 - a.2 with huy
  have hn : ux ^ 2 + uy ^ 2 ≠ 0 := by
    intro h
    have h1 : ux ^ 2 = 0 := by nlinarith [sq_nonneg ux, sq_nonneg uy]
    have h2 : uy ^ 2 = 0 := by nlinarith [sq_nonneg ux, sq_nonneg uy]
    have h1 := pow_eq_zero_iff two_ne_zero |>.mp h1
    have h2 := pow_eq_zero_iff two_ne_zero |>.mp h2
    exact hab (Prod.ext (by linarith) (by linarith))
  set s := (ux * (c.1 - a.1) + uy * (c.2 - a.2)) / (ux ^ 2 + uy ^ 2) with hs
  have ex : c.1 - a.1 = s * ux := by
    rw [hs]; field_simp; linear_combination (-uy) * hcr
  have ey : c.2 - a.2 = s * uy := by
    rw [hs]; field_simp; linear_combination ux * hcr
  unfold Ellipse.On at ha hb hc
  have q : form E.A E.B E.C ux uy ≠ 0 := by
    intro h0
    obtain ⟨h1, h2⟩ := form_eq_zero E _ _ h0
    exact hn (by rw [h1, h2]; ring)
  set x := a.1 - E.centre.1 with hx
  set y := a.2 - E.centre.2 with hy
  have eb1 : b.1 - E.centre.1 = x + ux := by rw [hx, hux]; ring
  have eb2 : b.2 - E.centre.2 = y + uy := by rw [hy, huy]; ring
  have ec1 : c.1 - E.centre.1 = x + s * ux := by rw [hx, ← ex]; ring
  have ec2 : c.2 - E.centre.2 = y + s * uy := by rw [hy, ← ey]; ring
  rw [eb1, eb2] at hb
  rw [ec1, ec2] at hc
  have : s * (s - 1) * form E.A E.B E.C ux uy = 0 := by
    unfold form at *
    linear_combination hc - s * hb - (1 - s) * ha
  rcases mul_eq_zero.mp this with h | h
  · rcases mul_eq_zero.mp h with h | h
    · rw [h] at ex ey
      exact hac (Prod.ext (by linarith) (by linarith))
    · have h : s = 1 := by linarith
      rw [h] at ex ey
      exact hbc (Prod.ext (by linarith) (by linarith))
  · exact q h

/-- value of a quadratic polynomial -/
def quad (A B C D E F : ℝ) (p : ℝ × ℝ) : ℝ := form A B C p.1 p.2 + D * p.1 + E * p.2 + F

/-- a quadratic vanishing on five points of an ellipse and at the midpoint of two of them is zero -/
theorem quad_zero (El : Ellipse) {A B C D E F : ℝ} {p1 p2 p3 p4 p5 : ℝ × ℝ}
    (hnd : [p1, p2, p3, p4, p5].Nodup) (hon : ∀ p ∈ [p1, p2, p3, p4, p5], El.On p)
    (hz : ∀ p ∈ [p1, p2, p3, p4, p5], quad A B C D E F p = 0)
    (hmid : quad A B C D E F ((p1.1 + p2.1) / 2, (p1.2 + p2.2) / 2) = 0) (p : ℝ × ℝ) :
    quad A B C D E F p = 0 := by
  simp only [List.nodup_cons, List.mem_cons, List.not_mem_nil, or_false, not_or, List.nodup_nil,
    not_false_eq_true, and_true] at hnd
  obtain ⟨⟨n12, n13, n14, n15⟩, ⟨n23, n24, n25⟩, ⟨n34, n35⟩, n45⟩ := hnd
  simp only [List.forall_mem_cons, List.not_mem_nil, false_implies, implies_true, and_true] at hon hz
  obtain ⟨o1, o2, o3, o4, o5⟩ := hon
  obtain ⟨z1, z2, z3, z4, z5⟩ := hz
  set ux := p2.1 - p1.1 with hux
  set uy := p2.2 - p1.2 with huy
  set N := ux ^ 2 + uy ^ 2 with hN
  have hn : N ≠ 0 := by
    intro h
    have h1 : ux ^ 2 = 0 := by nlinarith [sq_nonneg ux, sq_nonneg uy]
    have h2 : uy ^ 2 = 0 := by nlinarith [sq_nonneg ux, sq_nonneg uy]
    have h1 := pow_eq_zero_iff two_ne_zero |>.mp h1
    have h2 := pow_eq_zero_iff two_ne_zero |>.mp h2
    exact n12 (Prod.ext (by linarith) (by linarith))
  -- coordinates along and across the line
  set S : ℝ × ℝ → ℝ := fun p => (ux * (p.1 - p1.1) + uy * (p.2 - p1.2)) / N with hS
  set T : ℝ × ℝ → ℝ := fun p => (ux * (p.2 - p1.2) - uy * (p.1 - p1.1)) / N with hT
  set h1 := 2 * A * p1.1 * ux + B * (p1.1 * uy + p1.2 * ux) + 2 * C * p1.2 * uy + D * ux + E * uy with hh1
  set h2 := 2 * A * p1.1 * (-uy) + B * (p1.1 * ux + p1.2 * (-uy)) + 2 * C * p1.2 * ux + D * (-uy) + E * ux with hh2
  set h3 := form A B C ux uy with hh3
  set h4 := 2 * A * ux * (-uy) + B * (ux * ux + uy * (-uy)) + 2 * C * uy * ux with hh4
  set h5 := form A B C (-uy) ux with hh5
  have exp : ∀ p, quad A B C D E F p = quad A B C D E F p1 + h1 * S p + h2 * T p + h3 * S p ^ 2
      + h4 * S p * T p + h5 * T p ^ 2 := by
    intro p
    have e1 : p.1 = p1.1 + S p * ux + T p * (-uy) := by
      rw [hS, hT]; field_simp; rw [hN]; ring
    have e2 : p.2 = p1.2 + S p * uy + T p * ux := by
      rw [hS, hT]; field_simp; rw [hN]; ring
    generalize S p = σ at *
    generalize T p = τ at *
    unfold quad form
    rw [e1, e2, hh1, hh2, hh3, hh4, hh5]
    unfold form
    ring
  have S2 : S p2 = 1 := by
    simp only [hS]; rw [← hux, ← huy, hN]; rw [hN] at hn; field_simp
  have T2 : T p2 = 0 := by simp only [hT]; rw [← hux, ← huy]; ring
  have Sm : S ((p1.1 + p2.1) / 2, (p1.2 + p2.2) / 2) = 1 / 2 := by
    have : S ((p1.1 + p2.1) / 2, (p1.2 + p2.2) / 2) = S p2 / 2 := by simp only [hS]; ring
    rw [this, S2]
  have Tm : T ((p1.1 + p2.1) / 2, (p1.2 + p2.2) / 2) = 0 := by
    have : T ((p1.1 + p2.1) / 2, (p1.2 + p2.2) / 2) = T p2 / 2 := by simp only [hT]; ring
    rw [this, T2]; ring
  have g2 := exp p2
  rw [z1, z2, S2, T2] at g2
  have gm := exp ((p1.1 + p2.1) / 2, (p1.2 + p2.2) / 2)
  rw [z1, hmid, Sm, Tm] at gm
  have v1 : h1 = 0 := by linarith
  have v3 : h3 = 0 := by linarith
  have Tne : ∀ r, El.On r → p1 ≠ r → p2 ≠ r → T r ≠ 0 := by
    intro r hr a1 a2 h0
    have := no_three_collinear El o1 o2 hr n12 a1 a2
    apply this
    simp only [hT] at h0
    rcases div_eq_zero_iff.mp h0 with h | h
    · rw [hux, huy] at h; linarith
    · exact absurd h hn
  have lin : ∀ r, El.On r → p1 ≠ r → p2 ≠ r → quad A B C D E F r = 0 → h2 + h4 * S r + h5 * T r = 0 := by
    intro r hr a1 a2 hzr
    have g := exp r
    rw [hzr, z1, v1, v3] at g
    have : T r * (h2 + h4 * S r + h5 * T r) = 0 := by linarith
    rcases mul_eq_zero.mp this with h | h
    · exact absurd h (Tne r hr a1 a2)
    · exact h
  have l3 := lin p3 o3 n13 n23 z3
  have l4 := lin p4 o4 n14 n24 z4
  have l5 := lin p5 o5 n15 n25 z5
  have hcol := no_three_collinear El o3 o4 o5 n34 n35 n45
  have hdet : (S p4 - S p3) * (T p5 - T p3) - (T p4 - T p3) * (S p5 - S p3) ≠ 0 := by
    intro h
    apply hcol
    have : ((S p4 - S p3) * (T p5 - T p3) - (T p4 - T p3) * (S p5 - S p3)) * N
        = (p4.1 - p3.1) * (p5.2 - p3.2) - (p4.2 - p3.2) * (p5.1 - p3.1) := by
      simp only [hS, hT]
      field_simp
      rw [hN]
      ring
    rw [← this, h, zero_mul]
  have v4 : h4 = 0 := by
    have : h4 * ((S p4 - S p3) * (T p5 - T p3) - (T p4 - T p3) * (S p5 - S p3)) = 0 := by
      linear_combination (l4 - l3) * (T p5 - T p3) - (l5 - l3) * (T p4 - T p3)
    rcases mul_eq_zero.mp this with h | h
    · exact h
    · exact absurd h hdet
  have v5 : h5 = 0 := by
    have : h5 * ((S p4 - S p3) * (T p5 - T p3) - (T p4 - T p3) * (S p5 - S p3)) = 0 := by
      linear_combination (l5 - l3) * (S p4 - S p3) - (l4 - l3) * (S p5 - S p3)
    rcases mul_eq_zero.mp this with h | h
    · exact h
    · exact absurd h hdet
  have v2 : h2 = 0 := by rw [v4, v5] at l3; linarith
  rw [exp p, z1, v1, v2, v3, v4, v5]
  ring

/-- C31: five different points of an ellipse are enough: then the normal equations are regular. -/
theorem C31_five_points (El : Ellipse) (pts : List (ℝ × ℝ)) (hon : ∀ p ∈ pts, El.On p)
    (p1 p2 p3 p4 p5 : ℝ × ℝ) (hnd : [p1, p2, p3, p4, p5].Nodup)
    (hmem : ∀ p ∈ [p1, p2, p3, p4, p5], p ∈ pts) : Generic pts := by
  intro A B C D E h
  set m := meanPt pts with hm
  have hne : pts ≠ [] := List.ne_nil_of_mem (hmem p1 (by simp))
  have n12 : p1 ≠ p2 := by
    intro e; subst e; simp at hnd
  have hl : (0 : ℝ) < pts.length := by exact_mod_cast List.length_pos_iff.mpr hne
  -- the centroid is inside
  have hκ : 0 < 1 - form El.A El.B El.C (m.1 - El.centre.1) (m.2 - El.centre.2) := by
    by_contra hneg
    have hsum : (pts.map fun p => form El.A El.B El.C (p.1 - m.1) (p.2 - m.2)).sum ≤ 0 := by
      have e := sum_lin pts (fun p => p.1 - m.1) (fun p => p.2 - m.2) (fun _ => 0)
        (-(2 * El.A * (m.1 - El.centre.1) + El.B * (m.2 - El.centre.2)))
        (-(2 * El.C * (m.2 - El.centre.2) + El.B * (m.1 - El.centre.1))) 0
        (1 - form El.A El.B El.C (m.1 - El.centre.1) (m.2 - El.centre.2))
        (fun p => form El.A El.B El.C (p.1 - m.1) (p.2 - m.2)) (by
          intro p hp
          have := hon p hp
          unfold Ellipse.On form at this
          unfold form
          linear_combination this)
      rw [e, sum_map_sub_mean_fst pts hne, sum_map_sub_mean_snd pts hne]
      have := mul_nonpos_of_nonneg_of_nonpos hl.le (not_lt.mp hneg)
      linarith
    have hz := sum_eq_zero_of_nonneg pts _ (fun p _ => form_nonneg El _ _) hsum
    obtain ⟨a1, b1⟩ := form_eq_zero El _ _ (hz p1 (hmem p1 (by simp)))
    obtain ⟨a2, b2⟩ := form_eq_zero El _ _ (hz p2 (hmem p2 (by simp)))
    exact n12 (Prod.ext (by linarith) (by linarith))
  -- subtract the multiple of the ellipse that vanishes at the midpoint
  set G : ℝ × ℝ → ℝ := fun p => form A B C (p.1 - m.1) (p.2 - m.2) + D * (p.1 - m.1) + E * (p.2 - m.2) with hG
  set W : ℝ × ℝ → ℝ := fun p => form El.A El.B El.C (p.1 - El.centre.1) (p.2 - El.centre.2) - 1 with hW
  set mid : ℝ × ℝ := ((p1.1 + p2.1) / 2, (p1.2 + p2.2) / 2) with hmid
  have o1 := hon p1 (hmem p1 (by simp))
  have o2 := hon p2 (hmem p2 (by simp))
  have hWm : W mid ≠ 0 := by
    intro h0
    have e : W mid = (W p1 + W p2) / 2 - form El.A El.B El.C ((p2.1 - p1.1) / 2) ((p2.2 - p1.2) / 2) := by
      simp only [hW, hmid]; unfold form; ring
    have w1 : W p1 = 0 := sub_eq_zero.mpr o1
    have w2 : W p2 = 0 := sub_eq_zero.mpr o2
    rw [h0, w1, w2] at e
    obtain ⟨e1, e2⟩ := form_eq_zero El _ _ (by linarith : form El.A El.B El.C ((p2.1 - p1.1) / 2) ((p2.2 - p1.2) / 2) = 0)
    exact n12 (Prod.ext (by linarith) (by linarith))
  set l := G mid / W mid with hl'
  have hH : ∃ A' B' C' D' E' F', ∀ p, G p - l * W p = quad A' B' C' D' E' F' p := by
    refine ⟨A - l * El.A, B - l * El.B, C - l * El.C,
      -2 * A * m.1 - B * m.2 + D - l * (-2 * El.A * El.centre.1 - El.B * El.centre.2),
      -2 * C * m.2 - B * m.1 + E - l * (-2 * El.C * El.centre.2 - El.B * El.centre.1),
      form A B C m.1 m.2 - D * m.1 - E * m.2 - l * (form El.A El.B El.C El.centre.1 El.centre.2 - 1), ?_⟩
    intro p
    simp only [hG, hW, quad, form]
    ring
  obtain ⟨A', B', C', D', E', F', hq⟩ := hH
  have hall : ∀ p, G p = l * W p := by
    intro p
    have := quad_zero El (A := A') (B := B') (C := C') (D := D') (E := E') (F := F') hnd
      (fun p hp => hon p (hmem p hp))
      (fun p hp => by
        rw [← hq p]
        have w : W p = 0 := sub_eq_zero.mpr (hon p (hmem p hp))
        have g : G p = 0 := h p (hmem p hp)
        rw [w, g]; ring)
      (by rw [← hq, hl']; field_simp; ring) p
    rw [← hq] at this
    linarith
  have hl0 : l = 0 := by
    have := hall m
    simp only [hG, hW, sub_self] at this
    have h0 : form A B C 0 0 + D * 0 + E * 0 = 0 := by unfold form; ring
    rw [h0] at this
    rcases mul_eq_zero.mp this.symm with h | h
    · exact h
    · linarith
  have hG0 : ∀ x y, form A B C x y + D * x + E * y = 0 := by
    intro x y
    have := hall (x + m.1, y + m.2)
    rw [hl0, zero_mul] at this
    simpa [hG] using this
  have k1 := hG0 1 0
  have k2 := hG0 (-1) 0
  have k3 := hG0 0 1
  have k4 := hG0 0 (-1)
  have k5 := hG0 1 1
  unfold form at k1 k2 k3 k4 k5
  refine ⟨by linarith, by linarith, by linarith, by linarith, by linarith⟩

/-- five points of a tilted ellipse meet the hypotheses of C31 -/
example : ∃ (El : Ellipse) (pts : List (ℝ × ℝ)), (∀ p ∈ pts, El.On p) ∧ Generic pts ∧ ResolvedE El := by
  let El : Ellipse := ⟨1, 1, 1, (0, 0), by norm_num, by norm_num⟩
  have hon : ∀ p ∈ [((1:ℝ), (0:ℝ)), (0, 1), (-1, 0), (0, -1), (1, -1)], El.On p := by
    intro p hp
    simp only [List.mem_cons, List.not_mem_nil, or_false] at hp
    rcases hp with rfl | rfl | rfl | rfl | rfl <;> simp [El, Ellipse.On, form]
  refine ⟨El, [(1, 0), (0, 1), (-1, 0), (0, -1), (1, -1)], hon,
    C31_five_points El _ hon (1, 0) (0, 1) (-1, 0) (0, -1) (1, -1) ?_ (fun p hp => hp), Or.inr ?_⟩
  · norm_num
  · norm_num [El]

/-! ### C32 -/

theorem majorAxis_of_eigen {A B C θ l : ℝ} (hgap : 0 < A + C - 2 * l)
    (e1 : A * Real.cos θ + B / 2 * Real.sin θ = l * Real.cos θ)
    (e2 : B / 2 * Real.cos θ + C * Real.sin θ = l * Real.sin θ) : MajorAxis A B C θ := by
  have hcs := Real.sin_sq_add_cos_sq θ
  have base : form A B C (Real.cos θ) (Real.sin θ) = l := by
    unfold form; linear_combination Real.cos θ * e1 + Real.sin θ * e2 + l * hcs
  have hAC : A * Real.sin θ ^ 2 - B * Real.sin θ * Real.cos θ + C * Real.cos θ ^ 2 = A + C - l := by
    have : form A B C (Real.cos θ) (Real.sin θ)
        + (A * Real.sin θ ^ 2 - B * Real.sin θ * Real.cos θ + C * Real.cos θ ^ 2) = A + C := by
      unfold form; linear_combination (A + C) * hcs
    linarith
  have hoff : -A * Real.cos θ * Real.sin θ + B / 2 * (Real.cos θ ^ 2 - Real.sin θ ^ 2)
      + C * Real.sin θ * Real.cos θ = 0 := by
    linear_combination -Real.sin θ * e1 + Real.cos θ * e2
  intro ψ
  have key : form A B C (Real.cos ψ) (Real.sin ψ) = l + (A + C - 2 * l) * Real.sin (ψ - θ) ^ 2 := by
    obtain ⟨δ, rfl⟩ : ∃ δ, ψ = θ + δ := ⟨ψ - θ, by ring⟩
    have hd := Real.sin_sq_add_cos_sq δ
    rw [Real.cos_add, Real.sin_add, add_sub_cancel_left]
    unfold form at *
    linear_combination Real.cos δ ^ 2 * base + Real.sin δ ^ 2 * hAC
      + 2 * Real.cos δ * Real.sin δ * hoff + l * hd
  rw [base, key]
  refine ⟨by have := mul_nonneg hgap.le (sq_nonneg (Real.sin (ψ - θ))); linarith, fun h => ?_⟩
  have : (A + C - 2 * l) * Real.sin (ψ - θ) ^ 2 = 0 := by linarith
  rcases mul_eq_zero.mp this with h | h
  · exact absurd h hgap.ne'
  · exact pow_eq_zero_iff two_ne_zero |>.mp h

/-- C32, positive part: unless the conic is a circle the reported angle is a number in `(-π/2, π/2]` and
the direction in which the quadratic form is smallest, i.e. the major axis of an ellipse with positive
form (the case of every ellipse around its centroid). Missing: circles (the angle is NaN) and conics with
negative form (the angle is the one of the minor axis), see `C32_refuted`. -/
theorem C32_partial (q : Conic) (h : ¬ (q.a = q.c ∧ q.b = 0)) :
    ∃ θ, angleOf q = some θ ∧ -(Real.pi / 2) < θ ∧ θ ≤ Real.pi / 2 ∧ MajorAxis q.a q.b q.c θ := by
  have hpi := Real.pi_pos
  unfold angleOf
  by_cases hb : q.b = 0
  · rcases lt_trichotomy q.a q.c with hac | hac | hac
    · refine ⟨0, by simp [hb, hac], by linarith, by linarith, ?_⟩
      apply majorAxis_of_eigen (l := q.a) (by linarith) <;> simp [hb]
    · exact absurd ⟨hac, hb⟩ h
    · refine ⟨Real.pi / 2, by simp [hb, hac, hac.le], by linarith, le_refl _, ?_⟩
      apply majorAxis_of_eigen (l := q.c) (by linarith) <;> simp [hb]
  · simp only [hb, false_and, if_false]
    set s := Real.sqrt ((q.a - q.c) ^ 2 + q.b ^ 2) with hs
    have hpos : 0 < (q.a - q.c) ^ 2 + q.b ^ 2 := by positivity
    have hs0 : 0 < s := Real.sqrt_pos.mpr hpos
    have hs2 : s ^ 2 = (q.a - q.c) ^ 2 + q.b ^ 2 := Real.sq_sqrt hpos.le
    refine ⟨_, rfl, Real.neg_pi_div_two_lt_arctan _, (Real.arctan_lt_pi_div_two _).le, ?_⟩
    set t := (q.c - q.a - s) / q.b with ht
    have htb : q.b * t = q.c - q.a - s := by rw [ht]; field_simp
    have hsin : Real.sin (Real.arctan t) = t * Real.cos (Real.arctan t) := by
      rw [Real.sin_arctan, Real.cos_arctan]; ring
    apply majorAxis_of_eigen (l := (q.a + q.c - s) / 2) (by linarith)
    · rw [hsin]; linear_combination (1 / 2 * Real.cos (Real.arctan t)) * htb
    · rw [hsin]
      have : q.b / 2 + q.c * t = (q.a + q.c - s) / 2 * t := by
        have hb2 : q.b * (q.b / 2 + q.c * t) = q.b * ((q.a + q.c - s) / 2 * t) := by
          linear_combination ((q.c - q.a + s) / 2) * htb - 1 / 2 * hs2
        exact mul_left_cancel₀ hb hb2
      linear_combination Real.cos (Real.arctan t) * this

/-- C32 for exact data: for generic points of an ellipse that is no circle the angle in the reported
parameters is the direction of the major axis of that ellipse. -/
theorem C32_exact_partial (E : Ellipse) (pts curve : List (ℝ × ℝ)) (a b : ℝ) (o : Option ℝ)
    (hon : ∀ p ∈ pts, E.On p) (hgen : Generic pts) (hc : ¬ (E.A = E.C ∧ E.B = 0))
    (h : fitEllipse pts = .ok (curve, (a, b, o))) :
    ∃ θ, o = some θ ∧ MajorAxis E.A E.B E.C θ := by
  obtain ⟨q, hq, _, _, k, hk, ea, eb, ec⟩ := C31_exact E pts hon hgen
  have hne : ¬ (q.a = q.c ∧ q.b = 0) := by
    rintro ⟨h1, h2⟩
    rw [ea, ec] at h1
    rw [eb] at h2
    exact hc ⟨mul_left_cancel₀ hk.ne' h1, (mul_eq_zero.mp h2).resolve_left hk.ne'⟩
  obtain ⟨θ, hθ, _, _, hm⟩ := C32_partial q hne
  unfold fitEllipse at h
  rw [hq] at h
  simp only [bind, Except.bind, pure, Except.pure, Except.ok.injEq, Prod.mk.injEq] at h
  refine ⟨θ, by rw [← h.2.2.2, hθ], fun ψ => ?_⟩
  have hf : ∀ x y, form q.a q.b q.c x y = k * form E.A E.B E.C x y := by
    intro x y; rw [ea, eb, ec]; unfold form; ring
  have := hm ψ
  rw [hf, hf] at this
  exact ⟨le_of_mul_le_mul_left this.1 hk, fun e => this.2 (by rw [e])⟩

/-- C32 is false in general: five points of a circle give NaN as angle. -/
theorem C32_refuted : ∃ (E : Ellipse) (pts curve : List (ℝ × ℝ)) (a b : ℝ),
    (∀ p ∈ pts, E.On p) ∧ Generic pts ∧ fitEllipse pts = .ok (curve, (a, b, none)) := by
  let E : Ellipse := ⟨1, 0, 1, (0, 0), by norm_num, by norm_num⟩
  let pts : List (ℝ × ℝ) := [(1, 0), (0, 1), (-1, 0), (0, -1), (3 / 5, 4 / 5)]
  have hon : ∀ p ∈ pts, E.On p := by
    intro p hp
    simp only [pts, List.mem_cons, List.not_mem_nil, or_false] at hp
    rcases hp with rfl | rfl | rfl | rfl | rfl <;> norm_num [E, Ellipse.On, form]
  have hgen : Generic pts :=
    C31_five_points E _ hon (1, 0) (0, 1) (-1, 0) (0, -1) (3 / 5, 4 / 5) (by norm_num) (fun p hp => hp)
  obtain ⟨q, hq, _, _, k, hk, ea, eb, ec⟩ := C31_exact E pts hon hgen
  have hang : angleOf q = none := by
    have h1 : q.b = 0 := by rw [eb]; simp [E]
    have h2 : q.a = q.c := by rw [ea, ec]
    simp [angleOf, h1, h2]
  refine ⟨E, pts, (linspace2pi pts.length).map (ellipsePoint q (meanPt pts)),
    max (semiAxes q (meanPt pts)).1 (semiAxes q (meanPt pts)).2,
    min (semiAxes q (meanPt pts)).1 (semiAxes q (meanPt pts)).2, hon, hgen, ?_⟩
  unfold fitEllipse
  rw [hq]
  simp only [bind, Except.bind, pure, Except.pure, hang]

/-- C32 is also false for a real ellipse that does not contain the centroid: `(x-2)² + 4y² = 3`, i.e.
`-x² - 4y² + 4x = 1`, is longest along x, but the reported angle is `π/2`. -/
theorem C32_refuted_outside : ∃ q : Conic, RealEllipse q.a q.b q.c q.d q.e (0, 0) ∧
    angleOf q = some (Real.pi / 2) ∧ MajorAxis (-q.a) (-q.b) (-q.c) 0 := by
  refine ⟨⟨-1, 0, -4, 4, 0⟩, ⟨by norm_num, (2 + Real.sqrt 3, 0), (2 - Real.sqrt 3, 0), ?_, ?_, ?_⟩, ?_, ?_⟩
  · intro h
    have h1 := (Prod.mk.inj h).1
    have : 0 < Real.sqrt 3 := Real.sqrt_pos.mpr (by norm_num)
    linarith
  · have := Real.sq_sqrt (by norm_num : (0:ℝ) ≤ 3)
    simp only [OnConic, form]; linear_combination -this
  · have := Real.sq_sqrt (by norm_num : (0:ℝ) ≤ 3)
    simp only [OnConic, form]; linear_combination -this
  · norm_num [angleOf]
  · apply majorAxis_of_eigen (l := 1) <;> norm_num

end Trackeddy
