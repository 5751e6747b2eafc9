import Verif.Props.Ellipse
import Verif.Props.Gauss

/-!
C66: the three reported ellipse parameters together describe the fitted ellipse, and the Gaussian built
from them (the initial guess of the Gaussian fit) has this ellipse as a level line.
-/
namespace Trackeddy
open Spec

/-- the reported angle is an eigen direction for the smaller eigenvalue -/
theorem angle_eigen (q : Conic) (h : ¬ (q.a = q.c ∧ q.b = 0)) :
    ∃ θ l, angleOf q = some θ ∧ 0 < q.a + q.c - 2 * l ∧ 4 * (l * (q.a + q.c - l)) = 4 * q.a * q.c - q.b ^ 2 ∧
      q.a * Real.cos θ + q.b / 2 * Real.sin θ = l * Real.cos θ ∧
      q.b / 2 * Real.cos θ + q.c * Real.sin θ = l * Real.sin θ := by
  unfold angleOf
  by_cases hb : q.b = 0
  · rcases lt_trichotomy q.a q.c with hac | hac | hac
    · exact ⟨0, q.a, by simp [hb, hac], by linarith, by rw [hb]; ring, by simp, by simp [hb]⟩
    · exact absurd ⟨hac, hb⟩ h
    · exact ⟨Real.pi / 2, q.c, by simp [hb, hac, hac.le], by linarith, by rw [hb]; ring, by simp [hb], by simp⟩
  · simp only [hb, false_and, if_false]
    set s := Real.sqrt ((q.a - q.c) ^ 2 + q.b ^ 2) with hs
    have hpos : 0 < (q.a - q.c) ^ 2 + q.b ^ 2 := by positivity
    have hs0 : 0 < s := Real.sqrt_pos.mpr hpos
    have hs2 : s ^ 2 = (q.a - q.c) ^ 2 + q.b ^ 2 := Real.sq_sqrt hpos.le
    set t := (q.c - q.a - s) / q.b with ht
    have htb : q.b * t = q.c - q.a - s := by rw [ht]; field_simp
    have hsin : Real.sin (Real.arctan t) = t * Real.cos (Real.arctan t) := by
      rw [Real.sin_arctan, Real.cos_arctan]; ring
    refine ⟨_, (q.a + q.c - s) / 2, rfl, by linarith, by linear_combination -hs2, ?_, ?_⟩
    · rw [hsin]; linear_combination (1 / 2 * Real.cos (Real.arctan t)) * htb
    · rw [hsin]
      have : q.b / 2 + q.c * t = (q.a + q.c - s) / 2 * t := by
        have hb2 : q.b * (q.b / 2 + q.c * t) = q.b * ((q.a + q.c - s) / 2 * t) := by
          linear_combination ((q.c - q.a + s) / 2) * htb - 1 / 2 * hs2
        exact mul_left_cancel₀ hb hb2
      linear_combination Real.cos (Real.arctan t) * this

/-- the form in the coordinates of the reported angle -/
theorem form_eigen {A B C θ l : ℝ} (e1 : A * Real.cos θ + B / 2 * Real.sin θ = l * Real.cos θ)
    (e2 : B / 2 * Real.cos θ + C * Real.sin θ = l * Real.sin θ) (x y : ℝ) :
    form A B C x y = l * (x * Real.cos θ + y * Real.sin θ) ^ 2
      + (A + C - l) * (-x * Real.sin θ + y * Real.cos θ) ^ 2 := by
  have hcs := Real.sin_sq_add_cos_sq θ
  have base : A * Real.cos θ ^ 2 + B * Real.cos θ * Real.sin θ + C * Real.sin θ ^ 2 = l := by
    linear_combination Real.cos θ * e1 + Real.sin θ * e2 + l * hcs
  have hAC : A * Real.sin θ ^ 2 - B * Real.sin θ * Real.cos θ + C * Real.cos θ ^ 2 = A + C - l := by
    linear_combination (A + C) * hcs - base
  have hoff : -A * Real.cos θ * Real.sin θ + B / 2 * (Real.cos θ ^ 2 - Real.sin θ ^ 2)
      + C * Real.sin θ * Real.cos θ = 0 := by
    linear_combination -Real.sin θ * e1 + Real.cos θ * e2
  set u := x * Real.cos θ + y * Real.sin θ with hu
  set v := -x * Real.sin θ + y * Real.cos θ with hv
  have ex : x = u * Real.cos θ - v * Real.sin θ := by rw [hu, hv]; linear_combination -x * hcs
  have ey : y = u * Real.sin θ + v * Real.cos θ := by rw [hu, hv]; linear_combination -y * hcs
  clear_value u v
  subst ex ey
  unfold form
  linear_combination u ^ 2 * base + v ^ 2 * hAC + 2 * u * v * hoff

/-- C66: for a real ellipse around its centroid (positive form) with resolved tilt that is no circle, the
reported semi axes and angle describe exactly the fitted ellipse: its points are those with
`(U/a)² + (V/b)² = 1` in coordinates along and across the reported angle, about the centre. -/
theorem C66_parameters (q : Conic) (m : ℝ × ℝ) (hE : RealEllipse q.a q.b q.c q.d q.e m) (hpos : 0 < q.a)
    (hR : Resolved q) (hc : ¬ (q.a = q.c ∧ q.b = 0)) :
    ∃ (θ a b : ℝ) (centre : ℝ × ℝ), angleOf q = some θ ∧ a = max (semiAxes q m).1 (semiAxes q m).2 ∧
      b = min (semiAxes q m).1 (semiAxes q m).2 ∧ 0 < b ∧ b < a ∧
      (∀ t, ∃ d : ℝ × ℝ, ellipsePoint q m t = (centre.1 + d.1, centre.2 + d.2) ∧
        ellipsePoint q m (t + Real.pi) = (centre.1 - d.1, centre.2 - d.2)) ∧
      ∀ p : ℝ × ℝ, OnConic q.a q.b q.c q.d q.e m p ↔
        (((p.1 - centre.1) * Real.cos θ + (p.2 - centre.2) * Real.sin θ) / a) ^ 2 +
        ((-(p.1 - centre.1) * Real.sin θ + (p.2 - centre.2) * Real.cos θ) / b) ^ 2 = 1 := by
  have ha : q.a ≠ 0 := hpos.ne'
  have hc0 : q.c ≠ 0 := fun e => by have := hE.1; rw [e] at this; nlinarith [sq_nonneg q.b]
  obtain ⟨C, S, hC, hS, h1, hx, hrot⟩ := rotate_resolved m ha hc0 hR
  obtain ⟨hac, hFa, hFc⟩ := rotated_signs hE h1 hx rfl
  obtain ⟨θ, l, hθ, hgap, hprod, e1, e2⟩ := angle_eigen q hc
  set r : Conic := ⟨q.a * C ^ 2 - q.b * C * S + q.c * S ^ 2, 0,
      q.a * S ^ 2 + q.b * C * S + q.c * C ^ 2, q.d * C - q.e * S, q.d * S + q.e * C⟩ with hr
  have hra : r.a = q.a * C ^ 2 - q.b * C * S + q.c * S ^ 2 := by rw [hr]
  have hrc : r.c = q.a * S ^ 2 + q.b * C * S + q.c * C ^ 2 := by rw [hr]
  have hrd : r.d = q.d * C - q.e * S := by rw [hr]
  have hre : r.e = q.d * S + q.e * C := by rw [hr]
  have hsum : r.a + r.c = q.a + q.c := by rw [hra, hrc]; linear_combination (q.a + q.c) * h1
  have hdet : 4 * (r.a * r.c) = (4 * q.a * q.c - q.b ^ 2) * (C ^ 2 + S ^ 2) ^ 2
      + (2 * (q.a - q.c) * C * S + q.b * (C ^ 2 - S ^ 2)) ^ 2 := by
    rw [hra, hrc]; ring
  rw [h1, hx] at hdet
  have hcpos : 0 < q.c := by
    by_contra hn
    have := hE.1
    have h4 := mul_nonpos_of_nonneg_of_nonpos hpos.le (not_lt.mp hn)
    nlinarith [sq_nonneg q.b]
  have hrapos : 0 < r.a := by
    by_contra hn
    have h2 : r.c ≤ 0 := by
      by_contra h3
      have := mul_nonpos_of_nonpos_of_nonneg (not_lt.mp hn) (not_le.mp h3).le
      linarith
    have := not_lt.mp hn
    linarith
  have hrcpos : 0 < r.c := by
    by_contra hn
    have := mul_nonpos_of_nonneg_of_nonpos hrapos.le (not_lt.mp hn)
    linarith
  set F := conicF r with hF
  have hFpos : 0 < F := by
    have := mul_pos hFa hrapos
    rwa [div_mul_cancel₀ _ hrapos.ne'] at this
  set μ := q.a + q.c - l with hμ
  have hlm : l * μ = r.a * r.c := by linarith
  have hcase : (r.a = l ∧ r.c = μ) ∨ (r.a = μ ∧ r.c = l) := by
    have : (r.a - l) * (r.a - μ) = 0 := by
      rw [hμ] at *
      linear_combination hlm + r.a * hsum
    rcases mul_eq_zero.mp this with h | h
    · left; exact ⟨by linarith, by linarith⟩
    · right; exact ⟨by linarith, by linarith⟩
  have hlmu : l < μ := by rw [hμ]; linarith
  have hl : 0 < l := by rcases hcase with ⟨h, h'⟩ | ⟨h, h'⟩ <;> [rwa [← h]; rwa [← h']]
  have hμp : 0 < μ := by linarith
  have hsemi : semiAxes q m = (Real.sqrt (F / r.a), Real.sqrt (F / r.c)) := by
    simp only [semiAxes]
    rw [hrot]
    simp only
    rw [← hF, abs_of_pos hFa, abs_of_pos hFc]
  have hlt : Real.sqrt (F / μ) < Real.sqrt (F / l) :=
    Real.sqrt_lt_sqrt (by positivity) (div_lt_div_of_pos_left hFpos hl hlmu)
  have hmax : max (semiAxes q m).1 (semiAxes q m).2 = Real.sqrt (F / l) := by
    rw [hsemi]
    rcases hcase with ⟨h, h'⟩ | ⟨h, h'⟩
    · rw [h, h', max_eq_left hlt.le]
    · rw [h, h', max_eq_right hlt.le]
  have hmin : min (semiAxes q m).1 (semiAxes q m).2 = Real.sqrt (F / μ) := by
    rw [hsemi]
    rcases hcase with ⟨h, h'⟩ | ⟨h, h'⟩
    · rw [h, h', min_eq_right hlt.le]
    · rw [h, h', min_eq_left hlt.le]
  set X0 := C * m.1 - S * m.2 - r.d / 2 / r.a with hX0
  set Y0 := S * m.1 + C * m.2 - r.e / 2 / r.c with hY0
  refine ⟨θ, Real.sqrt (F / l), Real.sqrt (F / μ), (C * X0 + S * Y0, -S * X0 + C * Y0), hθ, hmax.symm,
    hmin.symm, Real.sqrt_pos.mpr (by positivity), hlt, ?_, ?_⟩
  · intro t
    refine ⟨(C * (Real.sqrt |F / r.a| * Real.cos t) + S * (Real.sqrt |F / r.c| * Real.sin t),
      -S * (Real.sqrt |F / r.a| * Real.cos t) + C * (Real.sqrt |F / r.c| * Real.sin t)), ?_, ?_⟩
    · simp only [ellipsePoint]
      rw [hrot, ← hC, ← hS]
      simp only
      rw [← hF, ← hX0, ← hY0]
      exact Prod.ext (by simp only; ring) (by simp only; ring)
    · simp only [ellipsePoint, Real.cos_add_pi, Real.sin_add_pi]
      rw [hrot, ← hC, ← hS]
      simp only
      rw [← hF, ← hX0, ← hY0]
      exact Prod.ext (by simp only; ring) (by simp only; ring)
  · intro p
    have key : form q.a q.b q.c (p.1 - m.1) (p.2 - m.2) + q.d * (p.1 - m.1) + q.e * (p.2 - m.2) - 1
        = form q.a q.b q.c (p.1 - (C * X0 + S * Y0)) (p.2 - (-S * X0 + C * Y0)) - F := by
      set u := C * (p.1 - m.1) - S * (p.2 - m.2) + r.d / 2 / r.a with hu
      set v := S * (p.1 - m.1) + C * (p.2 - m.2) + r.e / 2 / r.c with hv
      have d1 : p.1 - (C * X0 + S * Y0) = C * u + S * v := by
        rw [hu, hv, hX0, hY0]; linear_combination -p.1 * h1
      have d2 : p.2 - (-S * X0 + C * Y0) = -S * u + C * v := by
        rw [hu, hv, hX0, hY0]; linear_combination -p.2 * h1
      rw [d1, d2]
      have f1 : form q.a q.b q.c (C * u + S * v) (-S * u + C * v) = r.a * u ^ 2 + r.c * v ^ 2 := by
        rw [hra, hrc]; unfold form; linear_combination (u * v) * hx
      set x := p.1 - m.1 with hx'
      set y := p.2 - m.2 with hy'
      have g1 : r.a * u ^ 2 = r.a * (C * x - S * y) ^ 2 + r.d * (C * x - S * y) + r.d ^ 2 / (4 * r.a) := by
        rw [hu]; field_simp; ring
      have g2 : r.c * v ^ 2 = r.c * (S * x + C * y) ^ 2 + r.e * (S * x + C * y) + r.e ^ 2 / (4 * r.c) := by
        rw [hv]; field_simp; ring
      have g3 : r.a * (C * x - S * y) ^ 2 + r.c * (S * x + C * y) ^ 2
          = (q.a * x ^ 2 + q.b * x * y + q.c * y ^ 2) * (C ^ 2 + S ^ 2) ^ 2
            - (2 * (q.a - q.c) * C * S + q.b * (C ^ 2 - S ^ 2)) * (C * x - S * y) * (S * x + C * y) := by
        rw [hra, hrc]; ring
      have g4 : r.d * (C * x - S * y) + r.e * (S * x + C * y) = (q.d * x + q.e * y) * (C ^ 2 + S ^ 2) := by
        rw [hrd, hre]; ring
      rw [h1, hx] at g3
      rw [h1] at g4
      have g5 : F = 1 + r.d ^ 2 / (4 * r.a) + r.e ^ 2 / (4 * r.c) := by rw [hF]; rfl
      rw [f1]
      unfold form
      linear_combination -g1 - g2 - g3 - g4 + g5
    have hsq1 : Real.sqrt (F / l) ^ 2 = F / l := Real.sq_sqrt (by positivity)
    have hsq2 : Real.sqrt (F / μ) ^ 2 = F / μ := Real.sq_sqrt (by positivity)
    simp only
    rw [div_pow, div_pow, hsq1, hsq2]
    have hform := form_eigen e1 e2 (p.1 - (C * X0 + S * Y0)) (p.2 - (-S * X0 + C * Y0))
    rw [← hμ] at hform
    set U := (p.1 - (C * X0 + S * Y0)) * Real.cos θ + (p.2 - (-S * X0 + C * Y0)) * Real.sin θ
    set V := -(p.1 - (C * X0 + S * Y0)) * Real.sin θ + (p.2 - (-S * X0 + C * Y0)) * Real.cos θ
    have hdiv : U ^ 2 / (F / l) + V ^ 2 / (F / μ) = (l * U ^ 2 + μ * V ^ 2) / F := by
      field_simp
    rw [hdiv, div_eq_one_iff_eq hFpos.ne', ← hform]
    unfold OnConic
    constructor
    · intro h; linarith
    · intro h; linarith

/-- C66: the Gaussian with the reported axes and angle, centred on the ellipse, takes the value
`amplitude · e^(-1/2)` exactly on the fitted ellipse. -/
theorem C66_gaussian (q : Conic) (m : ℝ × ℝ) (hE : RealEllipse q.a q.b q.c q.d q.e m) (hpos : 0 < q.a)
    (hR : Resolved q) (hc : ¬ (q.a = q.c ∧ q.b = 0)) :
    ∃ (θ : ℝ) (centre : ℝ × ℝ), angleOf q = some θ ∧ ∀ (amp : ℝ) (p : ℝ × ℝ), amp ≠ 0 →
      (gaussian p.1 p.2 amp centre.1 centre.2 (max (semiAxes q m).1 (semiAxes q m).2)
        (min (semiAxes q m).1 (semiAxes q m).2) θ = amp * Real.exp (-(1 / 2)) ↔
        OnConic q.a q.b q.c q.d q.e m p) := by
  obtain ⟨θ, a, b, centre, hθ, rfl, rfl, hb, hab, _, hiff⟩ := C66_parameters q m hE hpos hR hc
  refine ⟨θ, centre, hθ, fun amp p hamp => ?_⟩
  rw [hiff p, gaussian_axes]
  have ha : 0 < max (semiAxes q m).1 (semiAxes q m).2 := lt_trans hb hab
  rw [mul_right_inj' hamp, Real.exp_injective.eq_iff, neg_inj, div_pow, div_pow]
  set a := max (semiAxes q m).1 (semiAxes q m).2
  set b := min (semiAxes q m).1 (semiAxes q m).2
  set U := (p.1 - centre.1) * Real.cos θ + (p.2 - centre.2) * Real.sin θ
  set V := -(p.1 - centre.1) * Real.sin θ + (p.2 - centre.2) * Real.cos θ
  have : U ^ 2 / (2 * a ^ 2) + V ^ 2 / (2 * b ^ 2) = 1 / 2 * (U ^ 2 / a ^ 2 + V ^ 2 / b ^ 2) := by
    field_simp
  rw [this]
  constructor
  · intro h; linarith
  · intro h; rw [h]; norm_num

/-- a tilted ellipse meets the hypotheses -/
example : RealEllipse 1 1 1 0 0 (2, 3) ∧ Resolved ⟨1, 1, 1, 0, 0⟩ ∧
    ¬ ((⟨1, 1, 1, 0, 0⟩ : Conic).a = (⟨1, 1, 1, 0, 0⟩ : Conic).c ∧ (⟨1, 1, 1, 0, 0⟩ : Conic).b = 0) := by
  refine ⟨⟨by norm_num, (3, 3), (2, 4), by simp, ?_, ?_⟩, Or.inr ?_, by norm_num⟩
  · simp [OnConic, form]; norm_num
  · simp [OnConic, form]; norm_num
  · norm_num

/-- C66 for the returned parameters: whenever `fit_ellipse` returns `(a, b, θ)` and the conic of its normal
equations is a real ellipse around the centroid, with resolved tilt and no circle, then `θ` is a number and
the points of the conic are those with `(U/a)² + (V/b)² = 1`, and the Gaussian with these widths and this
angle has the conic as level line. -/
theorem C66_reported (pts curve : List (ℝ × ℝ)) (a b : ℝ) (o : Option ℝ)
    (h : fitEllipse pts = .ok (curve, (a, b, o))) :
    ∃ q, fitConic pts = .ok q ∧ (RealEllipse q.a q.b q.c q.d q.e (meanPt pts) → 0 < q.a → Resolved q →
      ¬ (q.a = q.c ∧ q.b = 0) → ∃ (θ : ℝ) (centre : ℝ × ℝ), o = some θ ∧ 0 < b ∧ b < a ∧
      ∀ p : ℝ × ℝ, (OnConic q.a q.b q.c q.d q.e (meanPt pts) p ↔
          (((p.1 - centre.1) * Real.cos θ + (p.2 - centre.2) * Real.sin θ) / a) ^ 2 +
          ((-(p.1 - centre.1) * Real.sin θ + (p.2 - centre.2) * Real.cos θ) / b) ^ 2 = 1) ∧
        ∀ amp : ℝ, amp ≠ 0 → (gaussian p.1 p.2 amp centre.1 centre.2 a b θ = amp * Real.exp (-(1 / 2)) ↔
          OnConic q.a q.b q.c q.d q.e (meanPt pts) p)) := by
  unfold fitEllipse at h
  cases hq : fitConic pts with
  | error e => rw [hq] at h; simp [bind, Except.bind] at h
  | ok q =>
    rw [hq] at h
    simp only [bind, Except.bind, pure, Except.pure, Except.ok.injEq, Prod.mk.injEq] at h
    obtain ⟨_, rfl, rfl, rfl⟩ := h
    refine ⟨q, rfl, fun hE hpos hR hc => ?_⟩
    obtain ⟨θ, a, b, centre, hθ, rfl, rfl, hb, hab, _, hiff⟩ := C66_parameters q (meanPt pts) hE hpos hR hc
    refine ⟨θ, centre, hθ, hb, hab, fun p => ⟨hiff p, fun amp hamp => ?_⟩⟩
    rw [hiff p, gaussian_axes, mul_right_inj' hamp, Real.exp_injective.eq_iff, neg_inj, div_pow, div_pow]
    have ha := lt_trans hb hab
    set a := max (semiAxes q (meanPt pts)).1 (semiAxes q (meanPt pts)).2
    set b := min (semiAxes q (meanPt pts)).1 (semiAxes q (meanPt pts)).2
    set U := (p.1 - centre.1) * Real.cos θ + (p.2 - centre.2) * Real.sin θ
    set V := -(p.1 - centre.1) * Real.sin θ + (p.2 - centre.2) * Real.cos θ
    have : U ^ 2 / (2 * a ^ 2) + V ^ 2 / (2 * b ^ 2) = 1 / 2 * (U ^ 2 / a ^ 2 + V ^ 2 / b ^ 2) := by
      field_simp
    rw [this]
    constructor
    · intro h; linarith
    · intro h; rw [h]; norm_num

/-- C66 from the vertices: generic points of a tilted (or axis parallel) ellipse that is no circle are
described by the returned axes and angle: the points of that ellipse are those with
`(U/a)² + (V/b)² = 1` about one centre. -/
theorem C66_recovered (E : Ellipse) (pts : List (ℝ × ℝ)) (hon : ∀ p ∈ pts, E.On p) (hgen : Generic pts)
    (hR : ResolvedE E) (hc : ¬ (E.A = E.C ∧ E.B = 0)) :
    ∃ (curve : List (ℝ × ℝ)) (a b θ : ℝ) (centre : ℝ × ℝ), fitEllipse pts = .ok (curve, (a, b, some θ)) ∧
      0 < b ∧ b < a ∧ ∀ p : ℝ × ℝ, E.On p ↔
          (((p.1 - centre.1) * Real.cos θ + (p.2 - centre.2) * Real.sin θ) / a) ^ 2 +
          ((-(p.1 - centre.1) * Real.sin θ + (p.2 - centre.2) * Real.cos θ) / b) ^ 2 = 1 := by
  obtain ⟨q, hq, hiff, hre, k, hk, ea, eb, ec⟩ := C31_exact E pts hon hgen
  obtain ⟨curve, ⟨a, b, o⟩, hf, _⟩ := C31_curve E pts hon hgen
  obtain ⟨q', hq', hrep⟩ := C66_reported pts curve a b o hf
  rw [hq] at hq'
  cases hq'
  have hRq : Resolved q := by
    unfold Resolved
    rw [ea, eb, ec, mul_div_mul_left _ _ hk.ne', mul_div_mul_left _ _ hk.ne']
    rcases hR with h | h
    · left; rw [h, mul_zero]
    · exact Or.inr h
  have hne : ¬ (q.a = q.c ∧ q.b = 0) := by
    rintro ⟨h1, h2⟩
    rw [ea, ec] at h1
    rw [eb] at h2
    exact hc ⟨mul_left_cancel₀ hk.ne' h1, (mul_eq_zero.mp h2).resolve_left hk.ne'⟩
  obtain ⟨θ, centre, rfl, hb, hab, hp⟩ := hrep hre (by rw [ea]; exact mul_pos hk E.posA) hRq hne
  exact ⟨curve, a, b, θ, centre, hf, hb, hab, fun p => (hiff p).symm.trans (hp p).1⟩

/-- five points of `x² + xy + y² = 1` meet the hypotheses -/
example : ∃ (E : Ellipse) (pts : List (ℝ × ℝ)), (∀ p ∈ pts, E.On p) ∧ Generic pts ∧ ResolvedE E ∧
    ¬ (E.A = E.C ∧ E.B = 0) := by
  let E : Ellipse := ⟨1, 1, 1, (0, 0), by norm_num, by norm_num⟩
  have hon : ∀ p ∈ [((1 : ℝ), (0 : ℝ)), (0, 1), (-1, 0), (0, -1), (1, -1)], E.On p := by
    intro p hp
    simp only [List.mem_cons, List.not_mem_nil, or_false] at hp
    rcases hp with rfl | rfl | rfl | rfl | rfl <;> norm_num [E, Ellipse.On, form]
  exact ⟨E, _, hon, C31_five_points E _ hon (1, 0) (0, 1) (-1, 0) (0, -1) (1, -1) (by norm_num) (fun p hp => hp),
    Or.inr (by norm_num [E]), by norm_num [E]⟩

end Trackeddy
