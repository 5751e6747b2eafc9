import Verif.Props.Levels
import Verif.Props.PipelineExample
import Verif.Props.Closed

/-!
A field in which the order of two levels decides which eddy is found (C122), and which meets the hypotheses of C120-C122: two adjacent
grid points with value 1 on a grid of zeros around the origin. Its contour at the level 1 - s is a hexagon.
-/
namespace Trackeddy
open Spec
open Cntr (Vertex SameShape arrGrid)

def lvqX : Cntr.NdArr ℚ := ⟨3, 4, fun _ c => [-3/2, -1/2, 1/2, 3/2].getD c 0⟩
def lvqY : Cntr.NdArr ℚ := ⟨3, 4, fun r _ => [-1, 0, 1].getD r 0⟩

/-- the field -/
noncomputable def lvField : Fields :=
  ⟨⟨3, 4, fun _ c => [-3/2, -1/2, 1/2, 3/2].getD c 0⟩, ⟨3, 4, fun r _ => [-1, 0, 1].getD r 0⟩,
    ⟨3, 4, fun r c => if r < 3 ∧ c < 4 then some (if r = 1 ∧ (c = 1 ∨ c = 2) then 1 else 0) else none⟩⟩

theorem lvField_ok : lvField.Ok := ⟨rfl, rfl, fun M hM => by cases hM⟩

/-- the contour at the level 1 - s -/
noncomputable def lvPts (s : ℝ) : List (ℝ × ℝ) :=
  [(-(1 / 2), -s), (1 / 2, -s), (1 / 2 + s, 0), (1 / 2, s), (-(1 / 2), s), (-(1 / 2 + s), 0), (-(1 / 2), -s)]

theorem lvq_quarter : Cntr.extractContours lvqX lvqY exqZ (3 / 4) 50 Cntr.exMem =
    .ok ([[some (-1 / 2, -1 / 4), some (1 / 2, -1 / 4), some (3 / 4, 0), some (1 / 2, 1 / 4), some (-1 / 2, 1 / 4), some (-3 / 4, 0),
      some (-1 / 2, -1 / 4)]].map .points, [.codes [1, 2, 2, 2, 2, 2, 2]]) := by
  decide +kernel

theorem lvq_eighths : Cntr.extractContours lvqX lvqY exqZ (5 / 8) 50 Cntr.exMem =
    .ok ([[some (-1 / 2, -3 / 8), some (1 / 2, -3 / 8), some (7 / 8, 0), some (1 / 2, 3 / 8), some (-1 / 2, 3 / 8), some (-7 / 8, 0),
      some (-1 / 2, -3 / 8)]].map .points, [.codes [1, 2, 2, 2, 2, 2, 2]]) := by
  decide +kernel

theorem lvField_cast : lvqX.cast (Rat.castHom ℝ) = lvField.X ∧ lvqY.cast (Rat.castHom ℝ) = lvField.Y ∧
    exqZ.castO (Rat.castHom ℝ) = lvField.data := by
  have hX : lvqX.cast (Rat.castHom ℝ) = lvField.X := by
    unfold Cntr.NdArr.cast lvqX lvField
    simp only [Cntr.NdArr.mk.injEq, true_and]
    funext _ c
    match c with
    | 0 | 1 | 2 | 3 => simp
    | c + 4 => simp
  have hY : lvqY.cast (Rat.castHom ℝ) = lvField.Y := by
    unfold Cntr.NdArr.cast lvqY lvField
    simp only [Cntr.NdArr.mk.injEq, true_and]
    funext r _
    match r with
    | 0 | 1 | 2 => simp
    | r + 3 => simp
  exact ⟨hX, hY, exField_cast.2.2⟩

theorem lvField_contours (L : Libs) : contourList L lvField (3 / 4) = [(lvPts (1 / 4)).map some] ∧
    contourList L lvField (5 / 8) = [(lvPts (3 / 8)).map some] := by
  obtain ⟨hX, hY, hZ⟩ := lvField_cast
  have hd : 4 * (lvField.data.cols * lvField.data.rows) + 2 = 4 * (4 * 3) + 2 := rfl
  constructor
  · obtain ⟨cds, h⟩ := Cntr.extract_cast (Rat.castHom ℝ) Rat.cast_strictMono (X := lvqX) (Y := lvqY) (Z := exqZ)
      (mem' := L.mem lvField.data (3 / 4)) (fuel' := 4 * (4 * 3) + 2)
      ⟨rfl, rfl, fun M hM => by cases hM⟩ (3 / 4) (by decide) (by decide) lvq_quarter
    have hl : Rat.castHom ℝ (3 / 4) = 3 / 4 := by norm_num
    rw [hX, hY, hZ, hl] at h
    unfold contourList contoursOf
    rw [hd, h]
    simp only [vertsOf, lvPts, List.map_cons, List.map_nil, Option.map_some, List.filterMap_cons, List.filterMap_nil]
    norm_num
  · obtain ⟨cds, h⟩ := Cntr.extract_cast (Rat.castHom ℝ) Rat.cast_strictMono (X := lvqX) (Y := lvqY) (Z := exqZ)
      (mem' := L.mem lvField.data (5 / 8)) (fuel' := 4 * (4 * 3) + 2)
      ⟨rfl, rfl, fun M hM => by cases hM⟩ (5 / 8) (by decide) (by decide) lvq_eighths
    have hl : Rat.castHom ℝ (5 / 8) = 5 / 8 := by norm_num
    rw [hX, hY, hZ, hl] at h
    unfold contourList contoursOf
    rw [hd, h]
    simp only [vertsOf, lvPts, List.map_cons, List.map_nil, Option.map_some, List.filterMap_cons, List.filterMap_nil]
    norm_num

/-! ### the area of a hexagon -/

/-- a hexagon around the origin -/
def lvHex (p q r : ℝ) : List (ℝ × ℝ) := [(p, 0), (q, r), (-q, r), (-p, 0), (-q, -r), (q, -r), (p, 0)]

theorem polar_hex {p q r : ℝ} (hp0 : 0 < p) (hp : p < 90) (hq0 : 0 < q) (hq : q < 90) (hr0 : 0 < r) (hr : r < 90) :
    ∃ θ, 0 < θ ∧ θ < Real.pi / 2 ∧ (polar (p, 0)).2 = Real.pi / 2 ∧ (polar (-p, 0)).2 = 3 * (Real.pi / 2) ∧
      (polar (q, r)).2 = θ ∧ (polar (-q, r)).2 = 2 * Real.pi - θ ∧ (polar (-q, -r)).2 = Real.pi + θ ∧
      (polar (q, -r)).2 = Real.pi - θ := by
  have hpi := Real.pi_pos
  obtain ⟨d1, -, d3, -⟩ := polar_diamond hp0 hp
  rw [zero_add] at d1
  rw [zero_sub] at d3
  have hn : ∀ d, deg2rad (-d) = -deg2rad d := by intro d; unfold deg2rad; ring
  have hs : ∀ d : ℝ, 0 < d → d < 90 → 0 < Real.sin (deg2rad d) := by
    intro d h0 h1
    apply Real.sin_pos_of_pos_of_lt_pi
    · unfold deg2rad; positivity
    · unfold deg2rad; nlinarith
  have hc : 0 < Real.cos (deg2rad r) := by
    apply Real.cos_pos_of_mem_Ioo
    constructor
    · have : 0 < deg2rad r := by unfold deg2rad; positivity
      linarith
    · unfold deg2rad; nlinarith
  set y := Real.cos (deg2rad r) * Real.sin (deg2rad q) with hy
  set x := Real.sin (deg2rad r) with hx
  have hy0 : 0 < y := mul_pos hc (hs q hq0 hq)
  have hx0 : 0 < x := hs r hr0 hr
  have hθ1 : 0 < arctan2 y x := by
    unfold arctan2
    rcases (Complex.arg_nonneg_iff.2 (show 0 ≤ (⟨x, y⟩ : ℂ).im from hy0.le)).lt_or_eq with h | h
    · exact h
    · have := (Complex.arg_eq_zero_iff.1 h.symm).2
      exact absurd this hy0.ne'
  have hθ2 : arctan2 y x < Real.pi / 2 := by
    unfold arctan2
    exact (abs_lt.1 (Complex.abs_arg_lt_pi_div_two_iff.2 (Or.inl (show 0 < (⟨x, y⟩ : ℂ).re from hx0)))).2
  refine ⟨arctan2 y x, hθ1, hθ2, d1, d3, ?_, ?_, ?_, ?_⟩
  all_goals
    unfold polar azim
    simp only [hn, Real.cos_neg, Real.sin_neg, mul_neg]
    rw [← hy, ← hx]
  · rw [mod2pi_of_range (by linarith) (by linarith)]
  · have h1 : arctan2 (-y) x = -arctan2 y x := by
      unfold arctan2
      have : (⟨x, -y⟩ : ℂ) = (starRingEnd ℂ) ⟨x, y⟩ := by apply Complex.ext <;> simp
      rw [this, Complex.arg_conj, if_neg]
      unfold arctan2 at hθ2
      linarith
    rw [h1]
    have := mod2pi_add_int (-arctan2 y x) 1
    rw [← this, mod2pi_of_range] <;> push_cast <;> linarith
  · have h1 : arctan2 (-y) (-x) = arctan2 y x - Real.pi := by
      unfold arctan2
      have : (⟨-x, -y⟩ : ℂ) = -⟨x, y⟩ := by apply Complex.ext <;> simp
      rw [this, Complex.arg_neg_eq_arg_sub_pi_of_im_pos hy0]
    rw [h1]
    have := mod2pi_add_int (arctan2 y x - Real.pi) 1
    rw [← this, mod2pi_of_range] <;> push_cast <;> linarith
  · have h1 : arctan2 y (-x) = Real.pi - arctan2 y x := by
      unfold arctan2
      have : (⟨-x, y⟩ : ℂ) = -(starRingEnd ℂ) ⟨x, y⟩ := by apply Complex.ext <;> simp
      have h2 : (starRingEnd ℂ (⟨x, y⟩ : ℂ)).im < 0 := by simp [hy0]
      rw [this, Complex.arg_neg_eq_arg_add_pi_of_im_neg h2, Complex.arg_conj, if_neg]
      · ring
      · unfold arctan2 at hθ2
        linarith
    rw [h1, mod2pi_of_range (by linarith) (by linarith)]

theorem colat_range {lon lat : ℝ} (h : 0 < havA lon lat) (h' : havA lon lat < 1) : 0 < colat lon lat ∧ colat lon lat < Real.pi := by
  have h1 : 0 < Real.sqrt (havA lon lat) := Real.sqrt_pos.2 h
  have h2 : 0 < Real.sqrt (1 - havA lon lat) := Real.sqrt_pos.2 (by linarith)
  unfold colat arctan2
  constructor
  · rcases (Complex.arg_nonneg_iff.2 (show 0 ≤ (⟨Real.sqrt (1 - havA lon lat), Real.sqrt (havA lon lat)⟩ : ℂ).im from h1.le)).lt_or_eq with h | h
    · linarith
    · exact absurd (Complex.arg_eq_zero_iff.1 h.symm).2 h1.ne'
  · have := (abs_lt.1 (Complex.abs_arg_lt_pi_div_two_iff.2 (Or.inl (show 0 < (⟨Real.sqrt (1 - havA lon lat), Real.sqrt (havA lon lat)⟩ : ℂ).re from h2)))).2
    linarith

theorem polar_colat {p : ℝ × ℝ} (h1 : -90 < p.1) (h2 : p.1 < 90) (h3 : -90 < p.2) (h4 : p.2 < 90) (h5 : p.1 ≠ 0) :
    0 < (polar p).1 ∧ (polar p).1 < Real.pi := by
  have hpi := Real.pi_pos
  have hc : 0 < Real.cos (deg2rad p.2) := by
    apply Real.cos_pos_of_mem_Ioo
    constructor <;> (unfold deg2rad; nlinarith)
  have hc1 : 0 < Real.cos (deg2rad p.1) := by
    apply Real.cos_pos_of_mem_Ioo
    constructor <;> (unfold deg2rad; nlinarith)
  have hs : Real.sin (deg2rad p.1 / 2) ≠ 0 := by
    intro h
    rw [Real.sin_eq_zero_iff_of_lt_of_lt] at h
    · apply h5
      unfold deg2rad at h
      field_simp at h
      simpa using h
    · unfold deg2rad; nlinarith
    · unfold deg2rad; nlinarith
  have e1 : Real.sin (deg2rad p.2 / 2) ^ 2 = (1 - Real.cos (deg2rad p.2)) / 2 := by
    have := Real.cos_sq (deg2rad p.2 / 2)
    rw [mul_div_cancel₀ _ (by norm_num : (2 : ℝ) ≠ 0)] at this
    have := Real.sin_sq_add_cos_sq (deg2rad p.2 / 2)
    linarith
  have e2 : Real.sin (deg2rad p.1 / 2) ^ 2 = (1 - Real.cos (deg2rad p.1)) / 2 := by
    have := Real.cos_sq (deg2rad p.1 / 2)
    rw [mul_div_cancel₀ _ (by norm_num : (2 : ℝ) ≠ 0)] at this
    have := Real.sin_sq_add_cos_sq (deg2rad p.1 / 2)
    linarith
  apply colat_range
  · unfold havA
    have : 0 < Real.sin (deg2rad p.1 / 2) ^ 2 := by positivity
    have := mul_pos hc this
    have := sq_nonneg (Real.sin (deg2rad p.2 / 2))
    linarith
  · unfold havA
    rw [e1, e2]
    have := mul_pos hc hc1
    nlinarith

theorem integrand_neg {p q : ℝ × ℝ} (hp : 0 < p.1 ∧ p.1 < Real.pi) (hq : 0 < q.1 ∧ q.1 < Real.pi) (h : wrap (q.2 - p.2) < 0) :
    integrand p q < 0 := by
  unfold integrand
  have : Real.cos (p.1 + (q.1 - p.1) / 2) < 1 := by
    rw [← Real.cos_zero]
    apply Real.cos_lt_cos_of_nonneg_of_le_pi le_rfl <;> linarith [hp.1, hp.2, hq.1, hq.2]
  exact mul_neg_of_pos_of_neg (by linarith) h

theorem lvHex_area {p q r : ℝ} (hp0 : 0 < p) (hp : p < 90) (hq0 : 0 < q) (hq : q < 90) (hr0 : 0 < r) (hr : r < 90) :
    0 < areaPolygon (lvHex p q r) := by
  have hpi := Real.pi_pos
  obtain ⟨θ, t0, t1, a1, a2, a3, a4, a5, a6⟩ := polar_hex hp0 hp hq0 hq hr0 hr
  have c1 := polar_colat (p := (p, 0)) (by simp only; linarith) hp (by norm_num) (by norm_num) hp0.ne'
  have c2 := polar_colat (p := (q, r)) (by simp only; linarith) hq (by simp only; linarith) hr hq0.ne'
  have c3 := polar_colat (p := (-q, r)) (by simp only; linarith) (by simp only; linarith) (by simp only; linarith) hr (by simp only; linarith)
  have c4 := polar_colat (p := (-p, 0)) (by simp only; linarith) (by simp only; linarith) (by norm_num) (by norm_num) (by simp only; linarith)
  have c5 := polar_colat (p := (-q, -r)) (by simp only; linarith) (by simp only; linarith) (by simp only; linarith) (by simp only; linarith) (by simp only; linarith)
  have c6 := polar_colat (p := (q, -r)) (by simp only; linarith) hq (by simp only; linarith) (by simp only; linarith) hq0.ne'
  have w : ∀ {d v : ℝ} (k : ℤ), d = v + 2 * Real.pi * k → -Real.pi ≤ v → v < 0 → wrap d < 0 := by
    intro d v k h1 h2 h3
    rw [wrap_unique (k := k) (by linarith) h2 (by linarith)]
    exact h3
  have i1 := integrand_neg c1 c2 (by rw [a1, a3]; exact w (v := θ - Real.pi / 2) 0 (by simp) (by linarith) (by linarith))
  have i2 := integrand_neg c2 c3 (by rw [a3, a4]; exact w (v := -2 * θ) 1 (by push_cast; ring) (by linarith) (by linarith))
  have i3 := integrand_neg c3 c4 (by rw [a4, a2]; exact w (v := θ - Real.pi / 2) 0 (by push_cast; ring) (by linarith) (by linarith))
  have i4 := integrand_neg c4 c5 (by rw [a2, a5]; exact w (v := θ - Real.pi / 2) 0 (by push_cast; ring) (by linarith) (by linarith))
  have i5 := integrand_neg c5 c6 (by rw [a5, a6]; exact w (v := -2 * θ) 0 (by push_cast; ring) (by linarith) (by linarith))
  have i6 := integrand_neg c6 c1 (by rw [a6, a1]; exact w (v := θ - Real.pi / 2) 0 (by push_cast; ring) (by linarith) (by linarith))
  rw [areaPolygon_eq]
  apply mul_pos (by norm_num)
  rw [abs_pos]
  apply ne_of_lt
  unfold integral lvHex
  simp only [List.map_cons, List.map_nil, List.tail_cons, List.zipWith_cons_cons, List.zipWith_nil_right, List.sum_cons, List.sum_nil]
  linarith

theorem lvArea_eq (s : ℝ) : areaPolygon (lvPts s) = areaPolygon (lvHex (1 / 2 + s) (1 / 2) s) :=
  C33_first_vertex (-(1 / 2), -s) (1 / 2 + s, 0) [(1 / 2, -s)] [(1 / 2, s), (-(1 / 2), s), (-(1 / 2 + s), 0)]

theorem lvArea_pos {s : ℝ} (h0 : 0 < s) (h1 : s < 1 / 2) : 0 < areaPolygon (lvPts s) := by
  rw [lvArea_eq]
  exact lvHex_area (by linarith) (by linarith) (by norm_num) (by norm_num) h0 (by linarith)

/-! ### the ellipse -/

theorem lvMean (s : ℝ) : meanPt (lvPts s) = (-(1 / 14), -(s / 7)) := by
  unfold meanPt lvPts
  simp only [List.map_cons, List.map_nil, List.sum_cons, List.sum_nil, List.length_cons, List.length_nil, Prod.mk.injEq]
  constructor
  · push_cast; ring
  · push_cast; ring

theorem lvGeneric {s : ℝ} (h0 : 0 < s) : Generic (lvPts s) := by
  intro A B C D E h
  rw [lvMean] at h
  have h1 := h (-(1 / 2), -s) (by simp [lvPts])
  have h2 := h (1 / 2, -s) (by simp [lvPts])
  have h3 := h (1 / 2 + s, 0) (by simp [lvPts])
  have h4 := h (1 / 2, s) (by simp [lvPts])
  have h5 := h (-(1 / 2), s) (by simp [lvPts])
  have h6 := h (-(1 / 2 + s), 0) (by simp [lvPts])
  unfold form at h1 h2 h3 h4 h5 h6
  simp only at h1 h2 h3 h4 h5 h6
  have hB : B * s = 0 := by linarith
  have hB : B = 0 := by rcases mul_eq_zero.1 hB with h | h <;> [exact h; exact absurd h h0.ne']
  subst hB
  have hD : A * (1 / 7) + D = 0 := by nlinarith
  have hE : (C * (2 * s / 7) + E) * s = 0 := by nlinarith
  have hE : C * (2 * s / 7) + E = 0 := by rcases mul_eq_zero.1 hE with h | h <;> [exact h; exact absurd h h0.ne']
  have hD' : D = -(A * (1 / 7)) := by linarith
  have hE' : E = -(C * (2 * s / 7)) := by linarith
  subst hD' hE'
  have k1 : A + 4 * (C * s ^ 2) = 0 := by nlinarith
  have k2 : (C * s ^ 2) * (1 / 2 + s) ^ 2 = 0 := by nlinarith
  have k3 : C * s ^ 2 = 0 := by
    rcases mul_eq_zero.1 k2 with h | h
    · exact h
    · exact absurd h (by positivity)
  have hC : C = 0 := by
    rcases mul_eq_zero.1 k3 with h | h
    · exact h
    · exact absurd h (by positivity)
  have hA : A = 0 := by linarith
  subst hC hA
  simp

/-- the fitted conic -/
noncomputable def lvConic (s : ℝ) : Conic :=
  ⟨49 / 12 / (1 + 2 * s) ^ 2, 0, 49 / 12 * (1 + s) / s / (1 + 2 * s) ^ 2, -(7 / 12 / (1 + 2 * s) ^ 2), -(7 / 6 * (1 + s) / (1 + 2 * s) ^ 2)⟩

theorem lvFitConic {s : ℝ} (h0 : 0 < s) : fitConic (lvPts s) = .ok (lvConic s) := by
  have h1 : 1 + 2 * s ≠ 0 := by positivity
  apply fitConic_exact
  · intro p hp
    rw [lvMean]
    unfold OnConic form lvConic
    simp only [lvPts, List.mem_cons, List.not_mem_nil, or_false] at hp
    rcases hp with rfl | rfl | rfl | rfl | rfl | rfl | rfl <;> simp only <;> field_simp <;> ring
  · exact (det_ne_zero_iff_generic _).2 (lvGeneric h0)

theorem lvConic_pos {s : ℝ} (h0 : 0 < s) : 0 < (lvConic s).a ∧ 0 < (lvConic s).c := by
  unfold lvConic
  constructor <;> simp only <;> positivity

theorem lvNotTilted {s : ℝ} (h0 : 0 < s) : ¬ Tilted (lvConic s) := by
  rintro ⟨h, -⟩
  have : (lvConic s).b = 0 := rfl
  rw [this, abs_zero] at h
  have := abs_nonneg (lvConic s).a
  linarith

theorem lvRotate {s : ℝ} (h0 : 0 < s) (m : ℝ × ℝ) : rotateConic (lvConic s) m = (lvConic s, m) := by
  unfold rotateConic
  rw [if_neg (lvNotTilted h0)]

/-- the second semi axis -/
noncomputable def lvQ (s : ℝ) : ℝ := Real.sqrt (s / (1 + s) * (1 / 2 + s) ^ 2)

theorem lvAxes {s : ℝ} (h0 : 0 < s) : Real.sqrt |conicF (lvConic s) / (lvConic s).a| = 1 / 2 + s ∧
    Real.sqrt |conicF (lvConic s) / (lvConic s).c| = lvQ s := by
  have h1 : 1 + 2 * s ≠ 0 := by positivity
  have e1 : conicF (lvConic s) / (lvConic s).a = (1 / 2 + s) ^ 2 := by
    unfold conicF lvConic
    simp only
    field_simp
    ring
  have e2 : conicF (lvConic s) / (lvConic s).c = s / (1 + s) * (1 / 2 + s) ^ 2 := by
    unfold conicF lvConic
    simp only
    field_simp
    ring
  rw [e1, e2, abs_of_nonneg (by positivity), abs_of_nonneg (by positivity), Real.sqrt_sq (by positivity)]
  exact ⟨rfl, rfl⟩

theorem lvFinite {s : ℝ} (h0 : 0 < s) : FiniteEllipse (lvPts s) := by
  intro q hq
  rw [lvFitConic h0] at hq
  injection hq with hq
  subst hq
  rw [lvRotate h0]
  obtain ⟨h1, h2⟩ := lvConic_pos h0
  exact ⟨h1.ne', h2.ne'⟩

theorem lvEllPoint {s : ℝ} (h0 : 0 < s) (t : ℝ) :
    ellipsePoint (lvConic s) (-(1 / 14), -(s / 7)) t = ((1 / 2 + s) * Real.cos t, lvQ s * Real.sin t) := by
  have h1 : 1 + 2 * s ≠ 0 := by positivity
  unfold ellipsePoint
  simp only [lvRotate h0, (lvAxes h0).1, (lvAxes h0).2]
  have hphi : phiOf (lvConic s) = 0 := by unfold phiOf; rw [if_neg (lvNotTilted h0)]
  rw [hphi]
  simp only [Real.cos_zero, Real.sin_zero]
  have x0 : -(1 / 14) - (lvConic s).d / 2 / (lvConic s).a = 0 := by
    unfold lvConic
    simp only
    field_simp
    ring
  have y0 : -(s / 7) - (lvConic s).e / 2 / (lvConic s).c = 0 := by
    unfold lvConic
    simp only
    field_simp
    ring
  rw [x0, y0]
  simp

/-- the curve of the fit -/
noncomputable def lvCurve (s : ℝ) : List (ℝ × ℝ) := lvHex (1 / 2 + s) ((1 / 2 + s) / 2) (lvQ s * (Real.sqrt 3 / 2))

theorem lvFit {s : ℝ} (h0 : 0 < s) : fitEllipse (lvPts s) = .ok (lvCurve s, (max (1 / 2 + s) (lvQ s), min (1 / 2 + s) (lvQ s), angleOf (lvConic s))) := by
  unfold fitEllipse
  rw [lvFitConic h0]
  simp only [bind, Except.bind, pure, Except.pure, lvMean, Except.ok.injEq, Prod.mk.injEq]
  have hc : Real.cos (2 * Real.pi / 3) = -1 / 2 ∧ Real.sin (2 * Real.pi / 3) = Real.sqrt 3 / 2 := by
    have : 2 * Real.pi / 3 = Real.pi - Real.pi / 3 := by ring
    rw [this, Real.cos_pi_sub, Real.sin_pi_sub, Real.cos_pi_div_three, Real.sin_pi_div_three]
    norm_num
  have hax : semiAxes (lvConic s) (-(1 / 14), -(s / 7)) = (1 / 2 + s, lvQ s) := by
    unfold semiAxes
    simp only [lvRotate h0, (lvAxes h0).1, (lvAxes h0).2]
  refine ⟨?_, by rw [hax], by rw [hax], trivial⟩
  have hl : linspace2pi (lvPts s).length = [0, Real.pi / 3, 2 * Real.pi / 3, Real.pi, Real.pi / 3 + Real.pi,
      2 * Real.pi / 3 + Real.pi, 2 * Real.pi] := by
    unfold linspace2pi
    simp only [lvPts, List.length_cons, List.length_nil, List.range_succ, List.range_zero]
    simp only [List.nil_append, List.cons_append, List.map_cons, List.map_nil]
    norm_num
    refine ⟨?_, ?_, ?_, ?_, ?_⟩ <;> ring
  rw [hl]
  simp only [List.map_cons, List.map_nil, lvEllPoint h0, Real.cos_add_pi, Real.sin_add_pi, Real.cos_zero, Real.sin_zero,
    Real.cos_pi_div_three, Real.sin_pi_div_three, hc.1, hc.2, Real.cos_pi, Real.sin_pi, Real.cos_two_pi, Real.sin_two_pi]
  unfold lvCurve lvHex
  simp only [List.cons.injEq, Prod.mk.injEq, and_true]
  repeat' apply And.intro
  all_goals ring

theorem lvCurve_pos {s : ℝ} (h0 : 0 < s) (h1 : s < 1 / 2) : 0 < areaPolygon (lvCurve s) := by
  have hq0 : 0 < lvQ s := Real.sqrt_pos.2 (by positivity)
  have hq1 : lvQ s < 1 := by
    unfold lvQ
    rw [Real.sqrt_lt' one_pos, one_pow]
    have e1 : s / (1 + s) < 1 := by rw [div_lt_one (by positivity)]; linarith
    have e2 : 0 < s / (1 + s) := by positivity
    have e3 : (1 / 2 + s) ^ 2 < 1 := by nlinarith
    nlinarith
  have h3 : 0 < Real.sqrt 3 := Real.sqrt_pos.2 (by norm_num)
  have h4 : Real.sqrt 3 < 2 := by rw [Real.sqrt_lt' (by norm_num)]; norm_num
  exact lvHex_area (by linarith) (by linarith) (by linarith) (by linarith) (by positivity) (by nlinarith)

/-! ### the libraries -/

open Classical in
/-- a correct search for nearest grid points -/
noncomputable def lvBallTree (g : Grid ℝ) (pt v : ℝ × ℝ) : Nat :=
  if g.BallTreeAnswer pt v (if v.1 < 0 then 5 else 6) then (if v.1 < 0 then 5 else 6)
  else if h : ∃ k, g.BallTreeAnswer pt v k then h.choose else 0

/-- the libraries of the example -/
noncomputable def lvLibs : Libs := ⟨100, fun _ _ => Cntr.exMem, lvBallTree, fun _ => .error .valueError⟩

theorem lvLibs_nearest : lvLibs.Nearest := by
  intro g pt v h
  show g.BallTreeAnswer pt v (lvBallTree g pt v)
  unfold lvBallTree
  by_cases h1 : g.BallTreeAnswer pt v (if v.1 < 0 then 5 else 6)
  · rw [if_pos h1]
    exact h1
  · rw [if_neg h1, dif_pos (exists_answer_of_ne g pt v h)]
    exact (exists_answer_of_ne g pt v h).choose_spec

/-- the coordinates on the grid -/
theorem lvAxis4 {c : Nat} (h : c < 4) : ([-3/2, -1/2, 1/2, 3/2] : List ℝ).getD c 0 = c - 3 / 2 := by
  interval_cases c <;> norm_num

theorem lvAxis3 {r : Nat} (h : r < 3) : ([-1, 0, 1] : List ℝ).getD r 0 = r - 1 := by
  interval_cases r <;> norm_num

theorem lvField_rect : lvField.Rectilinear := by
  refine ⟨fun c => [-3/2, -1/2, 1/2, 3/2].getD c 0, fun r => [-1, 0, 1].getD r 0, fun _ _ => rfl, fun _ _ => rfl, Or.inl ?_, Or.inl ?_⟩
  · intro i j h hj
    have hj : j < 4 := hj
    show ([-3/2, -1/2, 1/2, 3/2] : List ℝ).getD i 0 ≤ ([-3/2, -1/2, 1/2, 3/2] : List ℝ).getD j 0
    rw [lvAxis4 hj, lvAxis4 (by omega)]
    have : (i : ℝ) ≤ j := Nat.cast_le.2 h
    linarith
  · intro i j h hj
    have hj : j < 3 := hj
    show ([-1, 0, 1] : List ℝ).getD i 0 ≤ ([-1, 0, 1] : List ℝ).getD j 0
    rw [lvAxis3 hj, lvAxis3 (by omega)]
    have : (i : ℝ) ≤ j := Nat.cast_le.2 h
    linarith

/-- the grid of the example -/
noncomputable def lvGrid : Grid ℝ := ⟨3, 4, fun _ c => [-3/2, -1/2, 1/2, 3/2].getD c 0, fun r _ => [-1, 0, 1].getD r 0⟩

section
variable {s : ℝ} (s0 : 0 < s) (s1 : s < 1 / 2)
include s0 s1

theorem lvMask : ∀ r < 3, ∀ c < 4, lvGrid.mask (-(1 / 14), -(s / 7)) r c = true := by
  intro r hr c hc
  unfold Grid.mask nearPt lvGrid
  simp only [Bool.and_eq_true, decide_eq_true_eq, lvAxis4 hc, lvAxis3 hr]
  have h1 : (r : ℝ) ≤ 2 := by exact_mod_cast Nat.le_of_lt_succ hr
  have h2 : (c : ℝ) ≤ 3 := by exact_mod_cast Nat.le_of_lt_succ hc
  have h3 : (0 : ℝ) ≤ r := by positivity
  have h4 : (0 : ℝ) ≤ c := by positivity
  have h5 := abs_nonneg (-(1 / 14) : ℝ)
  have h6 := abs_nonneg (-(s / 7))
  constructor <;> rw [abs_le] <;> constructor <;> linarith

theorem lvMasked : masked 3 4 (lvGrid.mask (-(1 / 14), -(s / 7))) =
    [(0, 0), (0, 1), (0, 2), (0, 3), (1, 0), (1, 1), (1, 2), (1, 3), (2, 0), (2, 1), (2, 2), (2, 3)] := by
  have e : masked 3 4 (lvGrid.mask (-(1 / 14), -(s / 7))) = masked 3 4 (fun _ _ => true) := by
    unfold masked
    apply List.flatMap_congr
    intro r hr
    congr 1
    apply List.filter_congr
    intro c hc
    exact lvMask s0 s1 r (List.mem_range.1 hr) c (List.mem_range.1 hc)
  rw [e]
  decide

theorem lvIndex {v : ℝ × ℝ} (hv : v ∈ lvPts s) :
    lvBallTree lvGrid (-(1 / 14), -(s / 7)) v = if v.1 < 0 then 5 else 6 := by
  unfold lvBallTree
  rw [if_pos]
  unfold Grid.BallTreeAnswer
  simp only [lvPts, List.mem_cons, List.not_mem_nil, or_false] at hv
  show ∃ p, (masked 3 4 (lvGrid.mask (-(1 / 14), -(s / 7))))[_]? = some p ∧
    ∀ q ∈ masked 3 4 (lvGrid.mask (-(1 / 14), -(s / 7))), lvGrid.dist2 v p ≤ lvGrid.dist2 v q
  rw [lvMasked s0 s1]
  have n1 : ¬ (1 / 2 + s < 0) := by linarith
  have n2 : -(1 / 2 + s) < 0 := by linarith
  unfold Grid.dist2 lvGrid
  rcases hv with rfl | rfl | rfl | rfl | rfl | rfl | rfl
  all_goals
    simp only [n1, n2, if_true, if_false, show (-(1 / 2) : ℝ) < 0 by norm_num, show ¬ ((1 / 2 : ℝ) < 0) by norm_num]
    refine ⟨_, rfl, ?_⟩
    intro q hq
    simp only [List.mem_cons, List.not_mem_nil, or_false] at hq
    rcases hq with rfl | rfl | rfl | rfl | rfl | rfl | rfl | rfl | rfl | rfl | rfl | rfl <;>
      simp only [List.getD_cons_zero, List.getD_cons_succ] <;> nlinarith

theorem lvCode : ∀ v ∈ lvPts s, codeIndex 3 4 (lvGrid.mask (-(1 / 14), -(s / 7))) (lvBallTree lvGrid (-(1 / 14), -(s / 7)) v) =
    .ok (if v.1 < 0 then (1, 1) else (1, 2)) := by
  intro v hv
  have e : ∀ k, codeIndex 3 4 (lvGrid.mask (-(1 / 14), -(s / 7))) k = codeIndex 3 4 (fun _ _ => true) k := by
    intro k
    have h1 : colSums 3 4 (lvGrid.mask (-(1 / 14), -(s / 7))) = colSums 3 4 fun _ _ => true := by
      unfold colSums
      apply List.map_congr_left
      intro c hc
      apply List.countP_congr
      intro r hr
      rw [lvMask s0 s1 r (List.mem_range.1 hr) c (List.mem_range.1 hc)]
    have h2 : rowSums 3 4 (lvGrid.mask (-(1 / 14), -(s / 7))) = rowSums 3 4 fun _ _ => true := by
      unfold rowSums
      apply List.map_congr_left
      intro r hr
      apply List.countP_congr
      intro c hc
      rw [lvMask s0 s1 r (List.mem_range.1 hr) c (List.mem_range.1 hc)]
    unfold codeIndex
    rw [h1, h2]
  rw [e, lvIndex s0 s1 hv]
  by_cases h : v.1 < 0
  · rw [if_pos h, if_pos h]
    decide
  · rw [if_neg h, if_neg h]
    decide

end

/-- the enclosed data, the same at both levels -/
theorem lvData : ∃ e : Extremum ℝ, e.maxima ≠ 0 ∧ ∀ s, 0 < s → s < 1 / 2 → dataInContour lvLibs lvField (lvPts s) = .ok ⟨exWindow, e⟩ := by
  obtain ⟨e, he, he0⟩ := exData
  refine ⟨e, he0, ?_⟩
  intro s s0 s1
  unfold dataInContour at he ⊢
  have hm : masked lvField.data.rows lvField.data.cols ((⟨lvField.data.rows, lvField.data.cols, lvField.X.get,
      lvField.Y.get⟩ : Grid ℝ).mask (meanPt (lvPts s))) ≠ [] := by
    rw [lvMean]
    show masked 3 4 (lvGrid.mask (-(1 / 14), -(s / 7))) ≠ []
    rw [lvMasked s0 s1]
    simp
  have hmap : ((lvPts s).mapM fun v => codeIndex lvField.data.rows lvField.data.cols ((⟨lvField.data.rows, lvField.data.cols,
      lvField.X.get, lvField.Y.get⟩ : Grid ℝ).mask (meanPt (lvPts s))) (lvLibs.ballTree ⟨lvField.data.rows, lvField.data.cols,
      lvField.X.get, lvField.Y.get⟩ (meanPt (lvPts s)) v)) = .ok [(1, 1), (1, 2), (1, 2), (1, 2), (1, 1), (1, 1), (1, 1)] := by
    rw [mapM_ok (g := fun v : ℝ × ℝ => if v.1 < 0 then ((1 : Nat), (1 : Nat)) else (1, 2))]
    · have n1 : ¬ (1 / 2 + s < 0) := by linarith
      have n2 : -(1 / 2 + s) < 0 := by linarith
      unfold lvPts
      simp only [List.map_cons, List.map_nil, n1, n2, if_true, if_false, show (-(1 / 2) : ℝ) < 0 by norm_num, show ¬ ((1 / 2 : ℝ) < 0) by norm_num]
    · intro v hv
      rw [lvMean]
      exact lvCode s0 s1 v hv
  have hm' : masked exField.data.rows exField.data.cols ((⟨exField.data.rows, exField.data.cols, exField.X.get,
      exField.Y.get⟩ : Grid ℝ).mask (meanPt exPts)) ≠ [] := by
    rw [exMean]
    show masked 3 4 (exGrid.mask (10 / 7, 13 / 14)) ≠ []
    rw [exMasked]
    simp
  have hmap' : (exPts.mapM fun v => codeIndex exField.data.rows exField.data.cols ((⟨exField.data.rows, exField.data.cols,
      exField.X.get, exField.Y.get⟩ : Grid ℝ).mask (meanPt exPts)) (exLibs.ballTree ⟨exField.data.rows, exField.data.cols,
      exField.X.get, exField.Y.get⟩ (meanPt exPts) v)) = .ok [(1, 1), (1, 2), (1, 2), (1, 2), (1, 1), (1, 1), (1, 1)] := by
    rw [mapM_ok (g := fun v : ℝ × ℝ => if v.1 < 3 / 2 then ((1 : Nat), (1 : Nat)) else (1, 2))]
    · unfold exPts
      norm_num
    · intro v hv
      rw [exMean]
      exact exCode v hv
  simp only [hm', if_false, bind, Except.bind, pure, Except.pure, hmap'] at he
  simp only [hm, if_false, bind, Except.bind, pure, Except.pure, hmap]
  exact he

/-! ### the eddies -/

/-- criteria met by both contours -/
noncomputable def lvCriteria : Criteria ℝ :=
  ⟨10 * (1 + areaPolygon (lvPts (1 / 4)) / areaPolygon (lvCurve (1 / 4)) + areaPolygon (lvPts (3 / 8)) / areaPolygon (lvCurve (3 / 8))), 1, 0,
    Real.sqrt (areaPolygon (lvPts (1 / 4)) / Real.pi) / approxRD (-(1 / 4 / 7)) +
    Real.sqrt (areaPolygon (lvPts (3 / 8)) / Real.pi) / approxRD (-(3 / 8 / 7)), true⟩

theorem lvCriteria_ok {s : ℝ} (hs : s = 1 / 4 ∨ s = 3 / 8) :
    Real.sqrt (areaPolygon (lvPts s) / Real.pi) ≤ lvCriteria.maxArea * approxRD (-(s / 7)) ∧
    isclose (areaPolygon (lvPts s)) (areaPolygon (lvCurve s)) (1 / 10 * lvCriteria.ellipseFit) = true ∧ 1 ≤ lvCriteria.ellipseFit := by
  have hrd : ∀ x, 0 < approxRD x := by intro x; unfold approxRD; positivity
  have p1 := lvArea_pos (s := 1 / 4) (by norm_num) (by norm_num)
  have p2 := lvArea_pos (s := 3 / 8) (by norm_num) (by norm_num)
  have q1 := lvCurve_pos (s := 1 / 4) (by norm_num) (by norm_num)
  have q2 := lvCurve_pos (s := 3 / 8) (by norm_num) (by norm_num)
  have r1 := div_pos p1 q1
  have r2 := div_pos p2 q2
  have m1 := Real.sqrt_nonneg (areaPolygon (lvPts (1 / 4)) / Real.pi)
  have m2 := Real.sqrt_nonneg (areaPolygon (lvPts (3 / 8)) / Real.pi)
  have key : areaPolygon (lvPts s) / areaPolygon (lvCurve s) + 1 ≤ 1 / 10 * lvCriteria.ellipseFit ∧
      Real.sqrt (areaPolygon (lvPts s) / Real.pi) / approxRD (-(s / 7)) ≤ lvCriteria.maxArea ∧ 0 < areaPolygon (lvPts s) ∧
      0 < areaPolygon (lvCurve s) := by
    have d1 := div_nonneg m1 (hrd (-(1 / 4 / 7))).le
    have d2 := div_nonneg m2 (hrd (-(3 / 8 / 7))).le
    unfold lvCriteria
    rcases hs with rfl | rfl
    · refine ⟨?_, ?_, p1, q1⟩ <;> simp only <;> linarith
    · refine ⟨?_, ?_, p2, q2⟩ <;> simp only <;> linarith
  obtain ⟨k1, k2, k3, k4⟩ := key
  refine ⟨(div_le_iff₀ (hrd _)).1 k2, ?_, ?_⟩
  · unfold isclose
    rw [decide_eq_true_eq]
    have h1 := mul_le_mul_of_nonneg_right k1 k4.le
    rw [add_mul, div_mul_cancel₀ _ k4.ne', one_mul] at h1
    rw [abs_of_pos k4, abs_le]
    constructor <;> linarith
  · unfold lvCriteria
    simp only
    linarith

theorem lvSkips {s : ℝ} (s0 : 0 < s) (s1 : s < 1 / 2) : Cntr.skipsContour ((lvPts s).map some) = false := by
  have h : Cntr.skipsContour ((lvPts s).map some) =
      (Cntr.closeNan (some (-(1 / 14) : ℝ)) (some (-(1 / 2))) && Cntr.closeNan (some (-(s / 7))) (some (-s))) := by
    have hm := lvMean s
    unfold meanPt lvPts at hm
    simp only [List.map_cons, List.map_nil, Prod.mk.injEq] at hm
    unfold Cntr.skipsContour lvPts Cntr.meanOf
    simp only [List.map_cons, List.map_nil, Option.map_some, List.all_cons, List.all_nil, Option.isSome_some, Bool.and_true,
      if_true, Option.getD_some]
    simp only [List.length_cons, List.length_nil] at hm ⊢
    rw [hm.1, hm.2]
  rw [h]
  unfold Cntr.closeNan
  rw [Bool.and_eq_false_iff]
  left
  rw [decide_eq_false_iff_not]
  norm_num [abs_of_pos]

theorem lvSim (s : ℝ) : ∃ v, similarity 100 (lvPts s) (lvCurve s) = .ok v := by
  obtain ⟨d, hd, _⟩ := Frechet.C24_frdist_is_discrete_frechet 100 eucl eucl_symm (lvPts s) (lvCurve s) (by simp [lvPts])
    (by simp [lvCurve, lvHex]) (Or.inl (by simp [lvPts])) (by simp [lvPts, lvCurve, lvHex])
  unfold similarity
  simp only [hd, bind, Except.bind, pure, Except.pure]
  split <;> exact ⟨_, rfl⟩

theorem lvStored : ∃ m : ℝ × ℝ × ℝ, ∀ s, s = 1 / 4 ∨ s = 3 / 8 → ∃ e : EddyObj,
    examine lvCriteria lvLibs lvField (1 - s) ((lvPts s).map some) = .ok (.stored e) ∧ e.level = 1 - s ∧ 0 < e.radius ∧ e.maxima = m := by
  obtain ⟨x, hx0, hx⟩ := lvData
  refine ⟨maximaOf lvField ⟨exWindow, x⟩, ?_⟩
  intro s hs
  have s0 : 0 < s := by rcases hs with rfl | rfl <;> norm_num
  have s1 : s < 1 / 2 := by rcases hs with rfl | rfl <;> norm_num
  obtain ⟨v, hv⟩ := lvSim s
  obtain ⟨c1, c2, c3⟩ := lvCriteria_ok hs
  refine ⟨⟨lvPts s, 1 - s, areaPolygon (lvPts s), Real.sqrt (areaPolygon (lvPts s) / Real.pi),
    (max (1 / 2 + s) (lvQ s), min (1 / 2 + s) (lvQ s), angleOf (lvConic s)), v,
    eccentricity (max (1 / 2 + s) (lvQ s)) (min (1 / 2 + s) (lvQ s)), meanPt (lvPts s), x.sign, maximaOf lvField ⟨exWindow, x⟩, none, some 0⟩,
    ?_, rfl, Real.sqrt_pos.2 (div_pos (lvArea_pos s0 s1) Real.pi_pos), rfl⟩
  rw [examine_stored]
  refine ⟨lvSkips s0 s1, rfl, lvCurve s, ⟨exWindow, x⟩, ?_⟩
  refine ⟨rfl, rfl, rfl, rfl, rfl, ?_, lvFit s0, lvFinite s0, c2, rfl, ?_, ?_, ?_, hx s s0 s1, rfl, rfl, hx0, Or.inl ⟨rfl, rfl, rfl⟩⟩
  · rw [lvMean]
    exact c1
  · rintro ⟨u, hu, h1⟩
    simp only at hu
    unfold eccentricity at hu
    split at hu
    · cases hu
    · split at hu
      · cases hu
      · injection hu with hu
        have h2 : u ≤ 1 := by
          rw [← hu]
          apply Real.sqrt_le_one.2
          have : 0 ≤ |min (1 / 2 + s) (lvQ s)| ^ 2 / |max (1 / 2 + s) (lvQ s)| ^ 2 := by positivity
          linarith
        exact absurd h1 (not_lt.2 h2)
  · show liftFr (similarity 100 (lvPts s) (lvCurve s)) = .ok v
    rw [hv]
    rfl
  · rintro ⟨u, hu, h1⟩
    simp only at hu
    subst hu
    have := (similarity_unit hv).2
    linarith

/-- the two eddies -/
theorem lvFound : ∃ e e' : EddyObj, foundIn lvCriteria lvLibs lvField (3 / 4) = [e] ∧ foundIn lvCriteria lvLibs lvField (5 / 8) = [e'] ∧
    e.level = 3 / 4 ∧ e'.level = 5 / 8 ∧ NearEddy e' e ∧ NearEddy e e' ∧
    ∀ l, l = 3 / 4 ∨ l = 5 / 8 → ∃ t, pureLevel lvCriteria (levelMeasures lvCriteria lvLibs lvField l) = .ok t := by
  obtain ⟨m, hm⟩ := lvStored
  obtain ⟨e, h1, h2, h3, h4⟩ := hm (1 / 4) (Or.inl rfl)
  obtain ⟨e', h1', h2', h3', h4'⟩ := hm (3 / 8) (Or.inr rfl)
  rw [show (1 : ℝ) - 1 / 4 = 3 / 4 by norm_num] at h1 h2
  rw [show (1 : ℝ) - 3 / 8 = 5 / 8 by norm_num] at h1' h2'
  obtain ⟨c1, c2⟩ := lvField_contours lvLibs
  have near : ∀ a b : EddyObj, a.maxima = b.maxima → 0 < a.radius → NearEddy a b := by
    intro a b hab ha
    unfold NearEddy EddyObj.place
    rw [hab, ← C83_great_circle]
    have h0 : ∀ p : ℝ × ℝ, haversine p p = 0 := by intro p; simp [haversine]
    rw [h0, zero_mul]
    exact ha
  refine ⟨e, e', ?_, ?_, h2, h2', near e' e (h4'.trans h4.symm) h3', near e e' (h4.trans h4'.symm) h3, ?_⟩
  · unfold foundIn
    have hse : storedEddy lvCriteria lvLibs lvField (3 / 4) ((lvPts (1 / 4)).map some) = some e := by unfold storedEddy; rw [h1]
    rw [c1, List.filterMap_cons_some hse, List.filterMap_nil]
  · unfold foundIn
    have hse : storedEddy lvCriteria lvLibs lvField (5 / 8) ((lvPts (3 / 8)).map some) = some e' := by unfold storedEddy; rw [h1']
    rw [c2, List.filterMap_cons_some hse, List.filterMap_nil]
  · intro l hl
    unfold pureLevel
    have hv : ∀ m ∈ levelMeasures lvCriteria lvLibs lvField l, ∃ v, verdict lvCriteria m = .ok v := by
      intro m hm
      unfold levelMeasures at hm
      rcases hl with rfl | rfl
      · rw [c1] at hm
        simp only [List.map_cons, List.map_nil, List.mem_singleton] at hm
        subst hm
        rw [verdict_measures, h1]
        exact ⟨_, rfl⟩
      · rw [c2] at hm
        simp only [List.map_cons, List.map_nil, List.mem_singleton] at hm
        subst hm
        rw [verdict_measures, h1']
        exact ⟨_, rfl⟩
    rw [detectOneLevel_ok _ _ hv]
    exact ⟨_, rfl⟩

theorem select_near {β : Type} {near : β → β → Prop} {a b : β} (h : near b a) : select near [[a], [b]] = [a] := by
  classical
  unfold select
  simp [h]

theorem lvSnapshots {prunes : Bool} {nn : List (ℝ × ℝ) → ℝ × ℝ → Nat} (hnn : IsNN haversine nn) : ∃ (e e' : EddyObj) (C C' : Tbl Cols),
    pureSnapshot (colsEnv prunes nn) lvCriteria lvLibs lvField [3 / 4, 5 / 8] = .ok C ∧
    pureSnapshot (colsEnv prunes nn) lvCriteria lvLibs lvField [5 / 8, 3 / 4] = .ok C' ∧
    C.rows = snapRows [tableRows e.data] ∧ C'.rows = snapRows [tableRows e'.data] ∧ e.level = 3 / 4 ∧ e'.level = 5 / 8 ∧
    tableRows e.data ≠ [] ∧ tableRows e'.data ≠ [] := by
  obtain ⟨e, e', f1, f2, l1, l2, n1, n2, hok⟩ := lvFound
  obtain ⟨C, h1, h2⟩ := pureSnapshot_select (prunes := prunes) hnn (c := lvCriteria) rfl (L := lvLibs) lvField_ok (levels := [3 / 4, 5 / 8])
    (fun l hl _ => hok l (by simpa using hl))
  obtain ⟨C', h1', h2'⟩ := pureSnapshot_select (prunes := prunes) hnn (c := lvCriteria) rfl (L := lvLibs) lvField_ok (levels := [5 / 8, 3 / 4])
    (fun l hl _ => hok l (by have : l = 5 / 8 ∨ l = 3 / 4 := by simpa using hl
                             exact this.symm))
  have e1 : ([3 / 4, 5 / 8] : List ℝ).filter (· ≠ 0) = [3 / 4, 5 / 8] := by norm_num
  have e2 : ([5 / 8, 3 / 4] : List ℝ).filter (· ≠ 0) = [5 / 8, 3 / 4] := by norm_num
  rw [e1, List.map_cons, List.map_cons, List.map_nil, f1, f2, select_near n1] at h2
  rw [e2, List.map_cons, List.map_cons, List.map_nil, f1, f2, select_near n2] at h2'
  exact ⟨e, e', C, C', h1, h1', h2, h2', l1, l2, foundIn_ne lvField_ok _ e (by rw [f1]; simp), foundIn_ne lvField_ok _ e' (by rw [f2]; simp)⟩

/-- **C122** is false: for two adjacent grid points with value 1 among zeros, the levels 3/4 and 5/8 give one eddy whose contour is at 3/4;
the same levels in the other order give one whose contour is at 5/8. -/
theorem C122_refuted : ∃ (c : Criteria ℝ) (L : Libs) (S : Fields), S.Ok ∧ S.Rectilinear ∧ L.Nearest ∧ c.skipGauss = true ∧
    ∀ (prunes : Bool) (nn : List (ℝ × ℝ) → ℝ × ℝ → Nat), IsNN haversine nn → ∃ C C',
      (snapshotOf (colsEnv prunes nn) c L S [3 / 4, 5 / 8] Regs.empty).2 = .ok C ∧
      (snapshotOf (colsEnv prunes nn) c L S [5 / 8, 3 / 4] Regs.empty).2 = .ok C' ∧ C.rows ≠ [] ∧ C'.rows ≠ [] ∧
      (∀ r ∈ C.rows, column "level" r.val = 3 / 4) ∧ ∀ r ∈ C'.rows, column "level" r.val = 5 / 8 := by
  refine ⟨lvCriteria, lvLibs, lvField, lvField_ok, lvField_rect, lvLibs_nearest, rfl, ?_⟩
  intro prunes nn hnn
  obtain ⟨e, e', C, C', h1, h2, h3, h4, l1, l2, n1, n2⟩ := lvSnapshots (prunes := prunes) hnn
  refine ⟨C, C', by rw [(snapshotOf_pure _ _ _ lvField_ok _ ⟨rfl, rfl⟩).1]; exact h1,
    by rw [(snapshotOf_pure _ _ _ lvField_ok _ ⟨rfl, rfl⟩).1]; exact h2, ?_, ?_, ?_, ?_⟩
  · rw [h3]
    unfold snapRows eddyRows
    simpa using n1
  · rw [h4]
    unfold snapRows eddyRows
    simpa using n2
  all_goals
    intro r hr
    first | rw [h3] at hr | rw [h4] at hr
    have hv : ∀ o : EddyObj, r ∈ snapRows [tableRows o.data] → column "level" r.val = o.level := by
      intro o ho
      unfold snapRows eddyRows at ho
      simp only [List.mapIdx_cons, List.mapIdx_nil, List.flatten_cons, List.flatten_nil, List.append_nil] at ho
      obtain ⟨j, hj, rfl⟩ := List.mem_mapIdx.1 ho
      have := List.getElem_mem (l := tableRows o.data) hj
      obtain ⟨p, -, hp⟩ := List.mem_map.1 this
      simp only
      rw [← hp]
      simp [column, columns, EddyObj.data]
    first | exact (hv e hr).trans l1 | exact (hv e' hr).trans l2

/-! ### the hypotheses of C120-C122 -/

theorem oneTime_run {Pt : Type} {E : Env Cols ℝ Pt} (hnn : IsNN E.dist E.nn) {c : Criteria ℝ} {L : Libs} {S : Fields} (hS : S.Ok) {levels : List ℝ}
    {C : Tbl Cols} (hC : pureSnapshot E c L S levels = .ok C) (hne : C.rows ≠ []) (ntimes : Int) {regs : Regs Cols} (hr : StoreEmpty regs) :
    ∃ s, (trackFields E c L (fun _ => S) levels 0 none 1 ntimes true regs).2 = .ok s ∧ s.table.rows ≠ [] := by
  have hsnap : ∀ (t : Int) C, (fun _ : Int => pureSnapshot E c L S levels) t = .ok C → SnapRows C.rows := by
    intro t C hC
    have := detectSnapshot_inv (fun l tb htb => pureLevel_level htb) _ hC
    exact ⟨this.first, this.contig⟩
  have hts : trackTimes 0 none 1 = [0] := by decide
  have hrun := (run_ok_iff hnn (tf := none) (ntimes := ntimes) (snap := fun _ => pureSnapshot E c L S levels) [0]
    (by simp) (fun _ _ => ⟨C, hC⟩) (fun t _ => rowsAt_snapRows hsnap t)).2 (by
      intro t ht _ hu
      obtain ⟨u, hu, hlt, _⟩ := hu
      rw [List.mem_singleton] at ht hu
      omega)
  obtain ⟨s, hs⟩ := hrun
  have hs' : timeTracking E (fun _ => pureSnapshot E c L S levels) 0 none 1 ntimes true = .ok s := by
    unfold timeTracking
    rw [hts]
    exact hs
  refine ⟨s, ?_, ?_⟩
  · rw [(trackFields_pure _ _ _ (fun _ _ => hS) hr).1]
    exact hs'
  · obtain ⟨g, hg⟩ := C03_no_detection_lost_or_invented hnn hsnap hs'
    have hproc : s.processed = trackTimes 0 none 1 :=
      (run_inv hnn _ (pairwise_trackTimes 0 none 1) (fun t _ => rowsAt_snapRows hsnap t) hs').proc
    rw [hproc, hts] at hg
    intro h0
    rw [h0] at hg
    have := hg.symm.eq_nil
    simp only [List.flatMap_cons, List.flatMap_nil, List.append_nil, tagged, rowsAt, hC] at this
    exact hne (List.map_eq_nil_iff.1 this)

/-- some levels of the example -/
theorem lvRuns {prunes : Bool} {nn : List (ℝ × ℝ) → ℝ × ℝ → Nat} (hnn : IsNN haversine nn) {levels : List ℝ}
    (hl : levels ∈ [[3 / 4], [3 / 4, 5 / 8], [5 / 8], [5 / 8, 3 / 4], [3 / 4, 5 / 8, 3 / 4]]) :
    ∃ s, (trackFields (colsEnv prunes nn) lvCriteria lvLibs (fun _ => lvField) levels 0 none 1 1 true Regs.empty).2 = .ok s ∧ s.table.rows ≠ [] := by
  obtain ⟨e, e', f1, f2, l1, l2, n1, n2, hok⟩ := lvFound
  have hmem : ∀ l ∈ levels, l = 3 / 4 ∨ l = 5 / 8 := by
    simp only [List.mem_cons, List.not_mem_nil, or_false] at hl
    rcases hl with rfl | rfl | rfl | rfl | rfl <;> intro l hl <;> simp only [List.mem_cons, List.not_mem_nil, or_false] at hl <;> tauto
  obtain ⟨C, h1, h2⟩ := pureSnapshot_select (prunes := prunes) hnn (c := lvCriteria) rfl (L := lvLibs) lvField_ok (levels := levels)
    (fun l hl _ => hok l (hmem l hl))
  have hfil : levels.filter (· ≠ 0) = levels := by
    apply List.filter_eq_self.2
    intro l hl
    rcases hmem l hl with rfl | rfl <;> norm_num
  rw [hfil] at h2
  refine oneTime_run hnn lvField_ok h1 ?_ 1 ⟨rfl, rfl⟩
  have hsub : ∃ o more, o ∈ [e, e'] ∧ select NearEddy (levels.map (foundIn lvCriteria lvLibs lvField)) = o :: more := by
    obtain ⟨l, rest, hlr⟩ : ∃ l rest, levels = l :: rest := by
      cases levels with
      | nil => simp at hl
      | cons l rest => exact ⟨l, rest, rfl⟩
    obtain ⟨more, hm⟩ := select_append NearEddy [foundIn lvCriteria lvLibs lvField l] (rest.map (foundIn lvCriteria lvLibs lvField))
    have h0 : ∀ o : EddyObj, select NearEddy [[o]] = [o] := by intro o; classical simp [select]
    rcases hmem l (by rw [hlr]; simp) with rfl | rfl
    · rw [f1, h0] at hm
      refine ⟨e, more, by simp, ?_⟩
      rw [hlr, List.map_cons, f1]
      exact hm
    · rw [f2, h0] at hm
      refine ⟨e', more, by simp, ?_⟩
      rw [hlr, List.map_cons, f2]
      exact hm
  obtain ⟨o, more, ho, hse⟩ := hsub
  have hne : tableRows o.data ≠ [] := by
    simp only [List.mem_cons, List.not_mem_nil, or_false] at ho
    rcases ho with rfl | rfl
    · exact foundIn_ne lvField_ok (3 / 4) _ (by rw [f1]; simp)
    · exact foundIn_ne lvField_ok (5 / 8) _ (by rw [f2]; simp)
  rw [h2, hse]
  unfold snapRows eddyRows
  simp [hne]

/-- C120 and C121 for the example: tables that are not empty -/
example : ∃ (nn : List (ℝ × ℝ) → ℝ × ℝ → Nat) (s s' : LoopState Cols), s.table.rows ≠ [] ∧ s'.table.rows ≠ [] ∧
    (∃ (es : Int → ℝ → List EddyObj) (g : Int → Nat → Nat),
      (∀ t ∈ trackTimes 0 none 1, ∀ l ∈ [(3 / 4 : ℝ), 5 / 8], l ≠ 0 → Found lvCriteria lvLibs lvField l (es t l)) ∧
      s'.table.rows.Perm ((trackTimes 0 none 1).flatMap fun t =>
        ((select NearEddy (([(3 / 4 : ℝ), 5 / 8].filter (· ≠ 0)).map (es t))).mapIdx
          fun i e => atTime t (eddyRows (g t i) (tableRows e.data))).flatten)) ∧
    (s.table.rows.map fun r => (r.idx, r.val)).Subperm (s'.table.rows.map fun r => (r.idx, r.val)) ∧
    IsNN (colsEnv true nn).dist (colsEnv true nn).nn := by
  obtain ⟨nn, hnn⟩ := exists_isNN haversine
  obtain ⟨s, h1, h2⟩ := lvRuns (prunes := true) hnn (levels := [3 / 4]) (by simp)
  obtain ⟨s', h1', h2'⟩ := lvRuns (prunes := true) hnn (levels := [3 / 4] ++ [5 / 8]) (by simp)
  exact ⟨nn, s, s', h2, h2', C120_several_levels hnn rfl (fun _ _ => lvField_ok) ⟨rfl, rfl⟩ h1',
    C121_partial hnn rfl (fun _ _ => lvField_ok) ⟨rfl, rfl⟩ ⟨rfl, rfl⟩ h1 h1', hnn⟩

/-- the radii of the table of the level 3/4 alone -/
theorem lvRadius {prunes : Bool} {nn : List (ℝ × ℝ) → ℝ × ℝ → Nat} {C : Tbl Cols}
    (hC : (snapshotOf (colsEnv prunes nn) lvCriteria lvLibs lvField [3 / 4] Regs.empty).2 = .ok C) :
    ∀ r ∈ C.rows, 0 < column "radius_eddy" r.val := by
  obtain ⟨e, e', f1, f2, l1, l2, n1, n2, hok⟩ := lvFound
  rw [(snapshotOf_pure _ _ _ lvField_ok _ ⟨rfl, rfl⟩).1] at hC
  have h1 := snapshot_one_level lvField_ok (levels := [3 / 4]) (l := 3 / 4) (by norm_num) hC
  have h2 : (contourList lvLibs lvField (3 / 4)).filterMap (storedEddy lvCriteria lvLibs lvField (3 / 4)) = [e] := f1
  rw [h2] at h1
  intro r hr
  rw [h1] at hr
  unfold snapRows eddyRows at hr
  simp only [List.map_cons, List.map_nil, List.mapIdx_cons, List.mapIdx_nil, List.flatten_cons, List.flatten_nil, List.append_nil] at hr
  obtain ⟨j, hj, rfl⟩ := List.mem_mapIdx.1 hr
  have : e.rows[j] ∈ tableRows e.data := List.getElem_mem (l := e.rows) hj
  simp only
  rw [(columns_read this).2.2.1]
  unfold NearEddy at n2
  refine lt_of_le_of_lt ?_ n2
  apply mul_nonneg
  · rw [← C83_great_circle]
    unfold haversine
    exact mul_nonneg (by norm_num) (Real.arcsin_nonneg.2 (Real.sqrt_nonneg _))
  · norm_num

/-- C122 for the example: the level 3/4 repeated -/
example : ∃ (nn : List (ℝ × ℝ) → ℝ × ℝ → Nat) (s : LoopState Cols), s.table.rows ≠ [] ∧
    (trackFields (colsEnv true nn) lvCriteria lvLibs (fun _ => lvField) [3 / 4, 5 / 8, 3 / 4] 0 none 1 1 true Regs.empty).2 = .ok s ∧
    (trackFields (colsEnv true nn) lvCriteria lvLibs (fun _ => lvField) [3 / 4, 5 / 8] 0 none 1 1 true Regs.empty).2 = .ok s := by
  obtain ⟨nn, hnn⟩ := exists_isNN haversine
  obtain ⟨s, h1, h2⟩ := lvRuns (prunes := true) hnn (levels := [3 / 4, 5 / 8, 3 / 4]) (by simp)
  refine ⟨nn, s, h2, h1, ?_⟩
  have := C122_partial (prunes := true) (nn := nn) (c := lvCriteria) (L := lvLibs) hnn rfl (field := fun _ => lvField)
    (ls := [3 / 4, 5 / 8]) (ms := []) (l := 3 / 4) (by simp) (t0 := 0) (tf := none) (T := 1) (ntimes := 1) (online := true)
    (regs := Regs.empty) (regs' := Regs.empty) (fun _ _ => lvField_ok) ⟨rfl, rfl⟩ ⟨rfl, rfl⟩ (fun _ _ C hC => lvRadius hC)
  exact (this.symm.trans h1 : _)

theorem lvq_two : Cntr.extractContours lvqX lvqY exqZ 2 50 Cntr.exMem = .ok ([].map .points, []) := by
  decide +kernel

/-- above all values nothing is found -/
theorem lvNone (L : Libs) : contourList L lvField 2 = [] := by
  obtain ⟨hX, hY, hZ⟩ := lvField_cast
  obtain ⟨cds, h⟩ := Cntr.extract_cast (Rat.castHom ℝ) Rat.cast_strictMono (X := lvqX) (Y := lvqY) (Z := exqZ)
    (mem' := L.mem lvField.data 2) (fuel' := 4 * (4 * 3) + 2)
    ⟨rfl, rfl, fun M hM => by cases hM⟩ 2 (by decide) (by decide) lvq_two
  have hl : Rat.castHom ℝ 2 = 2 := by norm_num
  rw [hX, hY, hZ, hl] at h
  have hd : 4 * (lvField.data.cols * lvField.data.rows) + 2 = 4 * (4 * 3) + 2 := rfl
  unfold contourList contoursOf
  rw [hd, h]
  simp

theorem lvPlus {prunes : Bool} {nn : List (ℝ × ℝ) → ℝ × ℝ → Nat} (hnn : IsNN haversine nn) {levels : List ℝ}
    (hl : levels ∈ [[3 / 4, 2], [2, 3 / 4]]) :
    ∃ s, (trackFields (colsEnv prunes nn) lvCriteria lvLibs (fun _ => lvField) levels 0 none 1 1 true Regs.empty).2 = .ok s ∧ s.table.rows ≠ [] := by
  obtain ⟨e, e', f1, f2, l1, l2, n1, n2, hok⟩ := lvFound
  have f3 : foundIn lvCriteria lvLibs lvField 2 = [] := by unfold foundIn; rw [lvNone]; rfl
  have hmem : ∀ l ∈ levels, l = 3 / 4 ∨ l = 2 := by
    simp only [List.mem_cons, List.not_mem_nil, or_false] at hl
    rcases hl with rfl | rfl <;> intro l hl <;> simp only [List.mem_cons, List.not_mem_nil, or_false] at hl <;> tauto
  obtain ⟨C, h1, h2⟩ := pureSnapshot_select (prunes := prunes) hnn (c := lvCriteria) rfl (L := lvLibs) lvField_ok (levels := levels)
    (fun l hl _ => by
      rcases hmem l hl with rfl | rfl
      · exact hok _ (Or.inl rfl)
      · unfold pureLevel
        rw [detectOneLevel_ok _ _ (by intro m hm; unfold levelMeasures at hm; rw [lvNone] at hm; simp at hm)]
        exact ⟨_, rfl⟩)
  have hfil : levels.filter (· ≠ 0) = levels := by
    apply List.filter_eq_self.2
    intro l hl
    rcases hmem l hl with rfl | rfl <;> norm_num
  refine oneTime_run hnn lvField_ok h1 ?_ 1 ⟨rfl, rfl⟩
  have hse : select NearEddy (levels.map (foundIn lvCriteria lvLibs lvField)) = [e] := by
    classical
    simp only [List.mem_cons, List.not_mem_nil, or_false] at hl
    rcases hl with rfl | rfl
    · simp only [List.map_cons, List.map_nil, f1, f3, select]; simp
    · simp only [List.map_cons, List.map_nil, f1, f3, select]; simp
  rw [h2, hfil, hse]
  have := foundIn_ne lvField_ok (3 / 4) e (by rw [f1]; simp)
  unfold snapRows eddyRows
  simp [this]

/-- C122 for the example: a level above all values, before or after the level 3/4 -/
example : ∃ (nn : List (ℝ × ℝ) → ℝ × ℝ → Nat) (s s' : LoopState Cols), s.table.rows ≠ [] ∧ s'.table.rows ≠ [] ∧
    (trackFields (colsEnv true nn) lvCriteria lvLibs (fun _ => lvField) [3 / 4, 2] 0 none 1 1 true Regs.empty).2 = .ok s ∧
    (trackFields (colsEnv true nn) lvCriteria lvLibs (fun _ => lvField) [2, 3 / 4] 0 none 1 1 true Regs.empty).2 = .ok s' ∧
    (s.table.rows.map fun r => (r.idx, r.val)).Perm (s'.table.rows.map fun r => (r.idx, r.val)) := by
  obtain ⟨nn, hnn⟩ := exists_isNN haversine
  obtain ⟨s, h1, h2⟩ := lvPlus (prunes := true) hnn (levels := [3 / 4, 2]) (by simp)
  obtain ⟨s', h1', h2'⟩ := lvPlus (prunes := true) hnn (levels := [2, 3 / 4]) (by simp)
  refine ⟨nn, s, s', h2, h2', h1, h1', ?_⟩
  refine C122_partial_order hnn rfl (List.Perm.swap _ _ _) (fun _ _ => lvField_ok) ⟨rfl, rfl⟩ ⟨rfl, rfl⟩ (by norm_num) ?_ h1 h1'
  intro t _ l hl m hm hne C hC C' hC' r hr r' hr'
  have hnone : ∀ C, (snapshotOf (colsEnv true nn) lvCriteria lvLibs lvField [2] Regs.empty).2 = .ok C → C.rows = [] := by
    intro C hC
    rw [(snapshotOf_pure _ _ _ lvField_ok _ ⟨rfl, rfl⟩).1] at hC
    rw [snapshot_one_level lvField_ok (levels := [2]) (l := 2) (by norm_num) hC, lvNone]
    rfl
  simp only [List.mem_cons, List.not_mem_nil, or_false] at hl hm
  rcases hl with rfl | rfl
  · rcases hm with rfl | rfl
    · exact absurd rfl hne
    · rw [hnone C' hC'] at hr'
      cases hr'
  · rw [hnone C hC] at hr
    cases hr

/-- C120 for one snapshot of the example -/
example {nn : List (ℝ × ℝ) → ℝ × ℝ → Nat} (hnn : IsNN haversine nn) : ∃ (t : Tbl Cols) (es : ℝ → List EddyObj),
    (snapshotOf (colsEnv true nn) lvCriteria lvLibs lvField [3 / 4, 5 / 8] Regs.empty).2 = .ok t ∧
    (∀ l ∈ [(3 / 4 : ℝ), 5 / 8], l ≠ 0 → Found lvCriteria lvLibs lvField l (es l)) ∧
    t.rows = snapRows ((select NearEddy (([(3 / 4 : ℝ), 5 / 8].filter (· ≠ 0)).map es)).map fun e => tableRows e.data) := by
  obtain ⟨e, e', f1, f2, l1, l2, n1, n2, hok⟩ := lvFound
  exact C120_snapshot hnn rfl lvField_ok ⟨rfl, rfl⟩ fun l hl h0 => level_snapshot lvField_ok h0 ⟨rfl, rfl⟩ (hok l (by simpa using hl))

end Trackeddy
