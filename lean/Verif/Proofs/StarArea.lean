import Verif.Props.LevelsExample

/-!
Polygons around the point (0,0) whose vertices are seen from there in a fixed sense of rotation have a positive area.
-/
namespace Trackeddy

/-- the direction in which a vertex is seen from (0,0), as a complex number -/
noncomputable def seen (p : ℝ × ℝ) : ℂ := ⟨Real.sin (deg2rad p.2), Real.cos (deg2rad p.2) * Real.sin (deg2rad p.1)⟩

/-- sense of rotation from one vertex to the next -/
noncomputable def sense (p q : ℝ × ℝ) : ℝ := (seen p).re * (seen q).im - (seen p).im * (seen q).re

theorem polar_seen (p : ℝ × ℝ) : (polar p).2 = mod2pi (Complex.arg (seen p)) := rfl

theorem wrap_seen (p q : ℝ × ℝ) (h : sense p q ≠ 0) :
    wrap ((polar q).2 - (polar p).2) = Complex.arg (seen q * (starRingEnd ℂ) (seen p)) := by
  have hp : seen p ≠ 0 := by
    intro h0
    apply h
    unfold sense
    rw [h0]
    simp
  have hq : seen q ≠ 0 := by
    intro h0
    apply h
    unfold sense
    rw [h0]
    simp
  have him : (seen q * (starRingEnd ℂ) (seen p)).im = sense p q := by
    unfold sense
    simp only [Complex.mul_im, Complex.conj_re, Complex.conj_im]
    ring
  have hang : ((Complex.arg (seen q * (starRingEnd ℂ) (seen p)) : ℝ) : Real.Angle) =
      ((Complex.arg (seen q) - Complex.arg (seen p) : ℝ) : Real.Angle) := by
    rw [Complex.arg_mul_coe_angle hq ((map_ne_zero _).2 hp), Complex.arg_conj_coe_angle, Real.Angle.coe_sub, sub_eq_add_neg]
  obtain ⟨k, hk⟩ := Real.Angle.angle_eq_iff_two_pi_dvd_sub.1 hang
  rw [polar_seen, polar_seen]
  unfold mod2pi
  set n := ⌊Complex.arg (seen q) / (2 * Real.pi)⌋
  set m := ⌊Complex.arg (seen p) / (2 * Real.pi)⌋
  apply wrap_unique (k := m - n - k)
  · push_cast
    linarith
  · exact (Complex.neg_pi_lt_arg _).le
  · refine lt_of_le_of_ne (Complex.arg_le_pi _) fun he => ?_
    rw [Complex.arg_eq_pi_iff] at he
    rw [him] at he
    exact h he.2

theorem wrap_neg_of_sense {p q : ℝ × ℝ} (h : sense p q < 0) : wrap ((polar q).2 - (polar p).2) < 0 := by
  rw [wrap_seen p q h.ne, Complex.arg_neg_iff]
  have : (seen q * (starRingEnd ℂ) (seen p)).im = sense p q := by
    unfold sense
    simp only [Complex.mul_im, Complex.conj_re, Complex.conj_im]
    ring
  rwa [this]

theorem wrap_pos_of_sense {p q : ℝ × ℝ} (h : 0 < sense p q) : 0 < wrap ((polar q).2 - (polar p).2) := by
  rw [wrap_seen p q h.ne']
  have : (seen q * (starRingEnd ℂ) (seen p)).im = sense p q := by
    unfold sense
    simp only [Complex.mul_im, Complex.conj_re, Complex.conj_im]
    ring
  refine lt_of_le_of_ne (Complex.arg_nonneg_iff.2 (this ▸ h.le)) fun he => ?_
  have := (Complex.arg_eq_zero_iff.1 he.symm).2
  linarith

/-- the vertices have coordinates within 90 degrees and no longitude zero -/
def Away (p : ℝ × ℝ) : Prop := -90 < p.1 ∧ p.1 < 90 ∧ -90 < p.2 ∧ p.2 < 90 ∧ p.1 ≠ 0

theorem star_neg {p : ℝ × ℝ} : ∀ (l : List (ℝ × ℝ)), (∀ v ∈ p :: l, Away v) → (p :: l).IsChain (fun p q => sense p q < 0) →
    integral ((p :: l).map polar) ≤ 0 ∧ (l ≠ [] → integral ((p :: l).map polar) < 0) := by
  intro l
  induction l generalizing p with
  | nil => intro _ _; simp [integral]
  | cons q l ih =>
    intro h hc
    obtain ⟨c1, c2⟩ := List.isChain_cons_cons.1 hc
    obtain ⟨i1, -⟩ := ih (fun v hv => h v (List.mem_cons_of_mem _ hv)) c2
    obtain ⟨a1, a2, a3, a4, a5⟩ := h p List.mem_cons_self
    obtain ⟨b1, b2, b3, b4, b5⟩ := h q (List.mem_cons_of_mem _ List.mem_cons_self)
    have hi := integrand_neg (polar_colat a1 a2 a3 a4 a5) (polar_colat b1 b2 b3 b4 b5) (wrap_neg_of_sense c1)
    have e : integral ((p :: q :: l).map polar) = integrand (polar p) (polar q) + integral ((q :: l).map polar) := by
      unfold integral
      simp
    rw [e]
    exact ⟨by linarith, fun _ => by linarith⟩

theorem star_pos {p : ℝ × ℝ} : ∀ (l : List (ℝ × ℝ)), (∀ v ∈ p :: l, Away v) → (p :: l).IsChain (fun p q => 0 < sense p q) →
    0 ≤ integral ((p :: l).map polar) ∧ (l ≠ [] → 0 < integral ((p :: l).map polar)) := by
  intro l
  induction l generalizing p with
  | nil => intro _ _; simp [integral]
  | cons q l ih =>
    intro h hc
    obtain ⟨c1, c2⟩ := List.isChain_cons_cons.1 hc
    obtain ⟨i1, -⟩ := ih (fun v hv => h v (List.mem_cons_of_mem _ hv)) c2
    obtain ⟨a1, a2, a3, a4, a5⟩ := h p List.mem_cons_self
    obtain ⟨b1, b2, b3, b4, b5⟩ := h q (List.mem_cons_of_mem _ List.mem_cons_self)
    have hi : 0 < integrand (polar p) (polar q) := by
      obtain ⟨u1, u2⟩ := polar_colat a1 a2 a3 a4 a5
      obtain ⟨v1, v2⟩ := polar_colat b1 b2 b3 b4 b5
      unfold integrand
      have : Real.cos ((polar p).1 + ((polar q).1 - (polar p).1) / 2) < 1 := by
        rw [← Real.cos_zero]
        apply Real.cos_lt_cos_of_nonneg_of_le_pi le_rfl <;> linarith
      exact mul_pos (by linarith) (wrap_pos_of_sense c1)
    have e : integral ((p :: q :: l).map polar) = integrand (polar p) (polar q) + integral ((q :: l).map polar) := by
      unfold integral
      simp
    rw [e]
    exact ⟨by linarith, fun _ => by linarith⟩

/-- a polygon around (0,0) has a positive area -/
theorem star_area {p q : ℝ × ℝ} {l : List (ℝ × ℝ)} (h : ∀ v ∈ p :: q :: l, Away v)
    (hc : (p :: q :: l).IsChain (fun p q => sense p q < 0) ∨ (p :: q :: l).IsChain (fun p q => 0 < sense p q)) :
    0 < areaPolygon (p :: q :: l) := by
  rw [areaPolygon_eq]
  apply mul_pos (by norm_num)
  rw [abs_pos]
  rcases hc with hc | hc
  · exact ((star_neg _ h hc).2 (by simp)).ne
  · exact ((star_pos _ h hc).2 (by simp)).ne'

theorem deg2rad_bounds {x : ℝ} (h1 : -90 < x) (h2 : x < 90) : -(Real.pi / 2) < deg2rad x ∧ deg2rad x < Real.pi / 2 := by
  unfold deg2rad
  have := Real.pi_pos
  constructor <;> nlinarith

/-- sine of a longitude, tangent of a latitude -/
noncomputable def sinLon (x : ℝ) : ℝ := Real.sin (deg2rad x)
@[inherit_doc sinLon] noncomputable def tanLat (y : ℝ) : ℝ := Real.tan (deg2rad y)

theorem sinLon_neg (x : ℝ) : sinLon (-x) = -sinLon x := by
  unfold sinLon
  rw [← Real.sin_neg]
  congr 1
  unfold deg2rad
  ring

theorem tanLat_neg (x : ℝ) : tanLat (-x) = -tanLat x := by
  unfold tanLat
  rw [← Real.tan_neg]
  congr 1
  unfold deg2rad
  ring

theorem tanLat_zero : tanLat 0 = 0 := by simp [tanLat, deg2rad]
theorem sinLon_zero : sinLon 0 = 0 := by simp [sinLon, deg2rad]

theorem deg2rad_lt {x y : ℝ} (h : x < y) : deg2rad x < deg2rad y := by
  unfold deg2rad
  have := Real.pi_pos
  nlinarith

theorem sinLon_lt {x y : ℝ} (h1 : -90 < x) (h : x < y) (h2 : y < 90) : sinLon x < sinLon y :=
  Real.sin_lt_sin_of_lt_of_le_pi_div_two (deg2rad_bounds h1 (by linarith)).1.le (deg2rad_bounds (by linarith) h2).2.le (deg2rad_lt h)

theorem tanLat_lt {x y : ℝ} (h1 : -90 < x) (h : x < y) (h2 : y < 90) : tanLat x < tanLat y :=
  Real.tan_lt_tan_of_lt_of_lt_pi_div_two (deg2rad_bounds h1 (by linarith)).1 (deg2rad_bounds (by linarith) h2).2 (deg2rad_lt h)

theorem sense_eq {p q : ℝ × ℝ} (hp : Away p) (hq : Away q) : ∃ k : ℝ, 0 < k ∧
    sense p q = k * (tanLat p.2 * sinLon q.1 - sinLon p.1 * tanLat q.2) := by
  obtain ⟨-, -, a3, a4, -⟩ := hp
  obtain ⟨-, -, b3, b4, -⟩ := hq
  have cp := Real.cos_pos_of_mem_Ioo (deg2rad_bounds a3 a4)
  have cq := Real.cos_pos_of_mem_Ioo (deg2rad_bounds b3 b4)
  refine ⟨_, mul_pos cp cq, ?_⟩
  unfold sense seen tanLat sinLon
  simp only [Real.tan_eq_sin_div_cos]
  field_simp

theorem sense_neg {p q : ℝ × ℝ} (hp : Away p) (hq : Away q) (h : tanLat p.2 * sinLon q.1 < sinLon p.1 * tanLat q.2) : sense p q < 0 := by
  obtain ⟨k, hk, e⟩ := sense_eq hp hq
  rw [e]
  exact mul_neg_of_pos_of_neg hk (by linarith)

theorem sense_pos {p q : ℝ × ℝ} (hp : Away p) (hq : Away q) (h : sinLon p.1 * tanLat q.2 < tanLat p.2 * sinLon q.1) : 0 < sense p q := by
  obtain ⟨k, hk, e⟩ := sense_eq hp hq
  rw [e]
  exact mul_pos hk (by linarith)

/-- a polygon with fourteen vertices, symmetric to both axes -/
def fourteen (x0 x1 x2 x3 y1 y2 y3 : ℝ) : List (ℝ × ℝ) :=
  [(x0, 0), (x1, y1), (x2, y2), (x3, y3), (-x3, y3), (-x2, y2), (-x1, y1), (-x0, 0), (-x1, -y1), (-x2, -y2), (-x3, -y3),
    (x3, -y3), (x2, -y2), (x1, -y1), (x0, 0)]

theorem fourteen_area {x0 x1 x2 x3 y1 y2 y3 : ℝ} (a0 : x0 < 90) (a1 : x1 < x0) (a2 : x2 < x1) (a3 : x3 < x2) (a4 : 0 < x3)
    (b1 : 0 < y1) (b2 : y1 < y2) (b3 : y2 < y3) (b4 : y3 < 90) : 0 < areaPolygon (fourteen x0 x1 x2 x3 y1 y2 y3) := by
  have haway : ∀ v ∈ fourteen x0 x1 x2 x3 y1 y2 y3, Away v := by
    intro v hv
    unfold fourteen at hv
    simp only [List.mem_cons, List.not_mem_nil, or_false] at hv
    unfold Away
    rcases hv with rfl | rfl | rfl | rfl | rfl | rfl | rfl | rfl | rfl | rfl | rfl | rfl | rfl | rfl | rfl <;>
      refine ⟨?_, ?_, ?_, ?_, ?_⟩ <;> first | (simp only; linarith) | (simp only [ne_eq, neg_eq_zero]; linarith)
  have s4 : 0 < sinLon x3 := sinLon_zero ▸ sinLon_lt (by norm_num) a4 (by linarith)
  have s3 := sinLon_lt (by linarith) a3 (by linarith)
  have s2 := sinLon_lt (by linarith) a2 (by linarith)
  have s1 := sinLon_lt (by linarith) a1 (by linarith)
  have t1 : 0 < tanLat y1 := tanLat_zero ▸ tanLat_lt (by norm_num) b1 (by linarith)
  have t2 := tanLat_lt (by linarith) b2 (by linarith)
  have t3 := tanLat_lt (by linarith) b3 (by linarith)
  have m1 : tanLat y1 * sinLon x2 < sinLon x1 * tanLat y2 := by nlinarith
  have m2 : tanLat y2 * sinLon x3 < sinLon x2 * tanLat y3 := by nlinarith
  have m3 : 0 < sinLon x3 * tanLat y3 := by nlinarith
  have m4 : 0 < sinLon x0 * tanLat y1 := by nlinarith
  refine star_area haway (Or.inl ?_)
  unfold fourteen at haway
  simp only [List.mem_cons, List.not_mem_nil, or_false, forall_eq_or_imp, forall_eq] at haway
  obtain ⟨h0, h1, h2, h3, h4, h5, h6, h7, h8, h9, h10, h11, h12, h13, h14⟩ := haway
  simp only [List.isChain_cons_cons, List.isChain_singleton, and_true]
  refine ⟨sense_neg h0 h1 ?_, sense_neg h1 h2 ?_, sense_neg h2 h3 ?_, sense_neg h3 h4 ?_, sense_neg h4 h5 ?_, sense_neg h5 h6 ?_,
    sense_neg h6 h7 ?_, sense_neg h7 h8 ?_, sense_neg h8 h9 ?_, sense_neg h9 h10 ?_, sense_neg h10 h11 ?_, sense_neg h11 h12 ?_,
    sense_neg h12 h13 ?_, sense_neg h13 h14 ?_⟩ <;>
    simp only [sinLon_neg, tanLat_neg, tanLat_zero] <;> nlinarith

end Trackeddy
