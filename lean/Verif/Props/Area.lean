import Verif.Model.Area
import Mathlib.Analysis.SpecialFunctions.Trigonometric.Inverse

/-!
Polygon area: C33 (independence of the listing), C34 (haversine), C67 (longitude origin).
-/
namespace Trackeddy

/-! ### C34 -/

theorem sin_half_sq (x : ℝ) : Real.sin (x / 2) ^ 2 = (1 - Real.cos x) / 2 := by
  have := Real.cos_sq (x / 2)
  rw [show 2 * (x / 2) = x by ring] at this
  have h2 := Real.sin_sq_add_cos_sq (x / 2)
  linarith

/-- C34: for all longitudes and latitudes the square roots are taken of numbers in `[0,1]`. -/
theorem C34_radicand (lon lat : ℝ) : 0 ≤ havA lon lat ∧ havA lon lat ≤ 1 := by
  unfold havA
  rw [sin_half_sq, sin_half_sq]
  have h1 := Real.neg_one_le_cos lat
  have h2 := Real.cos_le_one lat
  have h3 := Real.neg_one_le_cos lon
  have h4 := Real.cos_le_one lon
  constructor <;> nlinarith

theorem cos_arctan2_unit {x y : ℝ} (h : x ^ 2 + y ^ 2 = 1) :
    Real.cos (arctan2 y x) = x ∧ Real.sin (arctan2 y x) = y := by
  have hn : ‖(⟨x, y⟩ : ℂ)‖ = 1 := by
    rw [Complex.norm_def, Complex.normSq_mk, Real.sqrt_eq_one]
    linarith
  have h0 : (⟨x, y⟩ : ℂ) ≠ 0 := by
    intro h0; rw [h0, norm_zero] at hn; exact zero_ne_one hn
  unfold arctan2
  rw [Complex.cos_arg h0, Complex.sin_arg, hn]
  simp

/-- C34: the computed colatitude is the great-circle distance (on the unit sphere) between the point and
(0,0), i.e. the angle in `[0,π]` whose cosine is the scalar product of the unit vectors. -/
theorem C34_great_circle (lon lat : ℝ) :
    0 ≤ colat lon lat ∧ colat lon lat ≤ Real.pi ∧ Real.cos (colat lon lat) = Real.cos lat * Real.cos lon := by
  obtain ⟨h0, h1⟩ := C34_radicand lon lat
  have hunit : Real.sqrt (1 - havA lon lat) ^ 2 + Real.sqrt (havA lon lat) ^ 2 = 1 := by
    rw [Real.sq_sqrt h0, Real.sq_sqrt (by linarith)]; ring
  obtain ⟨hc, hs⟩ := cos_arctan2_unit hunit
  have hre : 0 ≤ (⟨Real.sqrt (1 - havA lon lat), Real.sqrt (havA lon lat)⟩ : ℂ).re := Real.sqrt_nonneg _
  have him : 0 ≤ (⟨Real.sqrt (1 - havA lon lat), Real.sqrt (havA lon lat)⟩ : ℂ).im := Real.sqrt_nonneg _
  have harg0 := Complex.arg_nonneg_iff.mpr him
  have harg1 := Complex.abs_arg_le_pi_div_two_iff.mpr hre
  rw [abs_of_nonneg harg0] at harg1
  unfold colat
  refine ⟨by unfold arctan2; linarith, by unfold arctan2; linarith, ?_⟩
  rw [Real.cos_two_mul, hc, Real.sq_sqrt (by linarith)]
  unfold havA
  rw [sin_half_sq, sin_half_sq]
  ring

/-- C34, as a formula -/
theorem C34_arccos (lon lat : ℝ) : colat lon lat = Real.arccos (Real.cos lat * Real.cos lon) := by
  obtain ⟨h0, h1, h2⟩ := C34_great_circle lon lat
  rw [← h2, Real.arccos_cos h0 h1]

/-! ### C33 -/

theorem mod2pi_add_int (x : ℝ) (k : ℤ) : mod2pi (x + 2 * Real.pi * k) = mod2pi x := by
  unfold mod2pi
  have hp : (2 * Real.pi) ≠ 0 := by positivity
  have : (x + 2 * Real.pi * k) / (2 * Real.pi) = x / (2 * Real.pi) + k := by field_simp
  rw [this, Int.floor_add_intCast]
  push_cast
  ring

theorem mod2pi_range (x : ℝ) : 0 ≤ mod2pi x ∧ mod2pi x < 2 * Real.pi := by
  unfold mod2pi
  have hp : 0 < 2 * Real.pi := by positivity
  have h1 := Int.floor_le (x / (2 * Real.pi))
  have h2 := Int.lt_floor_add_one (x / (2 * Real.pi))
  rw [le_div_iff₀ hp] at h1
  rw [div_lt_iff₀ hp] at h2
  constructor <;> nlinarith

theorem mod2pi_of_range {x : ℝ} (h0 : 0 ≤ x) (h1 : x < 2 * Real.pi) : mod2pi x = x := by
  unfold mod2pi
  have hp : 0 < 2 * Real.pi := by positivity
  have : ⌊x / (2 * Real.pi)⌋ = 0 := by
    rw [Int.floor_eq_zero_iff]
    exact ⟨by positivity, by rw [div_lt_one hp]; exact h1⟩
  rw [this]; simp

theorem wrap_range (d : ℝ) : -Real.pi ≤ wrap d ∧ wrap d < Real.pi := by
  have := mod2pi_range (d + Real.pi)
  unfold wrap
  constructor <;> linarith [this.1, this.2]

theorem wrap_spec (d : ℝ) : ∃ k : ℤ, wrap d = d - 2 * Real.pi * k := by
  refine ⟨⌊(d + Real.pi) / (2 * Real.pi)⌋, ?_⟩
  unfold wrap mod2pi
  ring

/-- the wrapped difference is the representative in `[-π, π)` -/
theorem wrap_unique {d w : ℝ} {k : ℤ} (h : w = d - 2 * Real.pi * k) (h0 : -Real.pi ≤ w) (h1 : w < Real.pi) :
    wrap d = w := by
  have : d = w + 2 * Real.pi * k := by linarith
  unfold wrap
  rw [this, show w + 2 * Real.pi * k + Real.pi = (w + Real.pi) + 2 * Real.pi * k by ring, mod2pi_add_int,
    mod2pi_of_range (by linarith) (by linarith)]
  ring

theorem wrap_zero : wrap 0 = 0 :=
  wrap_unique (k := 0) (by simp) (by have := Real.pi_pos; linarith) Real.pi_pos

theorem wrap_neg {d : ℝ} (h : ∀ k : ℤ, d ≠ Real.pi + 2 * Real.pi * k) : wrap (-d) = -wrap d := by
  obtain ⟨k, hk⟩ := wrap_spec d
  obtain ⟨h0, h1⟩ := wrap_range d
  have hne : wrap d ≠ -Real.pi := by
    intro he
    apply h (k - 1)
    push_cast
    rw [hk] at he
    linarith
  have h0' : -Real.pi < wrap d := lt_of_le_of_ne h0 (Ne.symm hne)
  exact wrap_unique (k := -k) (by rw [hk]; push_cast; ring) (by linarith) (by linarith)

theorem wrap_add_int (d : ℝ) (k : ℤ) : wrap (d + 2 * Real.pi * k) = wrap d := by
  unfold wrap
  rw [show d + 2 * Real.pi * k + Real.pi = d + Real.pi + 2 * Real.pi * k by ring, mod2pi_add_int]

theorem integral_cons₂ (p q : ℝ × ℝ) (l : List (ℝ × ℝ)) :
    integral (p :: q :: l) = integrand p q + integral (q :: l) := by
  simp [integral]

theorem integral_split (l₁ l₂ : List (ℝ × ℝ)) (x : ℝ × ℝ) :
    integral (l₁ ++ x :: l₂) = integral (l₁ ++ [x]) + integral (x :: l₂) := by
  induction l₁ with
  | nil => simp [integral]
  | cons p l₁ ih =>
    cases l₁ with
    | nil => simp only [List.cons_append, List.nil_append, integral_cons₂]; simp [integral]
    | cons q l₁ =>
      simp only [List.cons_append, integral_cons₂] at *
      rw [ih]; ring

theorem areaPolygon_congr {c c' : List (ℝ × ℝ)} (h : |integral (c.map polar)| = |integral (c'.map polar)|) :
    areaPolygon c = areaPolygon c' := by
  unfold areaPolygon; rw [h]

/-- C33: the area is never negative. -/
theorem C33_nonneg (c : List (ℝ × ℝ)) : 0 ≤ areaPolygon c := by
  unfold areaPolygon
  have := Real.pi_pos
  positivity

/-- C33: the area of a closed contour does not depend on its first vertex. The contour is
`p, A, x, B, p`; started at `x` it is `x, B, p, A, x`. -/
theorem C33_first_vertex (p x : ℝ × ℝ) (A B : List (ℝ × ℝ)) :
    areaPolygon (p :: A ++ x :: B ++ [p]) = areaPolygon (x :: B ++ p :: A ++ [x]) := by
  apply areaPolygon_congr
  congr 1
  simp only [List.map_append, List.map_cons, List.map_nil, List.cons_append, List.append_assoc]
  have a1 := integral_split (polar p :: A.map polar) (B.map polar ++ [polar p]) (polar x)
  have a2 := integral_split (polar x :: B.map polar) (A.map polar ++ [polar x]) (polar p)
  simp only [List.cons_append, List.append_assoc] at a1 a2
  rw [a1, a2]
  ring

/-- C33: repeating a vertex does not change the area. -/
theorem C33_repeated_vertex (A B : List (ℝ × ℝ)) (x : ℝ × ℝ) :
    areaPolygon (A ++ x :: x :: B) = areaPolygon (A ++ x :: B) := by
  apply areaPolygon_congr
  congr 1
  simp only [List.map_append, List.map_cons]
  rw [integral_split, integral_split (l₂ := B.map polar), integral_cons₂]
  have : integrand (polar x) (polar x) = 0 := by
    unfold integrand; rw [sub_self, sub_self, wrap_zero, mul_zero]
  rw [this, zero_add]

/-- the same vertex up to whole turns of the longitude -/
def SameVertex (p p' : ℝ × ℝ) : Prop := p'.2 = p.2 ∧ ∃ k : ℤ, p'.1 = p.1 + 360 * k

theorem sin_half_turn (x : ℝ) (k : ℤ) : Real.sin ((x + k * (2 * Real.pi)) / 2) ^ 2 = Real.sin (x / 2) ^ 2 := by
  rw [sin_half_sq, sin_half_sq, Real.cos_add_int_mul_two_pi]

theorem polar_sameVertex {p p' : ℝ × ℝ} (h : SameVertex p p') : polar p = polar p' := by
  obtain ⟨h2, k, h1⟩ := h
  have e : deg2rad p'.1 = deg2rad p.1 + k * (2 * Real.pi) := by
    rw [h1]; unfold deg2rad; ring
  unfold polar colat azim havA
  rw [h2, e, sin_half_turn, Real.sin_add_int_mul_two_pi]

/-- C33: adding multiples of 360° to any longitudes does not change the area. -/
theorem C33_longitude_turns (c c' : List (ℝ × ℝ)) (h : List.Forall₂ SameVertex c c') :
    areaPolygon c = areaPolygon c' := by
  have : c.map polar = c'.map polar := by
    induction h with
    | nil => rfl
    | cons hp _ ih => simp [polar_sameVertex hp, ih]
  unfold areaPolygon
  rw [this]

/-- two vertices do not see (0,0) in exactly opposite directions -/
def NotOpposite (p q : ℝ × ℝ) : Prop := ∀ k : ℤ, (polar q).2 - (polar p).2 ≠ Real.pi + 2 * Real.pi * k

theorem integrand_swap {p q : ℝ × ℝ} (h : NotOpposite p q) :
    integrand (polar q) (polar p) = -integrand (polar p) (polar q) := by
  unfold integrand
  have e1 : (polar q).1 + ((polar p).1 - (polar q).1) / 2 = (polar p).1 + ((polar q).1 - (polar p).1) / 2 := by
    ring
  have e2 : (polar p).2 - (polar q).2 = -((polar q).2 - (polar p).2) := by ring
  rw [e1, e2, wrap_neg h]
  ring

theorem integral_reverse (c : List (ℝ × ℝ)) (h : c.IsChain NotOpposite) :
    integral (c.reverse.map polar) = -integral (c.map polar) := by
  induction c with
  | nil => simp [integral]
  | cons p c ih =>
    cases c with
    | nil => simp [integral]
    | cons q c =>
      have hpq := List.IsChain.rel h
      have ih := ih (List.IsChain.tail h)
      rw [List.reverse_cons, List.map_append, List.map_cons, List.map_nil]
      rw [List.reverse_cons, List.map_append, List.map_cons, List.map_nil] at ih ⊢
      rw [List.append_assoc, List.singleton_append, integral_split, ih]
      simp only [List.map_cons, integral_cons₂]
      rw [integrand_swap hpq]
      simp [integral]

/-- C33: the area does not depend on the direction of traversal when no two consecutive vertices have
opposite azimuths. -/
theorem C33_direction (c : List (ℝ × ℝ)) (h : c.IsChain NotOpposite) :
    areaPolygon c.reverse = areaPolygon c := by
  apply areaPolygon_congr
  rw [integral_reverse c h, abs_neg]

/-! ### C68 -/

/-- total change of azimuth along the contour, each step taken in `[-π, π)` -/
noncomputable def turn (c : List (ℝ × ℝ)) : ℝ :=
  (List.zipWith (fun p q => wrap ((polar q).2 - (polar p).2)) c c.tail).sum

theorem turn_cons₂ (p q : ℝ × ℝ) (l : List (ℝ × ℝ)) :
    turn (p :: q :: l) = wrap ((polar q).2 - (polar p).2) + turn (q :: l) := by
  simp [turn]

theorem integral_const_colat (c : List (ℝ × ℝ)) (r : ℝ) (h : ∀ p ∈ c, (polar p).1 = r) :
    integral (c.map polar) = (1 - Real.cos r) * turn c := by
  induction c with
  | nil => simp [integral, turn]
  | cons p c ih =>
    cases c with
    | nil => simp [integral, turn]
    | cons q c =>
      simp only [List.map_cons, integral_cons₂, turn_cons₂] at *
      rw [ih (fun x hx => h x (List.mem_cons_of_mem _ hx))]
      unfold integrand
      rw [h p (by simp), h q (by simp), sub_self, zero_div, add_zero]
      ring

/-- C68: a contour of points at great-circle distance `r` from (0,0) that runs once around it has the area
of the spherical cap, `2π R² (1 - cos r)`, in km² for `R = 6378.137 km`. -/
theorem C68_cap (c : List (ℝ × ℝ)) (r : ℝ) (hr : 0 ≤ r ∧ r ≤ Real.pi)
    (h : ∀ p ∈ c, Real.cos (deg2rad p.2) * Real.cos (deg2rad p.1) = Real.cos r)
    (ht : |turn c| = 2 * Real.pi) :
    areaPolygon c = 2 * Real.pi * (6378137 / 1000) ^ 2 * (1 - Real.cos r) := by
  have hcol : ∀ p ∈ c, (polar p).1 = r := by
    intro p hp
    unfold polar
    rw [C34_arccos, h p hp, Real.arccos_cos hr.1 hr.2]
  have hpi := Real.pi_pos
  have hc := Real.cos_le_one r
  unfold areaPolygon
  simp only
  rw [integral_const_colat c r hcol, abs_mul, ht, abs_of_nonneg (by linarith)]
  field_simp
  ring

/-! ### C67 -/

theorem mod2pi_spec (x : ℝ) : ∃ k : ℤ, mod2pi x = x + 2 * Real.pi * k := by
  refine ⟨-⌊x / (2 * Real.pi)⌋, ?_⟩
  unfold mod2pi; push_cast; ring

theorem arctan2_neg (y x : ℝ) : ∃ k : ℤ, arctan2 (-y) x = -arctan2 y x + 2 * Real.pi * k := by
  unfold arctan2
  have : (⟨x, -y⟩ : ℂ) = (starRingEnd ℂ) ⟨x, y⟩ := rfl
  rw [this, Complex.arg_conj]
  split_ifs with h
  · exact ⟨1, by rw [h]; push_cast; ring⟩
  · exact ⟨0, by simp⟩

/-- half a turn in longitude: complementary colatitude, opposite azimuth -/
theorem polar_half_turn (p : ℝ × ℝ) : (polar (p.1 + 180, p.2)).1 = Real.pi - (polar p).1 ∧
    ∃ k : ℤ, (polar (p.1 + 180, p.2)).2 = -(polar p).2 + 2 * Real.pi * k := by
  have e : deg2rad (p.1 + 180) = deg2rad p.1 + Real.pi := by unfold deg2rad; ring
  constructor
  · unfold polar
    simp only
    rw [e, C34_arccos, C34_arccos, Real.cos_add_pi, mul_neg, Real.arccos_neg]
  · unfold polar azim
    simp only
    rw [e, Real.sin_add_pi, mul_neg]
    obtain ⟨k1, h1⟩ := mod2pi_spec (arctan2 (-(Real.cos (deg2rad p.2) * Real.sin (deg2rad p.1))) (Real.sin (deg2rad p.2)))
    obtain ⟨k2, h2⟩ := mod2pi_spec (arctan2 (Real.cos (deg2rad p.2) * Real.sin (deg2rad p.1)) (Real.sin (deg2rad p.2)))
    obtain ⟨k3, h3⟩ := arctan2_neg (Real.cos (deg2rad p.2) * Real.sin (deg2rad p.1)) (Real.sin (deg2rad p.2))
    refine ⟨k1 + k2 + k3, ?_⟩
    rw [h1, h2, h3]
    push_cast
    ring

theorem integral_half_turn (c : List (ℝ × ℝ)) (h : c.IsChain NotOpposite) :
    integral ((c.map fun p => (p.1 + 180, p.2)).map polar) = integral (c.map polar) - 2 * turn c := by
  induction c with
  | nil => simp [integral, turn]
  | cons p c ih =>
    cases c with
    | nil => simp [integral, turn]
    | cons q c =>
      have hpq := List.IsChain.rel h
      have ih := ih (List.IsChain.tail h)
      simp only [List.map_cons, integral_cons₂, turn_cons₂] at *
      rw [ih]
      have hint : integrand (polar (p.1 + 180, p.2)) (polar (q.1 + 180, q.2))
          = integrand (polar p) (polar q) - 2 * wrap ((polar q).2 - (polar p).2) := by
        obtain ⟨a1, k1, b1⟩ := polar_half_turn p
        obtain ⟨a2, k2, b2⟩ := polar_half_turn q
        unfold integrand
        rw [a1, a2, b1, b2]
        have e1 : -(polar q).2 + 2 * Real.pi * k2 - (-(polar p).2 + 2 * Real.pi * k1)
            = -((polar q).2 - (polar p).2) + 2 * Real.pi * ((k2 - k1 : ℤ) : ℝ) := by push_cast; ring
        have e2 : Real.pi - (polar p).1 + (Real.pi - (polar q).1 - (Real.pi - (polar p).1)) / 2
            = Real.pi - ((polar p).1 + ((polar q).1 - (polar p).1) / 2) := by ring
        rw [e1, wrap_add_int, wrap_neg hpq, e2, Real.cos_pi_sub]
        ring
      rw [hint]; ring

/-- C67, what holds for half a turn: a contour that does not run around (0,0) keeps its area; one that runs
around it (once, in negative direction) gets the area of the complement, and vice versa. -/
theorem C67_half_turn_partial (c : List (ℝ × ℝ)) (h : c.IsChain NotOpposite) :
    (turn c = 0 → areaPolygon (c.map fun p => (p.1 + 180, p.2)) = areaPolygon c) ∧
    areaPolygon (c.map fun p => (p.1 + 180, p.2))
      = |integral (c.map polar) - 2 * turn c| * (6378137 / 1000) ^ 2 := by
  constructor
  · intro ht
    apply areaPolygon_congr
    rw [integral_half_turn c h, ht]; simp
  · unfold areaPolygon
    simp only
    rw [integral_half_turn c h]
    have hpi := Real.pi_pos
    field_simp
    ring

/-- a diamond of angular radius `d` degrees around (lon, 0) -/
def diamond (lon d : ℝ) : List (ℝ × ℝ) := [(lon + d, 0), (lon, d), (lon - d, 0), (lon, -d), (lon + d, 0)]

theorem arctan2_pos_zero {y : ℝ} (h : 0 < y) : arctan2 y 0 = Real.pi / 2 := by
  unfold arctan2; rw [Complex.arg_eq_pi_div_two_iff]; exact ⟨rfl, h⟩

theorem arctan2_neg_zero {y : ℝ} (h : y < 0) : arctan2 y 0 = -(Real.pi / 2) := by
  unfold arctan2; rw [Complex.arg_eq_neg_pi_div_two_iff.mpr ⟨rfl, h⟩]

theorem arctan2_zero_pos {x : ℝ} (h : 0 < x) : arctan2 0 x = 0 := by
  unfold arctan2; rw [Complex.arg_eq_zero_iff]; exact ⟨h.le, rfl⟩

theorem arctan2_zero_neg {x : ℝ} (h : x < 0) : arctan2 0 x = Real.pi := by
  unfold arctan2; rw [Complex.arg_eq_pi_iff]; exact ⟨h, rfl⟩

theorem polar_diamond {d : ℝ} (h0 : 0 < d) (h1 : d < 90) :
    (polar (0 + d, 0)).2 = Real.pi / 2 ∧ (polar (0, d)).2 = 0 ∧
    (polar (0 - d, 0)).2 = 3 * (Real.pi / 2) ∧ (polar (0, -d)).2 = Real.pi := by
  have hpi := Real.pi_pos
  have hs : 0 < Real.sin (deg2rad d) := by
    apply Real.sin_pos_of_pos_of_lt_pi
    · unfold deg2rad; positivity
    · unfold deg2rad; nlinarith
  have hz : deg2rad 0 = 0 := by simp [deg2rad]
  have hn : deg2rad (-d) = -deg2rad d := by unfold deg2rad; ring
  unfold polar azim
  simp only [hz, zero_add, zero_sub, hn, Real.cos_zero, Real.sin_zero, one_mul, mul_zero, Real.sin_neg]
  refine ⟨?_, ?_, ?_, ?_⟩
  · rw [arctan2_pos_zero hs, mod2pi_of_range (by linarith) (by linarith)]
  · rw [arctan2_zero_pos hs, mod2pi_of_range (by linarith) (by linarith)]
  · rw [arctan2_neg_zero (by linarith)]
    have := mod2pi_add_int (-(Real.pi / 2)) 1
    rw [← this, mod2pi_of_range] <;> push_cast <;> linarith
  · rw [arctan2_zero_neg (by linarith), mod2pi_of_range (by linarith) (by linarith)]

theorem diamond_turn {d : ℝ} (h0 : 0 < d) (h1 : d < 90) : turn (diamond 0 d) = -(2 * Real.pi) := by
  have hpi := Real.pi_pos
  obtain ⟨p1, p2, p3, p4⟩ := polar_diamond h0 h1
  unfold diamond
  simp only [turn_cons₂]
  rw [p1, p2, p3, p4]
  have w1 : wrap (0 - Real.pi / 2) = -(Real.pi / 2) :=
    wrap_unique (k := 0) (by simp) (by linarith) (by linarith)
  have w2 : wrap (3 * (Real.pi / 2) - 0) = -(Real.pi / 2) :=
    wrap_unique (k := 1) (by push_cast; ring) (by linarith) (by linarith)
  have w3 : wrap (Real.pi - 3 * (Real.pi / 2)) = -(Real.pi / 2) :=
    wrap_unique (k := 0) (by push_cast; ring) (by linarith) (by linarith)
  have w4 : wrap (Real.pi / 2 - Real.pi) = -(Real.pi / 2) :=
    wrap_unique (k := 0) (by push_cast; ring) (by linarith) (by linarith)
  rw [w1, w2, w3, w4]
  simp [turn]
  ring

theorem diamond_notOpposite {d : ℝ} (h0 : 0 < d) (h1 : d < 90) : (diamond 0 d).IsChain NotOpposite := by
  have hpi := Real.pi_pos
  obtain ⟨p1, p2, p3, p4⟩ := polar_diamond h0 h1
  have aux : ∀ (x : ℝ) (n : ℤ), x = Real.pi / 2 * (2 * n + 1 : ℤ) →
      ∀ k : ℤ, x ≠ Real.pi + 2 * Real.pi * k := by
    intro x n hx k h
    rw [hx] at h
    have h2 : Real.pi / 2 * ((2 * n + 1 : ℤ) : ℝ) = Real.pi / 2 * ((2 + 4 * k : ℤ) : ℝ) := by
      rw [h]; push_cast; ring
    have h3 := mul_left_cancel₀ (by positivity) h2
    have h4 : (2 * n + 1 : ℤ) = 2 + 4 * k := by exact_mod_cast h3
    omega
  unfold diamond NotOpposite
  simp only [List.isChain_cons_cons, List.isChain_singleton, and_true]
  rw [p1, p2, p3, p4]
  refine ⟨aux _ (-1) ?_, aux _ 1 ?_, aux _ (-1) ?_, aux _ (-1) ?_⟩ <;> push_cast <;> ring

theorem diamond_cap {d : ℝ} : ∀ p ∈ diamond 0 d,
    Real.cos (deg2rad p.2) * Real.cos (deg2rad p.1) = Real.cos (deg2rad d) := by
  have hz : deg2rad 0 = 0 := by simp [deg2rad]
  have hn : deg2rad (-d) = -deg2rad d := by unfold deg2rad; ring
  intro p hp
  simp only [diamond, List.mem_cons, List.not_mem_nil, or_false] at hp
  rcases hp with rfl | rfl | rfl | rfl | rfl <;> simp [hz, hn]

/-- C68 applies to the diamonds: they have exactly the area of the cap. -/
theorem diamond_area {d : ℝ} (h0 : 0 < d) (h1 : d < 90) :
    areaPolygon (diamond 0 d) = 2 * Real.pi * (6378137 / 1000) ^ 2 * (1 - Real.cos (deg2rad d)) := by
  have hpi := Real.pi_pos
  apply C68_cap
  · constructor
    · unfold deg2rad; positivity
    · unfold deg2rad; nlinarith
  · exact diamond_cap
  · rw [diamond_turn h0 h1, abs_neg, abs_of_pos (by linarith)]

/-- C67 is false: every diamond of angular radius `0 < d < 90` degrees has the area of the cap around
(0,0), but moved by 180° in longitude, around (180,0), the area of the rest of the Earth. -/
theorem C67_refuted : ∀ d : ℝ, 0 < d → d < 90 →
    areaPolygon (diamond 0 d) = 2 * Real.pi * (6378137 / 1000) ^ 2 * (1 - Real.cos (deg2rad d)) ∧
    areaPolygon ((diamond 0 d).map fun p => (p.1 + 180, p.2))
      = 2 * Real.pi * (6378137 / 1000) ^ 2 * (1 + Real.cos (deg2rad d)) ∧
    areaPolygon ((diamond 0 d).map fun p => (p.1 + 180, p.2)) ≠ areaPolygon (diamond 0 d) := by
  intro d h0 h1
  have hpi := Real.pi_pos
  have ha := diamond_area h0 h1
  have hr : 0 ≤ deg2rad d ∧ deg2rad d ≤ Real.pi := by
    constructor
    · unfold deg2rad; positivity
    · unfold deg2rad; nlinarith
  have hcol : ∀ p ∈ diamond 0 d, (polar p).1 = deg2rad d := by
    intro p hp
    unfold polar
    rw [C34_arccos, diamond_cap p hp, Real.arccos_cos hr.1 hr.2]
  have hcpos : 0 < Real.cos (deg2rad d) := by
    apply Real.cos_pos_of_mem_Ioo
    constructor
    · have := hr.1; linarith
    · unfold deg2rad; nlinarith
  have hb : areaPolygon ((diamond 0 d).map fun p => (p.1 + 180, p.2))
      = 2 * Real.pi * (6378137 / 1000) ^ 2 * (1 + Real.cos (deg2rad d)) := by
    rw [(C67_half_turn_partial _ (diamond_notOpposite h0 h1)).2, integral_const_colat _ _ hcol,
      diamond_turn h0 h1]
    have : (1 - Real.cos (deg2rad d)) * -(2 * Real.pi) - 2 * -(2 * Real.pi)
        = 2 * Real.pi * (1 + Real.cos (deg2rad d)) := by ring
    rw [this, abs_of_pos (by positivity)]
    ring
  refine ⟨ha, hb, ?_⟩
  rw [ha, hb]
  intro h
  have hp : (2 * Real.pi * (6378137 / 1000) ^ 2 : ℝ) ≠ 0 := by positivity
  have := mul_left_cancel₀ hp h
  linarith

/-- a contour meeting the hypotheses of C33_direction -/
example : (diamond 0 1).IsChain NotOpposite := diamond_notOpposite (by norm_num) (by norm_num)

end Trackeddy
