import Mathlib.Analysis.SpecialFunctions.Trigonometric.Bounds
import Verif.Props.PipelineExample

/-! The area of the contour of the worked example is not zero. -/
namespace Trackeddy

/-- the azimuth of a point in the north-east of (0,0) -/
theorem azim_northeast {lon lat : ℝ} (h0 : 0 < lon) (h1 : lon < Real.pi / 2) (h2 : 0 < lat) (h3 : lat < Real.pi / 2) :
    azim lon lat = Real.arctan (Real.cos lat * Real.sin lon / Real.sin lat) ∧ 0 < azim lon lat ∧ azim lon lat < Real.pi / 2 := by
  have hpi := Real.pi_pos
  have c : 0 < Real.cos lat := Real.cos_pos_of_mem_Ioo ⟨by linarith, h3⟩
  have s : 0 < Real.sin lat := Real.sin_pos_of_pos_of_lt_pi h2 (by linarith)
  have s' : 0 < Real.sin lon := Real.sin_pos_of_pos_of_lt_pi h0 (by linarith)
  have hb := Complex.abs_arg_lt_pi_div_two_iff (z := ⟨Real.sin lat, Real.cos lat * Real.sin lon⟩)
  have hb := abs_lt.1 (hb.2 (.inl s))
  have ht := Complex.tan_arg ⟨Real.sin lat, Real.cos lat * Real.sin lon⟩
  have he : arctan2 (Real.cos lat * Real.sin lon) (Real.sin lat) = Real.arctan (Real.cos lat * Real.sin lon / Real.sin lat) := by
    unfold arctan2
    rw [← ht, Real.arctan_tan hb.1 hb.2]
  have hp : 0 < Real.arctan (Real.cos lat * Real.sin lon / Real.sin lat) := Real.arctan_pos.2 (by positivity)
  have hq := Real.arctan_lt_pi_div_two (Real.cos lat * Real.sin lon / Real.sin lat)
  unfold azim
  rw [he, mod2pi_of_range hp.le (by linarith)]
  exact ⟨rfl, hp, hq⟩

theorem azim_lt {lon lat lon' lat' : ℝ} (h0 : 0 < lon) (h1 : lon < Real.pi / 2) (h2 : 0 < lat) (h3 : lat < Real.pi / 2)
    (h0' : 0 < lon') (h1' : lon' < Real.pi / 2) (h2' : 0 < lat') (h3' : lat' < Real.pi / 2)
    (h : Real.cos lat * Real.sin lon * Real.sin lat' < Real.cos lat' * Real.sin lon' * Real.sin lat) : azim lon lat < azim lon' lat' := by
  have hpi := Real.pi_pos
  rw [(azim_northeast h0 h1 h2 h3).1, (azim_northeast h0' h1' h2' h3').1]
  apply Real.arctan_strictMono
  rw [div_lt_div_iff₀ (Real.sin_pos_of_pos_of_lt_pi h2 (by linarith)) (Real.sin_pos_of_pos_of_lt_pi h2' (by linarith))]
  exact h

theorem colat_lt {lon lat lon' lat' : ℝ} (h0 : 0 ≤ lon) (h2 : 0 ≤ lat) (hx : lon ≤ lon') (hy : lat ≤ lat') (hne : lon < lon' ∨ lat < lat')
    (h1 : lon' < Real.pi / 2) (h3 : lat' < Real.pi / 2) : colat lon lat < colat lon' lat' := by
  have hpi := Real.pi_pos
  rw [C34_arccos, C34_arccos]
  have c1 : 0 < Real.cos lon' := Real.cos_pos_of_mem_Ioo ⟨by linarith, h1⟩
  have c2 : 0 < Real.cos lat' := Real.cos_pos_of_mem_Ioo ⟨by linarith, h3⟩
  have m1 : Real.cos lon' ≤ Real.cos lon := Real.cos_le_cos_of_nonneg_of_le_pi h0 (by linarith) hx
  have m2 : Real.cos lat' ≤ Real.cos lat := Real.cos_le_cos_of_nonneg_of_le_pi h2 (by linarith) hy
  have hlt : Real.cos lat' * Real.cos lon' < Real.cos lat * Real.cos lon := by
    rcases hne with hn | hn
    · have := Real.cos_lt_cos_of_nonneg_of_le_pi h0 (by linarith) hn
      nlinarith
    · have := Real.cos_lt_cos_of_nonneg_of_le_pi h2 (by linarith) hn
      nlinarith
  apply Real.arccos_lt_arccos _ hlt _
  · have : 0 < Real.cos lat' * Real.cos lon' := by positivity
    linarith
  · have := Real.cos_le_one lat
    have := Real.cos_le_one lon
    nlinarith

/-- the step of the integral between two points in the north-east of (0,0) -/
theorem integrand_northeast {c a c' a' : ℝ} (h0 : 0 < a) (h1 : a < Real.pi / 2) (h0' : 0 < a') (h1' : a' < Real.pi / 2) :
    integrand (c, a) (c', a') = (1 - Real.cos ((c + c') / 2)) * (a' - a) := by
  unfold integrand
  rw [wrap_unique (d := a' - a) (w := a' - a) (k := 0) (by simp) (by linarith) (by linarith)]
  congr 3
  ring

theorem weight_lt {s s' : ℝ} (h0 : 0 ≤ s) (h : s < s') (h1 : s' ≤ 2 * Real.pi) : 1 - Real.cos (s / 2) < 1 - Real.cos (s' / 2) := by
  have := Real.cos_lt_cos_of_nonneg_of_le_pi (x := s / 2) (y := s' / 2) (by linarith) (by linarith) (by linarith)
  linarith

theorem colat_bounds (lon lat : ℝ) : 0 ≤ colat lon lat ∧ colat lon lat ≤ Real.pi := by
  rw [C34_arccos]
  exact ⟨Real.arccos_nonneg _, Real.arccos_le_pi _⟩

/-- the azimuths of points near (0,0), `i` and `j` steps of half a degree away -/
theorem azim_near {i j i' j' : ℝ} (hi : 1 ≤ i ∧ i ≤ 5) (hj : 1 ≤ j ∧ j ≤ 5) (hi' : 1 ≤ i' ∧ i' ≤ 5) (hj' : 1 ≤ j' ∧ j' ≤ 5)
    (h : i * j' < 99 / 100 * (i' * j)) :
    azim (deg2rad (i / 2)) (deg2rad (j / 2)) < azim (deg2rad (i' / 2)) (deg2rad (j' / 2)) := by
  have hpi := Real.pi_pos
  have hpi3 := Real.two_le_pi
  have hpi4 := Real.pi_le_four
  have hr : ∀ k : ℝ, 1 ≤ k ∧ k ≤ 5 → 0 < deg2rad (k / 2) ∧ deg2rad (k / 2) ≤ 6 / 100 := by
    intro k hk
    unfold deg2rad
    constructor
    · have : 0 < k := by linarith
      positivity
    · nlinarith
  have hs : ∀ k : ℝ, 1 ≤ k ∧ k ≤ 5 → 999 / 1000 * deg2rad (k / 2) ≤ Real.sin (deg2rad (k / 2)) ∧ Real.sin (deg2rad (k / 2)) ≤ deg2rad (k / 2) ∧
      998 / 1000 ≤ Real.cos (deg2rad (k / 2)) ∧ Real.cos (deg2rad (k / 2)) ≤ 1 := by
    intro k hk
    obtain ⟨k1, k2⟩ := hr k hk
    have q : deg2rad (k / 2) ^ 2 ≤ 36 / 10000 := by nlinarith
    refine ⟨?_, (Real.sin_lt k1).le, ?_, Real.cos_le_one _⟩
    · have := Real.sin_gt_sub_cube k1
      nlinarith
    · have := Real.one_sub_sq_div_two_le_cos (x := deg2rad (k / 2))
      linarith
  obtain ⟨r1, r2⟩ := hr i hi
  obtain ⟨r3, r4⟩ := hr j hj
  obtain ⟨r5, r6⟩ := hr i' hi'
  obtain ⟨r7, r8⟩ := hr j' hj'
  obtain ⟨s1, s2, s3, s4⟩ := hs i hi
  obtain ⟨t1, t2, t3, t4⟩ := hs j hj
  obtain ⟨u1, u2, u3, u4⟩ := hs i' hi'
  obtain ⟨v1, v2, v3, v4⟩ := hs j' hj'
  apply azim_lt r1 (by linarith) r3 (by linarith) r5 (by linarith) r7 (by linarith)
  have up : Real.cos (deg2rad (j / 2)) * Real.sin (deg2rad (i / 2)) * Real.sin (deg2rad (j' / 2)) ≤
      1 * deg2rad (i / 2) * deg2rad (j' / 2) := by
    have : 0 ≤ Real.sin (deg2rad (i / 2)) := by linarith
    have : 0 ≤ Real.sin (deg2rad (j' / 2)) := by linarith
    gcongr
  have lo : 998 / 1000 * (999 / 1000 * deg2rad (i' / 2)) * (999 / 1000 * deg2rad (j / 2)) ≤
      Real.cos (deg2rad (j' / 2)) * Real.sin (deg2rad (i' / 2)) * Real.sin (deg2rad (j / 2)) := by
    have : 0 ≤ Real.sin (deg2rad (i' / 2)) := by linarith
    gcongr
  have e1 : deg2rad (i / 2) * deg2rad (j' / 2) = i * j' * (Real.pi / 360) ^ 2 := by unfold deg2rad; ring
  have e2 : deg2rad (i' / 2) * deg2rad (j / 2) = i' * j * (Real.pi / 360) ^ 2 := by unfold deg2rad; ring
  have e3 : i * j' * (Real.pi / 360) ^ 2 < 99 / 100 * (i' * j) * (Real.pi / 360) ^ 2 := by gcongr
  have e4 : 0 < i' * j * (Real.pi / 360) ^ 2 := by
    have : 0 < i' := by linarith
    have : 0 < j := by linarith
    positivity
  nlinarith

theorem colat_near {i j i' j' : ℝ} (hi : 1 ≤ i) (hj : 1 ≤ j) (hx : i ≤ i') (hy : j ≤ j') (hne : i < i' ∨ j < j') (hi' : i' ≤ 5) (hj' : j' ≤ 5) :
    colat (deg2rad (i / 2)) (deg2rad (j / 2)) < colat (deg2rad (i' / 2)) (deg2rad (j' / 2)) := by
  have hpi := Real.pi_pos
  unfold deg2rad
  apply colat_lt
  · have : 0 ≤ i := by linarith
    positivity
  · have : 0 ≤ j := by linarith
    positivity
  · gcongr
  · gcongr
  · rcases hne with h | h
    · left; gcongr
    · right; gcongr
  · nlinarith
  · nlinarith

/-- the contour of the worked example encloses an area -/
theorem exPts_area : 0 < areaPolygon exPts := by
  have hpi := Real.pi_pos
  have hq : ∀ i j : ℝ, 1 ≤ i ∧ i ≤ 5 → 1 ≤ j ∧ j ≤ 5 → 0 < azim (deg2rad (i / 2)) (deg2rad (j / 2)) ∧
      azim (deg2rad (i / 2)) (deg2rad (j / 2)) < Real.pi / 2 := by
    intro i j hi hj
    refine (azim_northeast ?_ ?_ ?_ ?_).2
    · unfold deg2rad
      have : 0 < i := by linarith
      positivity
    · unfold deg2rad; nlinarith
    · unfold deg2rad
      have : 0 < j := by linarith
      positivity
    · unfold deg2rad; nlinarith
  -- the vertices in steps of half a degree
  have hv : exPts.map polar = ([(2, 1), (4, 1), (5, 2), (4, 3), (2, 3), (1, 2), (2, 1)] : List (ℝ × ℝ)).map fun p =>
      (colat (deg2rad (p.1 / 2)) (deg2rad (p.2 / 2)), azim (deg2rad (p.1 / 2)) (deg2rad (p.2 / 2))) := by
    unfold exPts polar
    norm_num
  have hneg : integral (exPts.map polar) < 0 := by
    rw [hv]
    simp only [List.map_cons, List.map_nil]
    unfold integral
    simp only [List.tail_cons, List.zipWith_cons_cons, List.zipWith_nil_right, List.sum_cons, List.sum_nil, add_zero]
    obtain ⟨a0, b0⟩ := hq 2 1 (by norm_num) (by norm_num)
    obtain ⟨a1, b1⟩ := hq 4 1 (by norm_num) (by norm_num)
    obtain ⟨a2, b2⟩ := hq 5 2 (by norm_num) (by norm_num)
    obtain ⟨a3, b3⟩ := hq 4 3 (by norm_num) (by norm_num)
    obtain ⟨a4, b4⟩ := hq 2 3 (by norm_num) (by norm_num)
    obtain ⟨a5, b5⟩ := hq 1 2 (by norm_num) (by norm_num)
    rw [integrand_northeast a0 b0 a1 b1, integrand_northeast a1 b1 a2 b2, integrand_northeast a2 b2 a3 b3, integrand_northeast a3 b3 a4 b4,
      integrand_northeast a4 b4 a5 b5, integrand_northeast a5 b5 a0 b0]
    have o54 := azim_near (i := 1) (j := 2) (i' := 2) (j' := 3) (by norm_num) (by norm_num) (by norm_num) (by norm_num) (by norm_num)
    have o43 := azim_near (i := 2) (j := 3) (i' := 4) (j' := 3) (by norm_num) (by norm_num) (by norm_num) (by norm_num) (by norm_num)
    have o30 := azim_near (i := 4) (j := 3) (i' := 2) (j' := 1) (by norm_num) (by norm_num) (by norm_num) (by norm_num) (by norm_num)
    have o02 := azim_near (i := 2) (j := 1) (i' := 5) (j' := 2) (by norm_num) (by norm_num) (by norm_num) (by norm_num) (by norm_num)
    have o21 := azim_near (i := 5) (j := 2) (i' := 4) (j' := 1) (by norm_num) (by norm_num) (by norm_num) (by norm_num) (by norm_num)
    have k04 := colat_near (i := 2) (j := 1) (i' := 2) (j' := 3) (by norm_num) (by norm_num) (by norm_num) (by norm_num) (by norm_num) (by norm_num) (by norm_num)
    have k53 := colat_near (i := 1) (j := 2) (i' := 4) (j' := 3) (by norm_num) (by norm_num) (by norm_num) (by norm_num) (by norm_num) (by norm_num) (by norm_num)
    have k02 := colat_near (i := 2) (j := 1) (i' := 5) (j' := 2) (by norm_num) (by norm_num) (by norm_num) (by norm_num) (by norm_num) (by norm_num) (by norm_num)
    have k12 := colat_near (i := 4) (j := 1) (i' := 5) (j' := 2) (by norm_num) (by norm_num) (by norm_num) (by norm_num) (by norm_num) (by norm_num) (by norm_num)
    have k03 := colat_near (i := 2) (j := 1) (i' := 4) (j' := 3) (by norm_num) (by norm_num) (by norm_num) (by norm_num) (by norm_num) (by norm_num) (by norm_num)
    have c0 := colat_bounds (deg2rad (2 / 2)) (deg2rad (1 / 2))
    have c1 := colat_bounds (deg2rad (4 / 2)) (deg2rad (1 / 2))
    have c2 := colat_bounds (deg2rad (5 / 2)) (deg2rad (2 / 2))
    have c3 := colat_bounds (deg2rad (4 / 2)) (deg2rad (3 / 2))
    have c4 := colat_bounds (deg2rad (2 / 2)) (deg2rad (3 / 2))
    have c5 := colat_bounds (deg2rad (1 / 2)) (deg2rad (2 / 2))
    generalize colat (deg2rad (2 / 2)) (deg2rad (1 / 2)) = C0 at *
    generalize colat (deg2rad (4 / 2)) (deg2rad (1 / 2)) = C1 at *
    generalize colat (deg2rad (5 / 2)) (deg2rad (2 / 2)) = C2 at *
    generalize colat (deg2rad (4 / 2)) (deg2rad (3 / 2)) = C3 at *
    generalize colat (deg2rad (2 / 2)) (deg2rad (3 / 2)) = C4 at *
    generalize colat (deg2rad (1 / 2)) (deg2rad (2 / 2)) = C5 at *
    generalize azim (deg2rad (2 / 2)) (deg2rad (1 / 2)) = A0 at *
    generalize azim (deg2rad (4 / 2)) (deg2rad (1 / 2)) = A1 at *
    generalize azim (deg2rad (5 / 2)) (deg2rad (2 / 2)) = A2 at *
    generalize azim (deg2rad (4 / 2)) (deg2rad (3 / 2)) = A3 at *
    generalize azim (deg2rad (2 / 2)) (deg2rad (3 / 2)) = A4 at *
    generalize azim (deg2rad (1 / 2)) (deg2rad (2 / 2)) = A5 at *
    have w1 := weight_lt (s := C0 + C1) (s' := C1 + C2) (by linarith) (by linarith) (by linarith)
    have w2 := weight_lt (s := C0 + C1) (s' := C2 + C3) (by linarith) (by linarith) (by linarith)
    have w3 := weight_lt (s := C5 + C0) (s' := C2 + C3) (by linarith) (by linarith) (by linarith)
    have w4 := weight_lt (s := C5 + C0) (s' := C3 + C4) (by linarith) (by linarith) (by linarith)
    have w5 := weight_lt (s := C5 + C0) (s' := C4 + C5) (by linarith) (by linarith) (by linarith)
    have p1 := mul_lt_mul_of_pos_right w1 (sub_pos.2 o21)
    have p2 := mul_lt_mul_of_pos_right w2 (sub_pos.2 o02)
    have p3 := mul_lt_mul_of_pos_right w3 (sub_pos.2 o30)
    have p4 := mul_lt_mul_of_pos_right w4 (sub_pos.2 o43)
    have p5 := mul_lt_mul_of_pos_right w5 (sub_pos.2 o54)
    nlinarith
  unfold areaPolygon
  have : 0 < |integral (exPts.map polar)| := abs_pos.2 hneg.ne
  positivity

end Trackeddy
