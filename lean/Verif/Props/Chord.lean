import Verif.Props.Area

/-!
C129: cutting a polygon in two.
-/
namespace Trackeddy

theorem areaPolygon_abs (c : List (ℝ × ℝ)) : areaPolygon c = |integral (c.map polar)| * (6378137 / 1000) ^ 2 := by
  have := Real.pi_pos
  unfold areaPolygon
  simp only
  field_simp
  norm_num

/-- The integral over the contour `p, A, x, B, p` is the sum of those over the two parts, `p, A, x, p` and `x, B, p, x`, and a
defect of the chord. -/
theorem integral_cut (p x : ℝ × ℝ) (A B : List (ℝ × ℝ)) :
    integral ((p :: A ++ [x, p]).map polar) + integral ((x :: B ++ [p, x]).map polar) =
      integral ((p :: A ++ x :: B ++ [p]).map polar) + (integrand (polar x) (polar p) + integrand (polar p) (polar x)) := by
  simp only [List.map_append, List.map_cons, List.map_nil, List.cons_append, List.append_assoc]
  have a1 := integral_split (polar p :: A.map polar) [polar p] (polar x)
  have a2 := integral_split (polar x :: B.map polar) [polar x] (polar p)
  have a3 := integral_split (polar p :: A.map polar) (B.map polar ++ [polar p]) (polar x)
  simp only [List.cons_append] at a1 a2 a3
  rw [a1, a2, a3]
  simp only [integral_cons₂]
  have : ∀ q : ℝ × ℝ, integral [q] = 0 := by intro q; simp [integral]
  rw [this, this]
  ring

/-- **C129, partial**: if the ends of the cut are not seen from (0,0) in exactly opposite directions, the area of a polygon is the
sum of the areas of its two parts or (for a chord outside the polygon) their difference. Missing: chords through (0,0), see
`C129_refuted`. -/
theorem C129_partial (p x : ℝ × ℝ) (A B : List (ℝ × ℝ)) (h : NotOpposite p x) :
    areaPolygon (p :: A ++ x :: B ++ [p]) = areaPolygon (p :: A ++ [x, p]) + areaPolygon (x :: B ++ [p, x]) ∨
    areaPolygon (p :: A ++ x :: B ++ [p]) = |areaPolygon (p :: A ++ [x, p]) - areaPolygon (x :: B ++ [p, x])| := by
  have hc := integral_cut p x A B
  rw [integrand_swap h, neg_add_cancel, add_zero] at hc
  simp only [areaPolygon_abs]
  rw [← hc]
  set u := integral ((p :: A ++ [x, p]).map polar)
  set v := integral ((x :: B ++ [p, x]).map polar)
  rw [← sub_mul, abs_mul, abs_of_pos (show (0 : ℝ) < (6378137 / 1000) ^ 2 by norm_num)]
  rcases le_total 0 u with hu | hu <;> rcases le_total 0 v with hv | hv
  · left
    rw [abs_of_nonneg hu, abs_of_nonneg hv, abs_of_nonneg (add_nonneg hu hv), add_mul]
  · right
    rw [abs_of_nonneg hu, abs_of_nonpos hv, sub_neg_eq_add]
  · right
    rw [abs_of_nonpos hu, abs_of_nonneg hv, ← abs_neg]
    congr 2
    ring
  · left
    rw [abs_of_nonpos hu, abs_of_nonpos hv, abs_of_nonpos (add_nonpos hu hv)]
    ring

/-- **C129, partial**: the sum never falls short, and a part that is cut off never has less than the difference. -/
theorem C129_partial_bounds (p x : ℝ × ℝ) (A B : List (ℝ × ℝ)) (h : NotOpposite p x) :
    areaPolygon (p :: A ++ x :: B ++ [p]) ≤ areaPolygon (p :: A ++ [x, p]) + areaPolygon (x :: B ++ [p, x]) ∧
    areaPolygon (p :: A ++ [x, p]) ≤ areaPolygon (p :: A ++ x :: B ++ [p]) + areaPolygon (x :: B ++ [p, x]) := by
  have h1 := C33_nonneg (p :: A ++ [x, p])
  have h2 := C33_nonneg (x :: B ++ [p, x])
  rcases C129_partial p x A B h with e | e
  · rw [e]
    exact ⟨le_refl _, by linarith⟩
  · rw [e]
    constructor
    · rw [abs_le]
      constructor <;> linarith
    · linarith [le_abs_self (areaPolygon (p :: A ++ [x, p]) - areaPolygon (x :: B ++ [p, x]))]

/-- the northern half of a diamond -/
def northHalf (d : ℝ) : List (ℝ × ℝ) := [(0 + d, 0), (0, d), (0 - d, 0), (0 + d, 0)]

/-- the southern half of a diamond -/
def southHalf (d : ℝ) : List (ℝ × ℝ) := [(0 - d, 0), (0, -d), (0 + d, 0), (0 - d, 0)]

/-- **C129** is false: each half of a diamond around (0,0) that is cut along the equator has the area of the whole diamond, for
all sizes. -/
theorem C129_refuted : ∀ d : ℝ, 0 < d → d < 90 →
    areaPolygon (northHalf d) = areaPolygon (diamond 0 d) ∧ areaPolygon (southHalf d) = areaPolygon (diamond 0 d) ∧
    areaPolygon (northHalf d) + areaPolygon (southHalf d) ≠ areaPolygon (diamond 0 d) := by
  intro d h0 h1
  have hpi := Real.pi_pos
  have ha := diamond_area h0 h1
  have hr : 0 < deg2rad d ∧ deg2rad d ≤ Real.pi := by
    constructor
    · unfold deg2rad; positivity
    · unfold deg2rad; nlinarith
  obtain ⟨p1, p2, p3, p4⟩ := polar_diamond h0 h1
  have w1 : wrap (0 - Real.pi / 2) = -(Real.pi / 2) :=
    wrap_unique (k := 0) (by simp) (by linarith) (by linarith)
  have w2 : wrap (3 * (Real.pi / 2) - 0) = -(Real.pi / 2) :=
    wrap_unique (k := 1) (by push_cast; ring) (by linarith) (by linarith)
  have w3 : wrap (Real.pi - 3 * (Real.pi / 2)) = -(Real.pi / 2) :=
    wrap_unique (k := 0) (by push_cast; ring) (by linarith) (by linarith)
  have w4 : wrap (Real.pi / 2 - Real.pi) = -(Real.pi / 2) :=
    wrap_unique (k := 0) (by push_cast; ring) (by linarith) (by linarith)
  have w5 : wrap (Real.pi / 2 - 3 * (Real.pi / 2)) = -Real.pi :=
    wrap_unique (k := 0) (by push_cast; ring) (by linarith) (by linarith)
  have w6 : wrap (3 * (Real.pi / 2) - Real.pi / 2) = -Real.pi :=
    wrap_unique (k := 1) (by push_cast; ring) (by linarith) (by linarith)
  have tn : |turn (northHalf d)| = 2 * Real.pi := by
    unfold northHalf
    simp only [turn_cons₂]
    rw [p1, p2, p3, w1, w2, w5]
    simp only [turn, List.tail_cons, List.zipWith_nil_right, List.sum_nil]
    rw [abs_of_neg (by linarith)]
    ring
  have ts : |turn (southHalf d)| = 2 * Real.pi := by
    unfold southHalf
    simp only [turn_cons₂]
    rw [p1, p3, p4, w3, w4, w6]
    simp only [turn, List.tail_cons, List.zipWith_nil_right, List.sum_nil]
    rw [abs_of_neg (by linarith)]
    ring
  have en : areaPolygon (northHalf d) = areaPolygon (diamond 0 d) := by
    rw [ha]
    refine C68_cap _ _ ⟨hr.1.le, hr.2⟩ (fun p hp => diamond_cap (d := d) p ?_) tn
    simp only [northHalf, diamond, List.mem_cons, List.not_mem_nil, or_false] at hp ⊢
    tauto
  have es : areaPolygon (southHalf d) = areaPolygon (diamond 0 d) := by
    rw [ha]
    refine C68_cap _ _ ⟨hr.1.le, hr.2⟩ (fun p hp => diamond_cap (d := d) p ?_) ts
    simp only [southHalf, diamond, List.mem_cons, List.not_mem_nil, or_false] at hp ⊢
    tauto
  refine ⟨en, es, ?_⟩
  rw [en, es]
  have hc : Real.cos (deg2rad d) < 1 := by
    rw [← Real.cos_zero]
    exact Real.cos_lt_cos_of_nonneg_of_le_pi (le_refl _) hr.2 hr.1
  have : 0 < areaPolygon (diamond 0 d) := by
    rw [ha]
    have : 0 < 1 - Real.cos (deg2rad d) := by linarith
    positivity
  intro h
  linarith

/-- the halves are the parts of the diamond on both sides of the chord -/
example (d : ℝ) : diamond 0 d = (0 + d, 0) :: [(0, d)] ++ (0 - d, 0) :: [(0, -d)] ++ [(0 + d, 0)] ∧
    northHalf d = (0 + d, 0) :: [(0, d)] ++ [(0 - d, 0), (0 + d, 0)] ∧
    southHalf d = (0 - d, 0) :: [(0, -d)] ++ [(0 + d, 0), (0 - d, 0)] := by
  simp [diamond, northHalf, southHalf]

/-- non-vacuity of the partial theorem: the diamond cut from its eastern to its northern corner -/
example {d : ℝ} (h0 : 0 < d) (h1 : d < 90) : NotOpposite (0 + d, 0) (0, d) := by
  have := diamond_notOpposite h0 h1
  unfold diamond at this
  exact (List.isChain_cons_cons.1 this).1

end Trackeddy
