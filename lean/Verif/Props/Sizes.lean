import Verif.Props.Origin
import Verif.Props.Similarity
import Verif.Props.Closed

/-!
C131: size and position of a contour and its ellipse.
-/
namespace Trackeddy
open Matrix

/-- a point of the enlarged and moved contour -/
def grow (s : ℝ) (v p : ℝ × ℝ) : ℝ × ℝ := (s * p.1 + v.1, s * p.2 + v.2)

/-- powers of the factor in the columns of the design matrix -/
noncomputable def growCol (s : ℝ) : Fin 5 → ℝ := ![s ^ 2, s ^ 2, s ^ 2, s, s]

/-- the conic of the enlarged contour -/
noncomputable def Conic.grow (s : ℝ) (q : Conic) : Conic := ⟨q.a / s ^ 2, q.b / s ^ 2, q.c / s ^ 2, q.d / s, q.e / s⟩

theorem growCol_ne {s : ℝ} (hs : 0 < s) (i : Fin 5) : growCol s i ≠ 0 := by
  fin_cases i <;> simp [growCol, hs.ne']

theorem designRow_grow (s : ℝ) (v m p : ℝ × ℝ) (i : Fin 5) :
    designRow (grow s v m) (grow s v p) i = growCol s i * designRow m p i := by
  unfold designRow grow growCol
  fin_cases i <;> simp <;> ring

theorem meanPt_grow {pts : List (ℝ × ℝ)} (hne : pts ≠ []) (s : ℝ) (v : ℝ × ℝ) :
    meanPt (pts.map (grow s v)) = grow s v (meanPt pts) := by
  have hl : (pts.length : ℝ) ≠ 0 := Nat.cast_ne_zero.2 (by simpa using hne)
  unfold meanPt grow
  simp only [List.map_map, Function.comp_def, List.length_map]
  have e : ∀ (f : ℝ × ℝ → ℝ) (b : ℝ), (pts.map fun p => s * f p + b).sum = s * (pts.map f).sum + pts.length * b := by
    intro f b
    rw [List.sum_map_add, List.sum_map_mul_left]
    simp
  rw [e, e]
  simp only [Prod.mk.injEq]
  constructor <;> field_simp

theorem normalMat_grow (s : ℝ) (v m : ℝ × ℝ) (pts : List (ℝ × ℝ)) :
    normalMat (grow s v m) (pts.map (grow s v)) = Matrix.diagonal (growCol s) * normalMat m pts * Matrix.diagonal (growCol s) := by
  ext i j
  rw [Matrix.mul_diagonal, Matrix.diagonal_mul]
  unfold normalMat
  simp only [Matrix.of_apply, List.map_map, Function.comp_def, designRow_grow]
  rw [← List.sum_map_mul_left, ← List.sum_map_mul_right]
  congr 1
  apply List.map_congr_left
  intro p _
  ring

theorem normalRhs_grow (s : ℝ) (v m : ℝ × ℝ) (pts : List (ℝ × ℝ)) :
    normalRhs (grow s v m) (pts.map (grow s v)) = Matrix.diagonal (growCol s) *ᵥ normalRhs m pts := by
  funext i
  rw [Matrix.mulVec_diagonal]
  unfold normalRhs
  simp only [List.map_map, Function.comp_def, designRow_grow]
  rw [← List.sum_map_mul_left]

theorem fitConic_grow {pts : List (ℝ × ℝ)} (hne : pts ≠ []) {s : ℝ} (hs : 0 < s) (v : ℝ × ℝ) :
    fitConic (pts.map (grow s v)) = (fitConic pts).map (Conic.grow s) := by
  unfold fitConic
  rw [meanPt_grow hne]
  simp only [normalMat_grow, normalRhs_grow, Matrix.transpose_mul, Matrix.diagonal_transpose]
  set D := Matrix.diagonal (growCol s) with hD
  set M := (normalMat (meanPt pts) pts).transpose with hM
  have hDdet : D.det ≠ 0 := by
    rw [hD, Matrix.det_diagonal]
    exact Finset.prod_ne_zero_iff.2 fun i _ => growCol_ne hs i
  have hdet : (D * (M * D)).det = 0 ↔ M.det = 0 := by
    rw [Matrix.det_mul, Matrix.det_mul]
    simp [hDdet]
  by_cases h0 : M.det = 0
  · rw [if_pos h0, if_pos (hdet.2 h0)]
    rfl
  · rw [if_neg h0, if_neg (fun h => h0 (hdet.1 h))]
    simp only [Except.map, Except.ok.injEq]
    have hDu : IsUnit D.det := isUnit_iff_ne_zero.2 hDdet
    have hx : (D * (M * D))⁻¹ *ᵥ (D *ᵥ normalRhs (meanPt pts) pts) = D⁻¹ *ᵥ (M⁻¹ *ᵥ normalRhs (meanPt pts) pts) := by
      rw [Matrix.mul_inv_rev, Matrix.mul_inv_rev, Matrix.mulVec_mulVec, Matrix.mul_assoc, Matrix.nonsing_inv_mul _ hDu,
        Matrix.mul_one, ← Matrix.mulVec_mulVec]
    have hDi : D⁻¹ = Matrix.diagonal fun i => (growCol s i)⁻¹ := by
      apply Matrix.inv_eq_right_inv
      rw [hD, Matrix.diagonal_mul_diagonal, ← Matrix.diagonal_one]
      congr 1
      funext i
      exact mul_inv_cancel₀ (growCol_ne hs i)
    rw [hx, hDi]
    simp only [Matrix.mulVec_diagonal]
    simp only [growCol, Conic.grow, Conic.mk.injEq]
    refine ⟨?_, ?_, ?_, ?_, ?_⟩ <;> simp <;> ring

theorem tilted_grow {s : ℝ} (hs : 0 < s) (q : Conic) : Tilted (q.grow s) ↔ Tilted q := by
  have h2 : 0 < s ^ 2 := by positivity
  have e : ∀ x y : ℝ, 1 / 1000 * |x / s ^ 2| < |y / s ^ 2| ↔ 1 / 1000 * |x| < |y| := by
    intro x y
    rw [abs_div, abs_div, abs_of_pos h2, ← mul_div_assoc]
    exact div_lt_div_iff_of_pos_right h2
  unfold Tilted Conic.grow
  simp only [e]

theorem orientation_grow {s : ℝ} (hs : 0 < s) (q : Conic) : orientation (q.grow s) = orientation q := by
  have h2 : 0 < s ^ 2 := by positivity
  unfold orientation Conic.grow
  simp only
  have e1 : q.c / s ^ 2 = q.a / s ^ 2 ↔ q.c = q.a := div_left_inj' h2.ne'
  have e2 : 0 < q.b / s ^ 2 ↔ 0 < q.b := div_pos_iff_of_pos_right h2
  simp only [e1, e2]
  rw [← sub_div, div_div_div_cancel_right₀ h2.ne']

theorem phiOf_grow {s : ℝ} (hs : 0 < s) (q : Conic) : phiOf (q.grow s) = phiOf q := by
  classical
  unfold phiOf
  by_cases h : Tilted q
  · rw [if_pos h, if_pos ((tilted_grow hs q).2 h), orientation_grow hs]
  · rw [if_neg h, if_neg (fun h' => h ((tilted_grow hs q).1 h'))]

theorem rotateConic_grow {s : ℝ} (hs : 0 < s) (q : Conic) (m m' : ℝ × ℝ) :
    (rotateConic (q.grow s) m').1 = (rotateConic q m).1.grow s := by
  classical
  unfold rotateConic
  by_cases h : Tilted q
  · rw [if_pos h, if_pos ((tilted_grow hs q).2 h)]
    rw [orientation_grow hs]
    simp only [Conic.grow, Conic.mk.injEq]
    refine ⟨?_, ?_, ?_, ?_, ?_⟩ <;> ring
  · rw [if_neg h, if_neg (fun h' => h ((tilted_grow hs q).1 h'))]

theorem conicF_grow {s : ℝ} (hs : 0 < s) (q : Conic) : conicF (q.grow s) = conicF q := by
  have h2 : s ^ 2 ≠ 0 := by positivity
  have e : ∀ x y : ℝ, (x / s) ^ 2 / (4 * (y / s ^ 2)) = x ^ 2 / (4 * y) := by
    intro x y
    rw [div_pow, ← mul_div_assoc, div_div_div_cancel_right₀ h2]
  unfold conicF Conic.grow
  simp only [e]

theorem semi_grow {s : ℝ} (hs : 0 < s) (F a : ℝ) : Real.sqrt |F / (a / s ^ 2)| = s * Real.sqrt |F / a| := by
  have : F / (a / s ^ 2) = s ^ 2 * (F / a) := by
    rw [div_div_eq_mul_div]
    ring
  rw [this, abs_mul, abs_of_pos (by positivity), Real.sqrt_mul (by positivity), Real.sqrt_sq hs.le]

theorem semiAxes_grow {s : ℝ} (hs : 0 < s) (q : Conic) (m m' : ℝ × ℝ) :
    semiAxes (q.grow s) m' = (s * (semiAxes q m).1, s * (semiAxes q m).2) := by
  unfold semiAxes
  simp only [rotateConic_grow hs q m m', conicF_grow hs]
  simp only [Conic.grow, semi_grow hs]

theorem ellipsePoint_grow {s : ℝ} (hs : 0 < s) (q : Conic) (m v : ℝ × ℝ) (t : ℝ) :
    ellipsePoint (q.grow s) (grow s v m) t = grow s v (ellipsePoint q m t) := by
  have hm : grow s v m = ((s * m.1, s * m.2).1 + v.1, (s * m.1, s * m.2).2 + v.2) := rfl
  rw [hm, ellipsePoint_translate]
  have key : ellipsePoint (q.grow s) (s * m.1, s * m.2) t = (s * (ellipsePoint q m t).1, s * (ellipsePoint q m t).2) := by
    have h2 : (rotateConic (q.grow s) (s * m.1, s * m.2)).2 = (s * (rotateConic q m).2.1, s * (rotateConic q m).2.2) := by
      classical
      unfold rotateConic
      by_cases h : Tilted q
      · rw [if_pos h, if_pos ((tilted_grow hs q).2 h)]
        simp only [orientation_grow hs, Prod.mk.injEq]
        constructor <;> ring
      · rw [if_neg h, if_neg (fun h' => h ((tilted_grow hs q).1 h'))]
    have e : ∀ d a : ℝ, d / s / 2 / (a / s ^ 2) = s * (d / 2 / a) := by
      intro d a
      rw [div_div_eq_mul_div]
      field_simp
    unfold ellipsePoint
    simp only [rotateConic_grow hs q m, conicF_grow hs, h2, phiOf_grow hs]
    simp only [Conic.grow, semi_grow hs, e, Prod.mk.injEq]
    constructor <;> ring
  rw [key]
  rfl

theorem angle_grow {s : ℝ} (hs : 0 < s) (q : Conic) : angleOf (q.grow s) = angleOf q := by
  have h2 : 0 < s ^ 2 := by positivity
  unfold angleOf Conic.grow
  simp only
  have e0 : q.b / s ^ 2 = 0 ↔ q.b = 0 := by simp [hs.ne']
  have e1 : ∀ x y : ℝ, x / s ^ 2 < y / s ^ 2 ↔ x < y := fun x y => div_lt_div_iff_of_pos_right h2
  have e2 : Real.sqrt ((q.a / s ^ 2 - q.c / s ^ 2) ^ 2 + (q.b / s ^ 2) ^ 2) = Real.sqrt ((q.a - q.c) ^ 2 + q.b ^ 2) / s ^ 2 := by
    rw [← sub_div, div_pow, div_pow, ← add_div, Real.sqrt_div' _ (by positivity), Real.sqrt_sq h2.le]
  simp only [e0, e1, e2]
  rw [← sub_div, ← sub_div, div_div_div_cancel_right₀ h2.ne']

/-- **C131** the ellipse fitted to an enlarged and moved contour is the enlarged and moved ellipse: its curve point by point, its
semi axes multiplied by the factor, with the same angle, or the same exception. -/
theorem C131_ellipse {pts : List (ℝ × ℝ)} (hne : pts ≠ []) {s : ℝ} (hs : 0 < s) (v : ℝ × ℝ) :
    fitEllipse (pts.map fun p => (s * p.1 + v.1, s * p.2 + v.2)) =
      (fitEllipse pts).map fun r => (r.1.map fun p => (s * p.1 + v.1, s * p.2 + v.2), (s * r.2.1, s * r.2.2.1, r.2.2.2)) := by
  show fitEllipse (pts.map (grow s v)) = (fitEllipse pts).map fun r => (r.1.map (grow s v), _)
  unfold fitEllipse
  rw [fitConic_grow hne hs, meanPt_grow hne]
  cases fitConic pts with
  | error e => rfl
  | ok q =>
    simp only [bind, Except.bind, pure, Except.pure, Except.map, List.length_map, List.map_map, Except.ok.injEq, Prod.mk.injEq,
      semiAxes_grow hs q (meanPt pts), angle_grow hs, mul_max_of_nonneg _ _ hs.le, mul_min_of_nonneg _ _ hs.le, and_true]
    apply List.map_congr_left
    intro t _
    exact ellipsePoint_grow hs q (meanPt pts) v t

/-- **C131** the enlarged contour has a finite ellipse exactly if the contour has one. -/
theorem C131_finite {pts : List (ℝ × ℝ)} (hne : pts ≠ []) {s : ℝ} (hs : 0 < s) (v : ℝ × ℝ) :
    FiniteEllipse (pts.map fun p => (s * p.1 + v.1, s * p.2 + v.2)) ↔ FiniteEllipse pts := by
  show FiniteEllipse (pts.map (grow s v)) ↔ _
  have h2 : s ^ 2 ≠ 0 := by positivity
  unfold FiniteEllipse
  rw [fitConic_grow hne hs]
  cases fitConic pts with
  | error e => simp [Except.map]
  | ok q =>
    simp only [Except.map, Except.ok.injEq, forall_eq', rotateConic_grow hs q (meanPt pts)]
    simp [Conic.grow, hs.ne']

theorem eccentricity_grow {s : ℝ} (hs : 0 < s) (a b : ℝ) : eccentricity (s * a) (s * b) = eccentricity a b := by
  have h2 : s ^ 2 ≠ 0 := by positivity
  unfold eccentricity
  have e : |s * b| ^ 2 / |s * a| ^ 2 = |b| ^ 2 / |a| ^ 2 := by
    rw [abs_mul, abs_mul, abs_of_pos hs, mul_pow, mul_pow, mul_div_mul_left _ _ h2]
  simp only [e, mul_eq_zero, hs.ne', false_or]

/-- **C131** what the criteria on the shape are about, the eccentricity of the ellipse and the similarity of the contour with it, is
the same for a contour of any size and at any place. -/
theorem C131_shape (limit : Nat) {pts : List (ℝ × ℝ)} (hne : pts ≠ []) {s : ℝ} (hs : 0 < s) (v : ℝ × ℝ)
    {curve : List (ℝ × ℝ)} {a b : ℝ} {θ : Option ℝ} (h : fitEllipse pts = .ok (curve, a, b, θ)) :
    ∃ curve' a' b', fitEllipse (pts.map fun p => (s * p.1 + v.1, s * p.2 + v.2)) = .ok (curve', a', b', θ) ∧
      eccentricity a' b' = eccentricity a b ∧
      similarity limit (pts.map fun p => (s * p.1 + v.1, s * p.2 + v.2)) curve' = similarity limit pts curve := by
  refine ⟨curve.map fun p => (s * p.1 + v.1, s * p.2 + v.2), s * a, s * b, ?_, eccentricity_grow hs a b, ?_⟩
  · rw [C131_ellipse hne hs, h]
    rfl
  · exact C28_similarity_invariant limit pts curve hs v

/-- non-vacuity: a contour with an ellipse of semi axes 5/4 and 1, ten times as large -/
example (limit : Nat) : ∃ curve, fitEllipse (opPts.map fun p => (10 * p.1 + 0, 10 * p.2 + 0)) = .ok (curve, 10 * (5 / 4), 10 * 1, some 0) ∧
    similarity limit (opPts.map fun p => (10 * p.1 + 0, 10 * p.2 + 0)) curve = similarity limit opPts opCurve := by
  have hne : opPts ≠ [] := by simp [opPts]
  have h10 : (0 : ℝ) < 10 := by norm_num
  refine ⟨_, ?_, C28_similarity_invariant limit opPts opCurve h10 (0, 0)⟩
  have := C131_ellipse hne h10 (0, 0)
  rw [opFit] at this
  exact this

end Trackeddy
