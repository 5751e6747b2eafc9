import Verif.Props.Origin

/-!
Lemmas for C125: maps mirrored in the equator.
-/
namespace Trackeddy
open Spec
open Cntr (Vertex SameShape arrGrid)

/-- the same map on the other side of the equator: latitudes with the opposite sign -/
def Fields.mirrored (S : Fields) : Fields := ⟨S.X, ⟨S.Y.rows, S.Y.cols, fun r c => -S.Y.get r c⟩, S.data⟩

/-- the point on the other side of the equator -/
def mirrorPt (p : ℝ × ℝ) : ℝ × ℝ := (p.1, -p.2)

theorem mirrorPt_mirrorPt (p : ℝ × ℝ) : mirrorPt (mirrorPt p) = p := by
  unfold mirrorPt
  simp

theorem Fields.mirrored_ok {S : Fields} (h : S.Ok) : S.mirrored.Ok := h

theorem Fields.mirrored_rect {S : Fields} (h : S.Rectilinear) : S.mirrored.Rectilinear := by
  obtain ⟨lon, lat, hX, hY, hlon, hlat⟩ := h
  refine ⟨lon, fun r => -lat r, hX, fun r c => by show -S.Y.get r c = _; rw [hY], hlon, ?_⟩
  rcases hlat with h | h
  · exact Or.inr fun i j a b => by have := h i j a b; simpa using this
  · exact Or.inl fun i j a b => by have := h i j a b; simpa using this

/-! ### contours -/

theorem contourList_mirror (L : Libs) {S : Fields} (h : S.Ok) (level : ℝ) :
    contourList L S.mirrored level = (contourList L S level).map fun vs => vs.map (Option.map mirrorPt) := by
  obtain ⟨segs, codes, h1, h2⟩ := Cntr.C79_affine_coordinates h level 1 0 0 0 (-1) 0 (L.mem S.data level)
    (L.mem S.data level) (fuel := 4 * (S.data.cols * S.data.rows) + 2) (fuel' := 4 * (S.data.cols * S.data.rows) + 2) le_rfl le_rfl
  have hx : Cntr.NdArr.lin 1 0 0 S.X S.Y = S.mirrored.X := by
    unfold Cntr.NdArr.lin Fields.mirrored
    have h3 := h.1
    cases hX : S.X
    simp_all
  have hy : Cntr.NdArr.lin 0 (-1) 0 S.X S.Y = S.mirrored.Y := by
    unfold Cntr.NdArr.lin Fields.mirrored
    have h3 := h.1
    have h4 := h.2.1
    cases hY : S.Y
    simp_all
  rw [hx, hy] at h2
  unfold contourList contoursOf
  have e : 4 * (S.mirrored.data.cols * S.mirrored.data.rows) + 2 = 4 * (S.data.cols * S.data.rows) + 2 := rfl
  have e2 : S.mirrored.data = S.data := rfl
  rw [e, e2, h1, h2]
  simp only [zero_mul, one_mul, add_zero, zero_add, neg_mul]
  rw [List.filterMap_map, List.map_filterMap]
  apply List.filterMap_congr
  intro it _
  cases it <;> simp [vertsOf, Cntr.Item.map]
  intro v _
  rfl

/-! ### the mean and the first test -/

theorem sum_map_neg' {α : Type} (l : List α) (f : α → ℝ) : (l.map fun x => -f x).sum = -(l.map f).sum := by
  induction l with
  | nil => simp
  | cons a l ih =>
    simp only [List.map_cons, List.sum_cons, ih]
    ring

theorem meanPt_mirror (pts : List (ℝ × ℝ)) : meanPt (pts.map mirrorPt) = mirrorPt (meanPt pts) := by
  unfold meanPt mirrorPt
  simp only [List.map_map, Function.comp_def, List.length_map, sum_map_neg', neg_div]

theorem meanOf_neg (l : List (Option ℝ)) : Cntr.meanOf (l.map (Option.map fun x => -x)) = (Cntr.meanOf l).map fun x => -x := by
  unfold Cntr.meanOf
  have h1 : (l.map (Option.map fun x => -x)).all Option.isSome = l.all Option.isSome := by
    rw [List.all_map]
    apply List.all_congr rfl
    intro v
    cases v <;> rfl
  have h2 : ((l.map (Option.map fun x => -x)).map fun v => v.getD 0) = (l.map fun v => v.getD 0).map fun x => -x := by
    rw [List.map_map, List.map_map]
    apply List.map_congr_left
    intro v _
    cases v <;> simp
  rw [h1, h2]
  split
  · rw [sum_map_neg' _ fun x => x]
    simp only [List.map_id_fun', id_eq, List.length_map, Option.map_some, neg_div, List.map_id']
  · rfl

theorem closeNan_neg (a b : Option ℝ) : Cntr.closeNan (a.map fun x => -x) (b.map fun x => -x) = Cntr.closeNan a b := by
  cases a <;> cases b <;> simp only [Option.map_none, Option.map_some, Cntr.closeNan]
  rename_i a b
  have : |-a - -b| = |a - b| := by rw [← abs_neg]; congr 1; ring
  rw [this, abs_neg]

theorem skips_mirror (vs : List (Vertex ℝ)) : Cntr.skipsContour (vs.map (Option.map mirrorPt)) = Cntr.skipsContour vs := by
  cases vs with
  | nil => rfl
  | cons v vs =>
    unfold Cntr.skipsContour
    simp only [List.map_cons]
    have e1 : ∀ v : Vertex ℝ, (v.map mirrorPt).map Prod.fst = v.map Prod.fst := by
      intro v; cases v <;> rfl
    have e2 : ∀ v : Vertex ℝ, (v.map mirrorPt).map Prod.snd = (v.map Prod.snd).map fun x => -x := by
      intro v; cases v <;> rfl
    have e3 : ∀ l : List (Vertex ℝ), (l.map (Option.map mirrorPt)).map (fun v => v.map Prod.fst) = l.map fun v => v.map Prod.fst := by
      intro l
      rw [List.map_map]
      exact List.map_congr_left fun v _ => e1 v
    have e4 : ∀ l : List (Vertex ℝ), (l.map (Option.map mirrorPt)).map (fun v => v.map Prod.snd) =
        (l.map fun v => v.map Prod.snd).map (Option.map fun x => -x) := by
      intro l
      rw [List.map_map, List.map_map]
      exact List.map_congr_left fun v _ => e2 v
    have := meanOf_neg ((v :: vs).map fun v => v.map Prod.snd)
    simp only [List.map_cons] at this
    rw [e1, e2, e3, e4, this, closeNan_neg]

theorem approxRD_neg (x : ℝ) : approxRD (-x) = approxRD x := by
  unfold approxRD
  simp

/-! ### the ellipse -/

/-- the conic on the other side -/
def Conic.mirror (q : Conic) : Conic := ⟨q.a, -q.b, q.c, q.d, -q.e⟩

/-- signs of the columns of the design matrix -/
noncomputable def mirrorSign : Fin 5 → ℝ := ![1, -1, 1, 1, -1]

theorem mirrorSign_sq (i : Fin 5) : mirrorSign i * mirrorSign i = 1 := by
  fin_cases i <;> simp [mirrorSign]

theorem designRow_mirror (m p : ℝ × ℝ) (i : Fin 5) : designRow (mirrorPt m) (mirrorPt p) i = mirrorSign i * designRow m p i := by
  unfold designRow mirrorPt mirrorSign
  fin_cases i <;> simp <;> ring

theorem normalMat_mirror (m : ℝ × ℝ) (pts : List (ℝ × ℝ)) :
    normalMat (mirrorPt m) (pts.map mirrorPt) = Matrix.diagonal mirrorSign * normalMat m pts * Matrix.diagonal mirrorSign := by
  ext i j
  rw [Matrix.mul_diagonal, Matrix.diagonal_mul]
  unfold normalMat
  simp only [Matrix.of_apply, List.map_map, Function.comp_def, designRow_mirror]
  rw [← List.sum_map_mul_left, ← List.sum_map_mul_right]
  congr 1
  apply List.map_congr_left
  intro p _
  ring

theorem normalRhs_mirror (m : ℝ × ℝ) (pts : List (ℝ × ℝ)) (i : Fin 5) :
    normalRhs (mirrorPt m) (pts.map mirrorPt) i = mirrorSign i * normalRhs m pts i := by
  unfold normalRhs
  simp only [List.map_map, Function.comp_def, designRow_mirror]
  rw [← List.sum_map_mul_left]

theorem mirrorSign_diag : Matrix.diagonal mirrorSign * Matrix.diagonal mirrorSign = 1 := by
  rw [Matrix.diagonal_mul_diagonal, ← Matrix.diagonal_one]
  congr 1
  funext i
  exact mirrorSign_sq i

theorem fitConic_mirror (pts : List (ℝ × ℝ)) : fitConic (pts.map mirrorPt) = (fitConic pts).map Conic.mirror := by
  unfold fitConic
  rw [meanPt_mirror]
  simp only [normalMat_mirror, Matrix.transpose_mul, Matrix.diagonal_transpose]
  set D := Matrix.diagonal mirrorSign with hD
  set M := (normalMat (meanPt pts) pts).transpose with hM
  have hdd : D.det * D.det = 1 := by rw [← Matrix.det_mul, mirrorSign_diag, Matrix.det_one]
  have hdet : (D * (M * D)).det = M.det := by
    rw [Matrix.det_mul, Matrix.det_mul]
    linear_combination M.det * hdd
  rw [hdet]
  split
  · rfl
  · rename_i h0
    simp only [Except.map, Except.ok.injEq]
    have hinv : (D * (M * D))⁻¹ = D * (M⁻¹ * D) := by
      have hDi : D⁻¹ = D := Matrix.inv_eq_right_inv mirrorSign_diag
      rw [Matrix.mul_inv_rev, Matrix.mul_inv_rev, hDi, Matrix.mul_assoc]
    have hx : ∀ i, ((D * (M * D))⁻¹.mulVec (normalRhs (mirrorPt (meanPt pts)) (pts.map mirrorPt))) i =
        mirrorSign i * (M⁻¹.mulVec (normalRhs (meanPt pts) pts)) i := by
      intro i
      have hr : D.mulVec (normalRhs (mirrorPt (meanPt pts)) (pts.map mirrorPt)) = normalRhs (meanPt pts) pts := by
        funext j
        rw [hD, Matrix.mulVec_diagonal, normalRhs_mirror, ← mul_assoc, mirrorSign_sq, one_mul]
      rw [hinv, ← Matrix.mulVec_mulVec, ← Matrix.mulVec_mulVec, hr, hD, Matrix.mulVec_diagonal]
    rw [hx, hx, hx, hx, hx]
    simp [mirrorSign, Conic.mirror]

theorem tilted_mirror (q : Conic) : Tilted q.mirror ↔ Tilted q := by
  unfold Tilted Conic.mirror
  simp

theorem orientation_mirror {q : Conic} (h : Tilted q) : orientation q.mirror = -orientation q := by
  have hb : q.b ≠ 0 := by
    intro h0
    have := h.1
    rw [h0, abs_zero] at this
    exact absurd this (not_lt.2 (by positivity))
  unfold orientation Conic.mirror
  simp only
  split
  · rcases lt_or_gt_of_ne hb with h1 | h1
    · rw [if_pos (by linarith), if_neg (by linarith)]
      ring
    · rw [if_neg (by linarith), if_pos h1]
      ring
  · rw [neg_div, Real.arctan_neg]
    ring

theorem phiOf_mirror (q : Conic) : phiOf q.mirror = -phiOf q := by
  classical
  unfold phiOf
  by_cases h : Tilted q
  · rw [if_pos h, if_pos ((tilted_mirror q).2 h), orientation_mirror h]
  · rw [if_neg h, if_neg (fun h' => h ((tilted_mirror q).1 h')), neg_zero]

theorem rotateConic_mirror (q : Conic) (m : ℝ × ℝ) :
    (rotateConic q.mirror (mirrorPt m)).1.a = (rotateConic q m).1.a ∧ (rotateConic q.mirror (mirrorPt m)).1.c = (rotateConic q m).1.c ∧
    (rotateConic q.mirror (mirrorPt m)).1.d = (rotateConic q m).1.d ∧ (rotateConic q.mirror (mirrorPt m)).1.e = -(rotateConic q m).1.e ∧
    (rotateConic q.mirror (mirrorPt m)).2 = mirrorPt (rotateConic q m).2 := by
  classical
  unfold rotateConic
  by_cases h : Tilted q
  · rw [if_pos h, if_pos ((tilted_mirror q).2 h)]
    simp only [orientation_mirror h, Real.cos_neg, Real.sin_neg]
    unfold Conic.mirror mirrorPt
    refine ⟨by ring, by ring, by ring, by ring, ?_⟩
    simp only [Prod.mk.injEq]
    constructor <;> ring
  · rw [if_neg h, if_neg (fun h' => h ((tilted_mirror q).1 h'))]
    exact ⟨rfl, rfl, rfl, rfl, rfl⟩

theorem conicF_mirror (q : Conic) (m : ℝ × ℝ) : conicF (rotateConic q.mirror (mirrorPt m)).1 = conicF (rotateConic q m).1 := by
  obtain ⟨h1, h2, h3, h4, -⟩ := rotateConic_mirror q m
  unfold conicF
  rw [h1, h2, h3, h4]
  ring

theorem semiAxes_mirror (q : Conic) (m : ℝ × ℝ) : semiAxes q.mirror (mirrorPt m) = semiAxes q m := by
  obtain ⟨h1, h2, -⟩ := rotateConic_mirror q m
  unfold semiAxes
  simp only [conicF_mirror, h1, h2]

theorem ellipsePoint_mirror (q : Conic) (m : ℝ × ℝ) (t : ℝ) :
    ellipsePoint q.mirror (mirrorPt m) t = mirrorPt (ellipsePoint q m (-t)) := by
  obtain ⟨h1, h2, h3, h4, h5⟩ := rotateConic_mirror q m
  unfold ellipsePoint
  simp only [conicF_mirror, h1, h2, h3, h4, h5, phiOf_mirror, Real.cos_neg, Real.sin_neg]
  unfold mirrorPt
  simp only [Prod.mk.injEq]
  constructor <;> ring

theorem ellipsePoint_period (q : Conic) (m : ℝ × ℝ) (t : ℝ) : ellipsePoint q m (2 * Real.pi - t) = ellipsePoint q m (-t) := by
  unfold ellipsePoint
  simp only [Real.cos_two_pi_sub, Real.sin_two_pi_sub, Real.cos_neg, Real.sin_neg]

theorem linspace2pi_length (n : ℕ) : (linspace2pi n).length = n := by simp [linspace2pi]

theorem linspace2pi_get (n i : ℕ) (h : i < (linspace2pi n).length) : (linspace2pi n)[i] = 2 * Real.pi * (i : ℝ) / ((n - 1 : ℕ) : ℝ) := by
  have e : linspace2pi n = (List.range n).map fun i : ℕ => 2 * Real.pi * (i : ℝ) / ((n - 1 : ℕ) : ℝ) := by
    unfold linspace2pi
    simp [List.map_eq_flatMap, List.flatMap_assoc]
  simp only [e, List.getElem_map, List.getElem_range]

/-- the points of the mirrored ellipse come in the opposite order -/
theorem curve_mirror (q : Conic) (m : ℝ × ℝ) (n : ℕ) :
    (linspace2pi n).map (ellipsePoint q.mirror (mirrorPt m)) = (((linspace2pi n).map (ellipsePoint q m)).map mirrorPt).reverse := by
  apply List.ext_getElem
  · simp [linspace2pi]
  · intro i h1 h2
    have hi : i < n := by simpa [linspace2pi] using h1
    simp only [List.getElem_map, List.getElem_reverse, List.length_map, linspace2pi_length, linspace2pi_get]
    rw [ellipsePoint_mirror]
    congr 1
    rw [← ellipsePoint_period]
    by_cases hn : n = 1
    · subst hn
      have : i = 0 := by omega
      subst this
      unfold ellipsePoint
      simp
    · congr 1
      have hn1 : ((n - 1 : ℕ) : ℝ) ≠ 0 := by
        rw [Nat.cast_ne_zero]
        omega
      have : ((n - 1 - i : ℕ) : ℝ) = ((n - 1 : ℕ) : ℝ) - i := by
        rw [Nat.cast_sub (by omega)]
      rw [this]
      field_simp

/-- the angle changes sign, except that a vertical axis keeps a quarter turn -/
def MirrorAngle (a a' : Option ℝ) : Prop := a' = a.map (fun x => -x) ∨ a = some (Real.pi / 2) ∧ a' = some (Real.pi / 2)

theorem angle_mirror (q : Conic) : MirrorAngle (angleOf q) (angleOf q.mirror) := by
  unfold MirrorAngle angleOf Conic.mirror
  simp only [neg_eq_zero]
  by_cases hb : q.b = 0
  · simp only [hb, true_and]
    split_ifs
    · exact Or.inl (by simp)
    · exact Or.inr ⟨rfl, rfl⟩
    · exact Or.inl rfl
  · simp only [hb, false_and, if_false, Option.map_some, neg_sq]
    left
    rw [div_neg, Real.arctan_neg]

theorem fitEllipse_mirror (pts : List (ℝ × ℝ)) :
    (∀ er, fitEllipse pts = .error er → fitEllipse (pts.map mirrorPt) = .error er) ∧
    ∀ curve a b θ, fitEllipse pts = .ok (curve, a, b, θ) →
      ∃ θ', fitEllipse (pts.map mirrorPt) = .ok ((curve.map mirrorPt).reverse, a, b, θ') ∧ MirrorAngle θ θ' := by
  unfold fitEllipse
  rw [fitConic_mirror, meanPt_mirror]
  cases fitConic pts with
  | error e =>
    refine ⟨fun er h => ?_, fun _ _ _ _ h => by cases h⟩
    injection h with h
    subst h
    rfl
  | ok q =>
    refine ⟨(fun er h => by cases h), fun curve a b θ h => ?_⟩
    simp only [bind, Except.bind, pure, Except.pure, Except.ok.injEq, Prod.mk.injEq] at h
    obtain ⟨rfl, rfl, rfl, rfl⟩ := h
    refine ⟨angleOf q.mirror, ?_, angle_mirror q⟩
    simp only [bind, Except.bind, pure, Except.pure, Except.map, List.length_map, semiAxes_mirror, curve_mirror]

theorem finiteEllipse_mirror (pts : List (ℝ × ℝ)) : FiniteEllipse (pts.map mirrorPt) ↔ FiniteEllipse pts := by
  unfold FiniteEllipse
  rw [fitConic_mirror, meanPt_mirror]
  cases fitConic pts with
  | error e => simp [Except.map]
  | ok q =>
    obtain ⟨h1, h2, -⟩ := rotateConic_mirror q (meanPt pts)
    constructor
    · intro h q' hq'
      injection hq' with hq'
      subst hq'
      have := h q.mirror rfl
      rwa [h1, h2] at this
    · intro h q' hq'
      injection hq' with hq'
      subst hq'
      rw [h1, h2]
      exact h q rfl

/-! ### the area -/

/-- not (0, 0) and not (180, 0): the azimuth of the vertex seen from (0, 0) is defined -/
def HasAzimuth (p : ℝ × ℝ) : Prop := Real.sin (deg2rad p.2) ≠ 0 ∨ Real.cos (deg2rad p.2) * Real.sin (deg2rad p.1) ≠ 0

theorem arctan2_mirror {y x : ℝ} (h : x ≠ 0 ∨ y ≠ 0) : ∃ k : ℤ, arctan2 y (-x) = Real.pi - arctan2 y x + 2 * Real.pi * k := by
  obtain ⟨k, hk⟩ := arctan2_neg y x
  have hz : (⟨x, -y⟩ : ℂ) ≠ 0 := by
    intro h0
    have h1 := congrArg Complex.re h0
    have h2 := congrArg Complex.im h0
    simp only [Complex.zero_re, Complex.zero_im, neg_eq_zero] at h1 h2
    rcases h with h | h
    · exact h h1
    · exact h h2
  have hneg : (⟨-x, y⟩ : ℂ) = -⟨x, -y⟩ := by
    apply Complex.ext <;> simp
  have := Complex.arg_neg_coe_angle hz
  rw [← hneg] at this
  have hs : ((arctan2 y (-x) : ℝ) : Real.Angle) = ((Real.pi - arctan2 y x : ℝ) : Real.Angle) := by
    show ((Complex.arg ⟨-x, y⟩ : ℝ) : Real.Angle) = _
    rw [this]
    have h3 : ((Complex.arg ⟨x, -y⟩ : ℝ) : Real.Angle) = ((arctan2 (-y) x : ℝ) : Real.Angle) := rfl
    rw [h3, hk]
    rw [show -arctan2 y x + 2 * Real.pi * (k : ℝ) = -arctan2 y x + (k : ℝ) * (2 * Real.pi) by ring]
    rw [← Real.Angle.coe_add, Real.Angle.angle_eq_iff_two_pi_dvd_sub]
    exact ⟨k, by ring⟩
  rw [Real.Angle.angle_eq_iff_two_pi_dvd_sub] at hs
  obtain ⟨j, hj⟩ := hs
  exact ⟨j, by linarith⟩

theorem polar_mirror {p : ℝ × ℝ} (h : HasAzimuth p) : (polar (mirrorPt p)).1 = (polar p).1 ∧
    ∃ k : ℤ, (polar (mirrorPt p)).2 = Real.pi - (polar p).2 + 2 * Real.pi * k := by
  have e : deg2rad (-p.2) = -deg2rad p.2 := by unfold deg2rad; ring
  unfold polar mirrorPt
  simp only
  rw [e]
  constructor
  · rw [C34_arccos, C34_arccos, Real.cos_neg]
  · unfold azim
    rw [Real.cos_neg, Real.sin_neg]
    obtain ⟨k1, h1⟩ := mod2pi_spec (arctan2 (Real.cos (deg2rad p.2) * Real.sin (deg2rad p.1)) (-Real.sin (deg2rad p.2)))
    obtain ⟨k2, h2⟩ := mod2pi_spec (arctan2 (Real.cos (deg2rad p.2) * Real.sin (deg2rad p.1)) (Real.sin (deg2rad p.2)))
    obtain ⟨k3, h3⟩ := arctan2_mirror h
    refine ⟨k1 + k2 + k3, ?_⟩
    rw [h1, h2, h3]
    push_cast
    ring

theorem integrand_mirror {p q : ℝ × ℝ} (hp : HasAzimuth p) (hq : HasAzimuth q) :
    integrand (polar (mirrorPt p)) (polar (mirrorPt q)) = integrand (polar q) (polar p) := by
  obtain ⟨a1, k1, b1⟩ := polar_mirror hp
  obtain ⟨a2, k2, b2⟩ := polar_mirror hq
  unfold integrand
  rw [a1, a2, b1, b2]
  have e1 : Real.pi - (polar q).2 + 2 * Real.pi * (k2 : ℝ) - (Real.pi - (polar p).2 + 2 * Real.pi * (k1 : ℝ)) =
      (polar p).2 - (polar q).2 + 2 * Real.pi * ((k2 - k1 : ℤ) : ℝ) := by push_cast; ring
  rw [e1, wrap_add_int, show (polar q).1 + ((polar p).1 - (polar q).1) / 2 = (polar p).1 + ((polar q).1 - (polar p).1) / 2 by ring]

theorem integral_mirror {c : List (ℝ × ℝ)} (h : ∀ p ∈ c, HasAzimuth p) :
    integral ((c.map mirrorPt).map polar) = integral (c.reverse.map polar) := by
  induction c with
  | nil => simp [integral]
  | cons p c ih =>
    cases c with
    | nil => simp [integral]
    | cons q c =>
      have ih := ih fun x hx => h x (List.mem_cons_of_mem _ hx)
      rw [List.reverse_cons, List.map_append]
      rw [List.reverse_cons, List.map_append] at ih ⊢
      rw [List.append_assoc, List.map_singleton, List.map_singleton, List.singleton_append, integral_split, ← List.map_singleton, ← ih]
      simp only [List.map_cons, integral_cons₂]
      rw [integrand_mirror (h p (by simp)) (h q (by simp))]
      simp [integral]
      ring

/-- a mirrored polygon in the opposite direction has the same area -/
theorem area_mirror_reverse {c : List (ℝ × ℝ)} (h : ∀ p ∈ c, HasAzimuth p) : areaPolygon (c.map mirrorPt).reverse = areaPolygon c := by
  apply areaPolygon_congr
  rw [← List.map_reverse, integral_mirror (fun p hp => h p (List.mem_reverse.1 hp)), List.reverse_reverse]

theorem area_mirror {c : List (ℝ × ℝ)} (h : ∀ p ∈ c, HasAzimuth p) (hc : c.IsChain NotOpposite) :
    areaPolygon (c.map mirrorPt) = areaPolygon c := by
  apply areaPolygon_congr
  rw [integral_mirror h, integral_reverse c hc, abs_neg]

/-! ### the similarity -/

theorem eucl_mirror (p q : ℝ × ℝ) : eucl (mirrorPt p) (mirrorPt q) = 1 * eucl p q := by
  unfold eucl mirrorPt
  rw [one_mul]
  congr 1
  ring

theorem similarity_mirror (limit : Nat) (A B : List (ℝ × ℝ)) :
    similarity limit (A.map mirrorPt) (B.map mirrorPt) = similarity limit A B := by
  unfold similarity
  rw [arcLength_scale (s := 1) eucl_mirror, arcLength_scale (s := 1) eucl_mirror, one_mul, one_mul,
    Frechet.frdist_scale limit zero_le_one eucl_symm eucl_symm eucl_mirror]
  cases Frechet.frdist limit eucl A B with
  | error e => rfl
  | ok d => simp only [Except.map, one_mul]

theorem arcLength_reverse (c : List (ℝ × ℝ)) : arcLength c.reverse = arcLength c := by
  rw [C28_arcLength_sum, C28_arcLength_sum]
  have key : ∀ l : List (ℝ × ℝ), ((l.zip l.tail).map fun p => eucl p.1 p.2).sum = (List.zipWith eucl l l.tail).sum := by
    intro l
    rw [List.zip, List.map_zipWith]
  have happ : ∀ (l : List (ℝ × ℝ)) (x y : ℝ × ℝ), (List.zipWith eucl (l ++ [x, y]) (l ++ [x, y]).tail).sum =
      (List.zipWith eucl (l ++ [x]) (l ++ [x]).tail).sum + eucl x y := by
    intro l x y
    induction l with
    | nil => simp
    | cons a l ih =>
      cases l with
      | nil => simp
      | cons b l =>
        simp only [List.cons_append, List.tail_cons, List.zipWith_cons_cons, List.sum_cons] at ih ⊢
        rw [ih]
        ring
  rw [key, key]
  induction c with
  | nil => rfl
  | cons a c ih =>
    cases c with
    | nil => rfl
    | cons b c =>
      rw [List.reverse_cons, List.reverse_cons, List.append_assoc, List.singleton_append, happ]
      rw [List.reverse_cons] at ih
      rw [ih, eucl_symm]
      simp only [List.tail_cons, List.zipWith_cons_cons, List.sum_cons]
      ring

namespace Frechet
open Frechet.Spec

theorem chain_bound {m n : ℕ} : ∀ {C : List (ℕ × ℕ)}, C.IsChain Step → C.getLast? = some (m, n) → ∀ l ∈ C, l.1 ≤ m ∧ l.2 ≤ n
  | [], _, _, l, hl => by cases hl
  | [a], _, h, l, hl => by
    simp only [List.getLast?_singleton, Option.some.injEq] at h
    rw [List.mem_singleton] at hl
    subst hl
    rw [h]
    exact ⟨le_rfl, le_rfl⟩
  | a :: b :: C, hc, h, l, hl => by
    rw [List.isChain_cons_cons] at hc
    have ih := chain_bound hc.2 (by simpa using h)
    rcases List.mem_cons.1 hl with rfl | hl
    · have hb := ih b (by simp)
      rcases hc.1 with e | e | e <;> rw [e] at hb <;> simp only at hb <;> omega
    · exact ih l hl

/-- a coupling backwards -/
theorem coupling_reverse {m n : ℕ} {C : List (ℕ × ℕ)} (h : IsCoupling m n C) :
    IsCoupling m n (C.map fun l => (m - l.1, n - l.2)).reverse := by
  obtain ⟨h0, h1, h2⟩ := h
  refine ⟨?_, ?_, ?_⟩
  · rw [List.head?_reverse, List.getLast?_map, h1]
    simp
  · rw [List.getLast?_reverse, List.head?_map, h0]
    simp
  · rw [List.isChain_reverse, List.isChain_map]
    have hb := chain_bound h2 h1
    refine List.IsChain.imp_of_mem_imp ?_ h2
    intro a b ha hb' hs
    have g1 := hb a ha
    have g2 := hb b hb'
    obtain ⟨a1, a2⟩ := a
    obtain ⟨b1, b2⟩ := b
    simp only at g1 g2
    rcases hs with e | e | e <;> simp only [Prod.mk.injEq] at e <;> obtain ⟨rfl, rfl⟩ := e
    · exact Or.inl (Prod.ext (by show m - a1 = m - (a1 + 1) + 1; omega) rfl)
    · exact Or.inr (Or.inl (Prod.ext rfl (by show n - a2 = n - (a2 + 1) + 1; omega)))
    · exact Or.inr (Or.inr (Prod.ext (by show m - a1 = m - (a1 + 1) + 1; omega) (by show n - a2 = n - (a2 + 1) + 1; omega)))

theorem cost_reverse {dist : ℝ × ℝ → ℝ × ℝ → ℝ} {A B : List (ℝ × ℝ)} (hA : A ≠ []) (hB : B ≠ []) {w : ℝ} (h : CouplingCost dist A B w) :
    CouplingCost dist A.reverse B.reverse w := by
  obtain ⟨C, hC, hw⟩ := h
  have hb := chain_bound hC.2.2 hC.2.1
  have pA := List.length_pos_iff.2 hA
  have pB := List.length_pos_iff.2 hB
  refine ⟨(C.map fun l => (A.length - 1 - l.1, B.length - 1 - l.2)).reverse, by simpa using coupling_reverse hC, ?_⟩
  have : {u | LinkLength dist A.reverse B.reverse (C.map fun l => (A.length - 1 - l.1, B.length - 1 - l.2)).reverse u} =
      {u | LinkLength dist A B C u} := by
    ext u
    simp only [Set.mem_ofPred_eq, LinkLength, List.mem_reverse, List.mem_map]
    have hr : ∀ (X : List (ℝ × ℝ)) (i : ℕ), 0 < X.length → i ≤ X.length - 1 → X.reverse[X.length - 1 - i]? = X[i]? := by
      intro X i h0 hi
      rw [List.getElem?_reverse (by omega)]
      congr 1
      omega
    constructor
    · rintro ⟨l, ⟨k, hk, rfl⟩, a, b, ha, hb', rfl⟩
      refine ⟨k, hk, a, b, ?_, ?_, rfl⟩
      · rwa [hr A _ pA (hb k hk).1] at ha
      · rwa [hr B _ pB (hb k hk).2] at hb'
    · rintro ⟨k, hk, a, b, ha, hb', rfl⟩
      refine ⟨_, ⟨k, hk, rfl⟩, a, b, ?_, ?_, rfl⟩
      · rw [hr A _ pA (hb k hk).1]
        exact ha
      · rw [hr B _ pB (hb k hk).2]
        exact hb'
  rw [this]
  exact hw

theorem frechet_reverse {dist : ℝ × ℝ → ℝ × ℝ → ℝ} {A B : List (ℝ × ℝ)} {v : ℝ} (h : IsDiscreteFrechet dist A B v) :
    IsDiscreteFrechet dist A.reverse B.reverse v := by
  obtain ⟨hA, hB, h1, h2⟩ := h
  refine ⟨by simpa using hA, by simpa using hB, cost_reverse hA hB h1, fun w hw => ?_⟩
  have := cost_reverse (by simpa using hA) (by simpa using hB) hw
  rw [List.reverse_reverse, List.reverse_reverse] at this
  exact h2 this

/-- both curves in the opposite direction have the same distance, unless points are left out -/
theorem frdist_reverse (limit : ℕ) {A B : List (ℝ × ℝ)} (h : A.length ≤ 300 ∨ B.length ≤ 300) :
    frdist limit eucl A.reverse B.reverse = frdist limit eucl A B := by
  by_cases hA : A = []
  · subst hA
    rw [(C24_frdist_indexError_iff limit eucl eucl_symm _ _).2 (Or.inl (by simp)),
      (C24_frdist_indexError_iff limit eucl eucl_symm _ _).2 (Or.inl rfl)]
  by_cases hB : B = []
  · subst hB
    rw [(C24_frdist_indexError_iff limit eucl eucl_symm _ _).2 (Or.inr (by simp)),
      (C24_frdist_indexError_iff limit eucl eucl_symm _ _).2 (Or.inr rfl)]
  have hA' : A.reverse ≠ [] := by simpa using hA
  have hB' : B.reverse ≠ [] := by simpa using hB
  have h' : A.reverse.length ≤ 300 ∨ B.reverse.length ≤ 300 := by simpa using h
  by_cases hl : A.length + B.length - 2 < limit
  · obtain ⟨v, hv, h1⟩ := C24_frdist_is_discrete_frechet limit eucl eucl_symm A B hA hB h hl
    obtain ⟨v', hv', h2⟩ := C24_frdist_is_discrete_frechet limit eucl eucl_symm _ _ hA' hB' h' (by simpa using hl)
    rw [hv, hv']
    congr 1
    exact h2.2.2.unique (frechet_reverse h1).2.2
  · have pA := List.length_pos_iff.2 hA
    have pB := List.length_pos_iff.2 hB
    rw [(C27_recursionError_iff limit eucl eucl_symm A B hA hB).2 (by rw [subsample_id _ _ _ h]; show limit + 2 ≤ A.length + B.length; omega),
      (C27_recursionError_iff limit eucl eucl_symm _ _ hA' hB').2 (by rw [subsample_id _ _ _ h']; simp; omega)]

end Frechet

theorem similarity_reverse (limit : Nat) {A B : List (ℝ × ℝ)} (h : A.length ≤ 300 ∨ B.length ≤ 300) :
    similarity limit A.reverse B.reverse = similarity limit A B := by
  unfold similarity
  rw [arcLength_reverse, arcLength_reverse, Frechet.frdist_reverse limit h]

/-! ### the grid points of the contour -/

theorem mask_mirror (S : Fields) (pt : ℝ × ℝ) (r c : ℕ) : S.mirrored.pixels.mask (mirrorPt pt) r c = S.pixels.mask pt r c := by
  unfold Grid.mask nearPt Fields.pixels Fields.mirrored mirrorPt
  simp only [abs_neg]
  have : |-S.Y.get r c - -pt.2| = |S.Y.get r c - pt.2| := by rw [← abs_neg]; congr 1; ring
  rw [this]

theorem masked_mirror (S : Fields) (pt : ℝ × ℝ) :
    masked S.data.rows S.data.cols (S.mirrored.pixels.mask (mirrorPt pt)) = masked S.data.rows S.data.cols (S.pixels.mask pt) := by
  congr 1
  funext r c
  exact mask_mirror S pt r c

theorem dist2_mirror (S : Fields) (v : ℝ × ℝ) (p : ℕ × ℕ) : S.mirrored.pixels.dist2 (mirrorPt v) p = S.pixels.dist2 v p := by
  unfold Grid.dist2 Fields.pixels Fields.mirrored mirrorPt
  simp only
  ring

theorem nearest_mirror {S : Fields} {pt v : ℝ × ℝ} {p : ℕ × ℕ} (h : S.NearestPixel pt v p) :
    S.mirrored.NearestPixel (mirrorPt pt) (mirrorPt v) p := by
  obtain ⟨h1, h2⟩ := h
  unfold Fields.NearestPixel
  rw [show S.mirrored.data = S.data from rfl, masked_mirror]
  refine ⟨h1, fun q hq hne => ?_⟩
  rw [dist2_mirror, dist2_mirror]
  exact h2 q hq hne

theorem dataInContour_mirror {L : Libs} (hL : L.Nearest) {S : Fields} (hS : S.Rectilinear) {pts : List (ℝ × ℝ)} (hne : pts ≠ [])
    (hp : ∀ v ∈ pts, ∃ p, S.NearestPixel (meanPt pts) v p) :
    dataInContour L S.mirrored (pts.map mirrorPt) = dataInContour L S pts := by
  classical
  let f : ℝ × ℝ → ℕ × ℕ := fun v => if h : ∃ p, S.NearestPixel (meanPt pts) v p then h.choose else (0, 0)
  have hf : ∀ v ∈ pts, S.NearestPixel (meanPt pts) v (f v) := by
    intro v hv
    show S.NearestPixel (meanPt pts) v (dite _ _ _)
    rw [dif_pos (hp v hv)]
    exact (hp v hv).choose_spec
  have h1 := dataInContour_nearest hL hS hne hf
  have h2 := dataInContour_nearest (f := fun v => f (mirrorPt v)) hL (S.mirrored_rect hS) (pts := pts.map mirrorPt)
    (by simpa using hne) (by
      intro v hv
      obtain ⟨u, hu, rfl⟩ := List.mem_map.1 hv
      rw [meanPt_mirror, mirrorPt_mirrorPt]
      exact nearest_mirror (hf u hu))
  rw [h1, h2, List.map_map]
  simp only [Function.comp_def, mirrorPt_mirrorPt]
  rfl

end Trackeddy
