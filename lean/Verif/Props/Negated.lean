import Verif.Props.GaussFit

/-!
C105: elevations and depressions.
-/
namespace Trackeddy
open Spec
open Cntr (Vertex SameShape arrGrid)

/-- the data with reversed sign -/
def Fields.negated (S : Fields) : Fields := ⟨S.X, S.Y, ⟨S.data.rows, S.data.cols, fun r c => (S.data.get r c).map fun x => -x⟩⟩

/-! ### the example with descending longitudes -/

def mrqX : Cntr.NdArr ℚ := ⟨3, 4, fun _ c => [3, 2, 1, 0].getD c 0⟩
def mrqZ : Cntr.NdArr (Option ℚ) := ⟨exqZ.rows, exqZ.cols, fun r c => (exqZ.get r c).map fun x => -x⟩

/-- the example with the longitudes in descending order -/
def mrField : Fields := ⟨⟨3, 4, fun _ c => [3, 2, 1, 0].getD c 0⟩, exField.Y, exField.data⟩

/-- its contour -/
noncomputable def mrPts : List (ℝ × ℝ) := [(2, 1 / 2), (1, 1 / 2), (1 / 2, 1), (1, 3 / 2), (2, 3 / 2), (5 / 2, 1), (2, 1 / 2)]

theorem mrq_contours : Cntr.extractContours mrqX exqY exqZ (1 / 2) 50 Cntr.exMem =
    .ok ([[some (2, 1 / 2), some (1, 1 / 2), some (1 / 2, 1), some (1, 3 / 2), some (2, 3 / 2), some (5 / 2, 1),
      some (2, 1 / 2)]].map .points, [.codes [1, 2, 2, 2, 2, 2, 2]]) := by
  decide +kernel

theorem mrq_contours_neg : Cntr.extractContours mrqX exqY mrqZ (-(1 / 2)) 50 Cntr.exMem =
    .ok ([[some (2, 1 / 2), some (5 / 2, 1), some (2, 3 / 2), some (1, 3 / 2), some (1 / 2, 1), some (1, 1 / 2),
      some (2, 1 / 2)]].map .points, [.codes [1, 2, 2, 2, 2, 2, 2]]) := by
  decide +kernel

theorem mrField_cast : mrqX.cast (Rat.castHom ℝ) = mrField.X ∧ mrqZ.castO (Rat.castHom ℝ) = mrField.negated.data := by
  constructor
  · unfold Cntr.NdArr.cast mrqX mrField
    simp only [Cntr.NdArr.mk.injEq, true_and]
    funext _ c
    match c with
    | 0 | 1 | 2 | 3 => simp
    | c + 4 => simp
  · unfold Cntr.NdArr.castO mrqZ mrField Fields.negated exqZ exField
    simp only [Cntr.NdArr.mk.injEq, true_and]
    funext r c
    split_ifs <;> simp

theorem mrField_contours (L : Libs) : contourList L mrField (1 / 2) = [mrPts.map some] := by
  obtain ⟨cds, h⟩ := Cntr.extract_cast (Rat.castHom ℝ) Rat.cast_strictMono (X := mrqX) (Y := exqY) (Z := exqZ)
    (mem' := L.mem mrField.data (1 / 2)) (fuel' := 4 * (4 * 3) + 2)
    ⟨rfl, rfl, fun M hM => by cases hM⟩ (1 / 2) (by decide) (by decide) mrq_contours
  obtain ⟨-, hY, hZ⟩ := exField_cast
  have hl : Rat.castHom ℝ (1 / 2) = 1 / 2 := by norm_num
  rw [mrField_cast.1, hY, hZ, hl] at h
  unfold contourList contoursOf
  have hd : 4 * (mrField.data.cols * mrField.data.rows) + 2 = 4 * (4 * 3) + 2 := rfl
  rw [hd]
  have h' : Cntr.extractContours mrField.X mrField.Y mrField.data (1 / 2) (4 * (4 * 3) + 2) (L.mem mrField.data (1 / 2)) = _ := h
  rw [h']
  simp [vertsOf, mrPts]

theorem mrField_contours_neg (L : Libs) : contourList L mrField.negated (-(1 / 2)) = [mrPts.reverse.map some] := by
  obtain ⟨cds, h⟩ := Cntr.extract_cast (Rat.castHom ℝ) Rat.cast_strictMono (X := mrqX) (Y := exqY) (Z := mrqZ)
    (mem' := L.mem mrField.negated.data (-(1 / 2))) (fuel' := 4 * (4 * 3) + 2)
    ⟨rfl, rfl, fun M hM => by cases hM⟩ (-(1 / 2)) (by decide) (by decide) mrq_contours_neg
  obtain ⟨-, hY, -⟩ := exField_cast
  have hl : Rat.castHom ℝ (-(1 / 2)) = -(1 / 2) := by norm_num
  rw [mrField_cast.1, hY, mrField_cast.2, hl] at h
  unfold contourList contoursOf
  have hd : 4 * (mrField.negated.data.cols * mrField.negated.data.rows) + 2 = 4 * (4 * 3) + 2 := rfl
  rw [hd]
  have h' : Cntr.extractContours mrField.negated.X mrField.negated.Y mrField.negated.data (-(1 / 2)) (4 * (4 * 3) + 2)
    (L.mem mrField.negated.data (-(1 / 2))) = _ := h
  rw [h']
  simp [vertsOf, mrPts]

/-- a list with the vertices of the contour, in one of the two directions -/
def MrList (l : List (ℝ × ℝ)) : Prop := l = mrPts ∨ l = mrPts.reverse

theorem MrList.mem {l : List (ℝ × ℝ)} (h : MrList l) (p : ℝ × ℝ) : p ∈ l ↔ p ∈ mrPts := by
  rcases h with rfl | rfl <;> simp

theorem MrList.length {l : List (ℝ × ℝ)} (h : MrList l) : l.length = 7 := by
  rcases h with rfl | rfl <;> simp [mrPts]

theorem MrList.mean {l : List (ℝ × ℝ)} (h : MrList l) : meanPt l = (11 / 7, 13 / 14) := by
  rcases h with rfl | rfl
  · unfold meanPt mrPts
    simp only [List.map_cons, List.map_nil, List.sum_cons, List.sum_nil, List.length_cons, List.length_nil]
    norm_num
  · unfold meanPt mrPts
    simp only [List.reverse_cons, List.reverse_nil, List.nil_append, List.cons_append, List.map_cons, List.map_nil, List.sum_cons,
      List.sum_nil, List.length_cons, List.length_nil]
    norm_num

theorem MrList.generic {l : List (ℝ × ℝ)} (hl : MrList l) : Generic l := by
  intro A B C D E h
  rw [hl.mean] at h
  have h1 := h (1, 1 / 2) ((hl.mem _).2 (by simp [mrPts]))
  have h2 := h (2, 1 / 2) ((hl.mem _).2 (by simp [mrPts]))
  have h3 := h (5 / 2, 1) ((hl.mem _).2 (by simp [mrPts]))
  have h4 := h (2, 3 / 2) ((hl.mem _).2 (by simp [mrPts]))
  have h5 := h (1, 3 / 2) ((hl.mem _).2 (by simp [mrPts]))
  have h6 := h (1 / 2, 1) ((hl.mem _).2 (by simp [mrPts]))
  unfold form at h1 h2 h3 h4 h5 h6
  simp only at h1 h2 h3 h4 h5 h6
  norm_num at h1 h2 h3 h4 h5 h6
  refine ⟨?_, ?_, ?_, ?_, ?_⟩ <;> linarith

/-- the fitted conic -/
noncomputable def mrConic : Conic := ⟨49 / 48, 0, 147 / 48, 7 / 48, -7 / 16⟩

theorem MrList.fitConic {l : List (ℝ × ℝ)} (hl : MrList l) : fitConic l = .ok mrConic := by
  apply fitConic_exact
  · intro p hp
    rw [hl.mean]
    unfold OnConic form mrConic
    rw [hl.mem] at hp
    simp only [mrPts, List.mem_cons, List.not_mem_nil, or_false] at hp
    rcases hp with rfl | rfl | rfl | rfl | rfl | rfl | rfl <;> norm_num
  · exact (det_ne_zero_iff_generic _).2 hl.generic

theorem mrNotTilted : ¬ Tilted mrConic := by
  unfold Tilted mrConic
  norm_num

theorem mrRotate : rotateConic mrConic (11 / 7, 13 / 14) = (mrConic, (11 / 7, 13 / 14)) := by
  unfold rotateConic
  rw [if_neg mrNotTilted]

theorem mrF : conicF mrConic = 49 / 48 := by
  unfold conicF mrConic
  norm_num

theorem MrList.finite {l : List (ℝ × ℝ)} (hl : MrList l) : FiniteEllipse l := by
  intro q hq
  rw [hl.fitConic] at hq
  injection hq with hq
  subst hq
  rw [hl.mean, mrRotate]
  unfold mrConic
  norm_num

theorem mrEllPoint (t : ℝ) : ellipsePoint mrConic (11 / 7, 13 / 14) t = (3 / 2 + Real.cos t, 1 + 1 / Real.sqrt 3 * Real.sin t) := by
  unfold ellipsePoint
  simp only [mrRotate, mrF]
  have hphi : phiOf mrConic = 0 := by unfold phiOf; rw [if_neg mrNotTilted]
  rw [hphi]
  have h1 : |(49 / 48 : ℝ) / mrConic.a| = 1 := by unfold mrConic; norm_num
  have h2 : |(49 / 48 : ℝ) / mrConic.c| = 1 / 3 := by unfold mrConic; norm_num
  rw [h1, h2, Real.sqrt_one, Real.sqrt_div zero_le_one, Real.sqrt_one]
  simp only [Real.cos_zero, Real.sin_zero]
  unfold mrConic
  norm_num

theorem MrList.fit {l : List (ℝ × ℝ)} (hl : MrList l) : fitEllipse l = .ok (exCurve, (1, 1 / Real.sqrt 3, some 0)) := by
  unfold fitEllipse
  rw [hl.fitConic]
  simp only [bind, Except.bind, pure, Except.pure, hl.mean, hl.length, Except.ok.injEq, Prod.mk.injEq]
  have hs : Real.sqrt 3 * Real.sqrt 3 = 3 := Real.mul_self_sqrt (by norm_num)
  have hp : 0 < Real.sqrt 3 := Real.sqrt_pos.2 (by norm_num)
  have hax : semiAxes mrConic (11 / 7, 13 / 14) = (1, 1 / Real.sqrt 3) := by
    unfold semiAxes
    simp only [mrRotate, mrF]
    have h1 : |(49 / 48 : ℝ) / mrConic.a| = 1 := by unfold mrConic; norm_num
    have h2 : |(49 / 48 : ℝ) / mrConic.c| = 1 / 3 := by unfold mrConic; norm_num
    rw [h1, h2, Real.sqrt_one, Real.sqrt_div zero_le_one, Real.sqrt_one]
  refine ⟨?_, ?_, ?_, ?_⟩
  · have := exFit
    unfold fitEllipse at this
    rw [exFitConic] at this
    simp only [bind, Except.bind, pure, Except.pure, exMean, Except.ok.injEq, Prod.mk.injEq] at this
    rw [← this.1]
    have h7 : exPts.length = 7 := by simp [exPts]
    rw [h7]
    apply List.map_congr_left
    intro t _
    rw [mrEllPoint, exEllPoint]
  · rw [hax]
    exact max_eq_left (by rw [div_le_one hp]; nlinarith)
  · rw [hax]
    exact min_eq_right (by rw [div_le_one hp]; nlinarith)
  · unfold angleOf mrConic
    norm_num

/-! ### the area -/

theorem azim_quadrant {p : ℝ × ℝ} (h1 : 0 < p.1) (h2 : p.1 < 180) (h3 : 0 < p.2) (h4 : p.2 < 90) :
    0 ≤ (polar p).2 ∧ (polar p).2 < Real.pi / 2 := by
  have hpi := Real.pi_pos
  have a1 : 0 < deg2rad p.1 ∧ deg2rad p.1 < Real.pi := by
    unfold deg2rad
    constructor
    · positivity
    · nlinarith
  have a2 : 0 < deg2rad p.2 ∧ deg2rad p.2 < Real.pi / 2 := by
    unfold deg2rad
    constructor
    · positivity
    · nlinarith
  have hs1 : 0 < Real.sin (deg2rad p.1) := Real.sin_pos_of_pos_of_lt_pi a1.1 a1.2
  have hs2 : 0 < Real.sin (deg2rad p.2) := Real.sin_pos_of_pos_of_lt_pi a2.1 (by linarith)
  have hc : 0 < Real.cos (deg2rad p.2) := Real.cos_pos_of_mem_Ioo ⟨by linarith, a2.2⟩
  have hg : 0 ≤ arctan2 (Real.cos (deg2rad p.2) * Real.sin (deg2rad p.1)) (Real.sin (deg2rad p.2)) ∧
      arctan2 (Real.cos (deg2rad p.2) * Real.sin (deg2rad p.1)) (Real.sin (deg2rad p.2)) < Real.pi / 2 := by
    unfold arctan2
    refine ⟨Complex.arg_nonneg_iff.2 (by simp only; positivity), ?_⟩
    have := (Complex.abs_arg_lt_pi_div_two_iff (z := ⟨Real.sin (deg2rad p.2), Real.cos (deg2rad p.2) * Real.sin (deg2rad p.1)⟩)).2
      (Or.inl hs2)
    exact (abs_lt.1 this).2
  show 0 ≤ azim _ _ ∧ azim _ _ < _
  unfold azim
  have hm : ∀ x : ℝ, 0 ≤ x → x < Real.pi / 2 → mod2pi x = x := by
    intro x h0 hx
    unfold mod2pi
    have : ⌊x / (2 * Real.pi)⌋ = 0 := by
      rw [Int.floor_eq_zero_iff]
      constructor
      · positivity
      · rw [div_lt_one (by positivity)]
        linarith
    rw [this]
    simp
  rw [hm _ hg.1 hg.2]
  exact hg

theorem notOpposite_quadrant {p q : ℝ × ℝ} (hp : 0 < p.1 ∧ p.1 < 180 ∧ 0 < p.2 ∧ p.2 < 90)
    (hq : 0 < q.1 ∧ q.1 < 180 ∧ 0 < q.2 ∧ q.2 < 90) : NotOpposite p q := by
  intro k h
  have hpi := Real.pi_pos
  obtain ⟨p1, p2⟩ := azim_quadrant hp.1 hp.2.1 hp.2.2.1 hp.2.2.2
  obtain ⟨q1, q2⟩ := azim_quadrant hq.1 hq.2.1 hq.2.2.1 hq.2.2.2
  have h1 : -(Real.pi / 2) < Real.pi + 2 * Real.pi * k := by linarith
  have h2 : Real.pi + 2 * Real.pi * k < Real.pi / 2 := by linarith
  have h3 : (-1 : ℝ) < k := by nlinarith
  have h4 : (k : ℝ) < 0 := by nlinarith
  have h5 : (-1 : ℤ) < k := by exact_mod_cast h3
  have h6 : k < 0 := by exact_mod_cast h4
  omega

theorem mrChain : mrPts.IsChain NotOpposite := by
  unfold mrPts
  simp only [List.isChain_cons_cons, List.isChain_singleton, and_true]
  refine ⟨?_, ?_, ?_, ?_, ?_, ?_⟩ <;> apply notOpposite_quadrant <;> norm_num

theorem MrList.area {l : List (ℝ × ℝ)} (hl : MrList l) : areaPolygon l = areaPolygon exCurve := by
  have h1 : areaPolygon mrPts.reverse = areaPolygon exCurve := by
    have := C33_first_vertex (2, 1 / 2) (5 / 2, 1) [] [(2, 3 / 2), (1, 3 / 2), (1 / 2, 1), (1, 1 / 2)]
    simpa [mrPts, exCurve] using this
  rcases hl with rfl | rfl
  · rw [← C33_direction _ mrChain, h1]
  · exact h1

/-! ### the similarity with the ellipse -/

theorem eucl_half : eucl (2, 1 / 2) (5 / 2, 1) = Real.sqrt (1 / 2) := by
  unfold eucl
  norm_num

theorem mrDist_up : ∃ d, Frechet.frdist 100 eucl mrPts exCurve = .ok d ∧ 1 ≤ d := by
  obtain ⟨d, hd, -, -, ⟨C, ⟨h0, hlast, hch⟩, hmax⟩, -⟩ := Frechet.C24_frdist_is_discrete_frechet 100 eucl eucl_symm mrPts exCurve
    (by simp [mrPts]) (by simp [exCurve]) (Or.inl (by simp [mrPts])) (by simp [mrPts, exCurve])
  refine ⟨d, hd, ?_⟩
  have hl1 : mrPts.length - 1 = 6 := by simp [mrPts]
  have hl2 : exCurve.length - 1 = 6 := by simp [exCurve]
  rw [hl1, hl2] at hlast
  match C, h0, hlast, hch, hmax with
  | [], h0, _, _, _ => simp at h0
  | [a], h0, hlast, _, _ => simp at h0 hlast; rw [h0] at hlast; simp at hlast
  | a :: b :: C, h0, _, hch, hmax =>
    simp only [List.head?_cons, Option.some.injEq] at h0
    have hab := List.IsChain.rel hch
    rw [h0] at hab
    have hb : b ∈ a :: b :: C := by simp
    have sq1 : ∀ x y : ℝ × ℝ, 1 ≤ (x.1 - y.1) ^ 2 + (x.2 - y.2) ^ 2 → 1 ≤ eucl x y := by
      intro x y h
      unfold eucl
      rw [Real.one_le_sqrt]
      exact h
    rcases hab with rfl | rfl | rfl
    · refine le_trans (sq1 (1, 1 / 2) (5 / 2, 1) (by norm_num)) (hmax.2 ⟨_, hb, _, _, ?_, ?_, rfl⟩) <;> simp [mrPts, exCurve]
    · refine le_trans (sq1 (2, 1 / 2) (2, 3 / 2) (by norm_num)) (hmax.2 ⟨_, hb, _, _, ?_, ?_, rfl⟩) <;> simp [mrPts, exCurve]
    · refine le_trans (sq1 (1, 1 / 2) (2, 3 / 2) (by norm_num)) (hmax.2 ⟨_, hb, _, _, ?_, ?_, rfl⟩) <;> simp [mrPts, exCurve]

theorem mrDist_down : ∃ d, Frechet.frdist 100 eucl mrPts.reverse exCurve = .ok d ∧ 0 ≤ d ∧ d ≤ Real.sqrt (1 / 2) := by
  obtain ⟨d, hd, hA, hB, hmem, hleast⟩ := Frechet.C24_frdist_is_discrete_frechet 100 eucl eucl_symm mrPts.reverse exCurve
    (by simp [mrPts]) (by simp [exCurve]) (Or.inl (by simp [mrPts])) (by simp [mrPts, exCurve])
  refine ⟨d, hd, ?_, ?_⟩
  · exact Frechet.C25_frdist_nonneg 100 eucl eucl_symm eucl_nonneg _ _ _ hd
  · apply hleast
    refine ⟨[(0, 0), (1, 0), (2, 1), (3, 2), (4, 3), (5, 4), (6, 5), (6, 6)], ⟨rfl, by simp [mrPts, exCurve], ?_⟩, ?_⟩
    · simp [Frechet.Spec.Step]
    · constructor
      · exact ⟨(0, 0), by simp, (2, 1 / 2), (5 / 2, 1), by simp [mrPts], by simp [exCurve], eucl_half.symm⟩
      · rintro u ⟨l, hl, a, b, ha, hb, rfl⟩
        simp only [List.mem_cons, List.not_mem_nil, or_false] at hl
        rcases hl with rfl | rfl | rfl | rfl | rfl | rfl | rfl | rfl <;> simp [mrPts] at ha <;> simp [exCurve] at hb <;> subst ha hb <;>
          unfold eucl <;> apply Real.sqrt_le_sqrt <;> norm_num

theorem eucl_one_half {p q : ℝ × ℝ} (h : (p.1 - q.1) ^ 2 + (p.2 - q.2) ^ 2 = 1 / 2) : eucl p q = 1 / Real.sqrt 2 := by
  unfold eucl
  rw [h, Real.sqrt_div zero_le_one, Real.sqrt_one]

theorem eucl_one {p q : ℝ × ℝ} (h : (p.1 - q.1) ^ 2 + (p.2 - q.2) ^ 2 = 1) : eucl p q = 1 := by
  unfold eucl
  rw [h, Real.sqrt_one]

theorem sqrt2_bounds : (1414 / 1000 : ℝ) < Real.sqrt 2 ∧ Real.sqrt 2 < 1415 / 1000 ∧ Real.sqrt 2 * Real.sqrt 2 = 2 := by
  refine ⟨?_, ?_, Real.mul_self_sqrt (by norm_num)⟩
  · apply Real.lt_sqrt_of_sq_lt; norm_num
  · rw [Real.sqrt_lt' (by norm_num)]; norm_num

theorem mrLength_curve : arcLength exCurve = 2 + 2 * Real.sqrt 2 := by
  rw [C28_arcLength_sum]
  simp only [exCurve, List.tail_cons, List.zip_cons_cons, List.zip_nil_right, List.map_cons, List.map_nil, List.sum_cons, List.sum_nil]
  rw [eucl_one_half (p := (5 / 2, 1)) (by norm_num), eucl_one (p := (2, 3 / 2)) (by norm_num),
    eucl_one_half (p := (1, 3 / 2)) (by norm_num), eucl_one_half (p := (1 / 2, 1)) (by norm_num),
    eucl_one (p := (1, 1 / 2)) (by norm_num), eucl_one_half (p := (2, 1 / 2)) (by norm_num)]
  obtain ⟨h1, -, h2⟩ := sqrt2_bounds
  field_simp
  nlinarith

theorem MrList.arcLength {l : List (ℝ × ℝ)} (hl : MrList l) : arcLength l = 2 + 2 * Real.sqrt 2 := by
  obtain ⟨h1, -, h2⟩ := sqrt2_bounds
  rw [C28_arcLength_sum]
  rcases hl with rfl | rfl
  · simp only [mrPts, List.tail_cons, List.zip_cons_cons, List.zip_nil_right, List.map_cons, List.map_nil, List.sum_cons, List.sum_nil]
    rw [eucl_one (p := (2, 1 / 2)) (by norm_num), eucl_one_half (p := (1, 1 / 2)) (by norm_num),
      eucl_one_half (p := (1 / 2, 1)) (by norm_num), eucl_one (p := (1, 3 / 2)) (by norm_num),
      eucl_one_half (p := (2, 3 / 2)) (by norm_num), eucl_one_half (p := (5 / 2, 1)) (by norm_num)]
    field_simp
    nlinarith
  · simp only [mrPts, List.reverse_cons, List.reverse_nil, List.nil_append, List.cons_append, List.tail_cons, List.zip_cons_cons,
      List.zip_nil_right, List.map_cons, List.map_nil, List.sum_cons, List.sum_nil]
    rw [eucl_one_half (p := (2, 1 / 2)) (by norm_num), eucl_one_half (p := (5 / 2, 1)) (by norm_num),
      eucl_one (p := (2, 3 / 2)) (by norm_num), eucl_one_half (p := (1, 3 / 2)) (by norm_num),
      eucl_one_half (p := (1 / 2, 1)) (by norm_num), eucl_one (p := (1, 1 / 2)) (by norm_num)]
    field_simp
    nlinarith

theorem MrList.score {l : List (ℝ × ℝ)} (hl : MrList l) {d : ℝ} (hd : Frechet.frdist 100 eucl l exCurve = .ok d) :
    ∃ v, similarity 100 l exCurve = .ok (some v) ∧ |v - max (1 - d * Real.sqrt 2 / (2 + 2 * Real.sqrt 2)) 0| ≤ 1 / 20000 := by
  obtain ⟨h1, -, h2⟩ := sqrt2_bounds
  have hA : 0 < Trackeddy.arcLength l := by rw [hl.arcLength]; positivity
  have hB : 0 < Trackeddy.arcLength exCurve := by rw [mrLength_curve]; positivity
  have hs := similarity_eq (limit := 100) hA hB
  rw [hd] at hs
  obtain ⟨v, d', h3, h4, -, -, h5⟩ := C28_similarity_range 100 hA hB hs
  rw [hd] at h4
  injection h4 with h4
  subst h4
  rw [hl.arcLength, mrLength_curve, Real.sqrt_mul_self (by positivity)] at h5
  exact ⟨v, by rw [hs, ← h3]; rfl, h5⟩

theorem mrScore_up : ∃ v, similarity 100 mrPts exCurve = .ok (some v) ∧ v ≤ 3 / 4 := by
  obtain ⟨d, hd, h1⟩ := mrDist_up
  obtain ⟨v, hv, h2⟩ := MrList.score (Or.inl rfl) hd
  obtain ⟨b1, b2, b3⟩ := sqrt2_bounds
  refine ⟨v, hv, ?_⟩
  have h3 : (29 / 100 : ℝ) ≤ d * Real.sqrt 2 / (2 + 2 * Real.sqrt 2) := by
    rw [le_div_iff₀ (by positivity)]
    nlinarith
  have h4 : max (1 - d * Real.sqrt 2 / (2 + 2 * Real.sqrt 2)) 0 ≤ 71 / 100 := max_le (by linarith) (by norm_num)
  have := (abs_le.1 h2).2
  linarith

theorem mrScore_down : ∃ v, similarity 100 mrPts.reverse exCurve = .ok (some v) ∧ 3 / 4 < v := by
  obtain ⟨d, hd, h0, h1⟩ := mrDist_down
  obtain ⟨v, hv, h2⟩ := MrList.score (Or.inr rfl) hd
  obtain ⟨b1, b2, b3⟩ := sqrt2_bounds
  refine ⟨v, hv, ?_⟩
  have h1' : d * Real.sqrt 2 ≤ 1 := by
    have := mul_le_mul_of_nonneg_right h1 (Real.sqrt_nonneg 2)
    rwa [← Real.sqrt_mul (by norm_num), (by norm_num : (1 / 2 : ℝ) * 2 = 1), Real.sqrt_one] at this
  have h3 : d * Real.sqrt 2 / (2 + 2 * Real.sqrt 2) ≤ 22 / 100 := by
    rw [div_le_iff₀ (by positivity)]
    nlinarith
  have h4 : 78 / 100 ≤ max (1 - d * Real.sqrt 2 / (2 + 2 * Real.sqrt 2)) 0 := le_max_of_le_left (by linarith)
  have := (abs_le.1 h2).1
  linarith

/-! ### the data inside -/

open Classical in
/-- a correct search for nearest grid points, with a choice among equally near ones -/
noncomputable def mrBallTree (g : Grid ℝ) (pt v : ℝ × ℝ) : Nat :=
  if g.BallTreeAnswer pt v (if v.1 < 3 / 2 then 6 else 5) then (if v.1 < 3 / 2 then 6 else 5)
  else if h : ∃ k, g.BallTreeAnswer pt v k then h.choose else 0

noncomputable def mrLibs : Libs := ⟨100, fun _ _ => Cntr.exMem, mrBallTree, fun _ => .error .valueError⟩

theorem mrLibs_nearest : mrLibs.Nearest := by
  intro g pt v h
  show g.BallTreeAnswer pt v (mrBallTree g pt v)
  unfold mrBallTree
  by_cases h1 : g.BallTreeAnswer pt v (if v.1 < 3 / 2 then 6 else 5)
  · rw [if_pos h1]
    exact h1
  · rw [if_neg h1, dif_pos (exists_answer_of_ne g pt v h)]
    exact (exists_answer_of_ne g pt v h).choose_spec

theorem mrAxis4 {c : Nat} (h : c < 4) : ([3, 2, 1, 0] : List ℝ).getD c 0 = 3 - c := by
  match c with
  | 0 | 1 | 2 | 3 => norm_num
  | c + 4 => omega

theorem mrField_rect : mrField.Rectilinear := by
  refine ⟨fun c => [3, 2, 1, 0].getD c 0, fun r => [0, 1, 2].getD r 0, fun _ _ => rfl, fun _ _ => rfl, Or.inr ?_, Or.inl ?_⟩
  · intro i j h hj
    have hj : j < 4 := hj
    show ([3, 2, 1, 0] : List ℝ).getD j 0 ≤ ([3, 2, 1, 0] : List ℝ).getD i 0
    rw [mrAxis4 hj, mrAxis4 (by omega)]
    have : (i : ℝ) ≤ j := Nat.cast_le.2 h
    linarith
  · intro i j h hj
    have hj : j < 3 := hj
    show ([0, 1, 2] : List ℝ).getD i 0 ≤ ([0, 1, 2] : List ℝ).getD j 0
    rw [exAxis3 hj, exAxis3 (by omega)]
    exact Nat.cast_le.2 h

def mrGrid : Grid ℝ := ⟨3, 4, fun _ c => [3, 2, 1, 0].getD c 0, fun r _ => [0, 1, 2].getD r 0⟩

theorem mrMask : ∀ r < 3, ∀ c < 4, mrGrid.mask (11 / 7, 13 / 14) r c = true := by
  intro r hr c hc
  unfold Grid.mask nearPt mrGrid
  simp only [Bool.and_eq_true, decide_eq_true_eq, mrAxis4 hc, exAxis3 hr]
  have h1 : (r : ℝ) ≤ 2 := by exact_mod_cast Nat.le_of_lt_succ hr
  have h2 : (c : ℝ) ≤ 3 := by exact_mod_cast Nat.le_of_lt_succ hc
  have h3 : (0 : ℝ) ≤ r := by positivity
  have h4 : (0 : ℝ) ≤ c := by positivity
  rw [abs_of_pos (by norm_num : (0 : ℝ) < 11 / 7), abs_of_pos (by norm_num : (0 : ℝ) < 13 / 14)]
  constructor <;> rw [abs_le] <;> constructor <;> linarith

theorem mrMasked : masked 3 4 (mrGrid.mask (11 / 7, 13 / 14)) =
    [(0, 0), (0, 1), (0, 2), (0, 3), (1, 0), (1, 1), (1, 2), (1, 3), (2, 0), (2, 1), (2, 2), (2, 3)] := by
  have e : masked 3 4 (mrGrid.mask (11 / 7, 13 / 14)) = masked 3 4 (fun _ _ => true) := by
    unfold masked
    apply List.flatMap_congr
    intro r hr
    congr 1
    apply List.filter_congr
    intro c hc
    exact mrMask r (List.mem_range.1 hr) c (List.mem_range.1 hc)
  rw [e]
  decide

theorem mrIndex {v : ℝ × ℝ} (hv : v ∈ mrPts) :
    mrBallTree mrGrid (11 / 7, 13 / 14) v = if v.1 < 3 / 2 then 6 else 5 := by
  unfold mrBallTree
  rw [if_pos]
  unfold Grid.BallTreeAnswer
  simp only [mrPts, List.mem_cons, List.not_mem_nil, or_false] at hv
  show ∃ p, (masked 3 4 (mrGrid.mask (11 / 7, 13 / 14)))[_]? = some p ∧
    ∀ q ∈ masked 3 4 (mrGrid.mask (11 / 7, 13 / 14)), mrGrid.dist2 v p ≤ mrGrid.dist2 v q
  rw [mrMasked]
  unfold Grid.dist2 mrGrid
  rcases hv with rfl | rfl | rfl | rfl | rfl | rfl | rfl
  all_goals norm_num

theorem mrCode : ∀ v ∈ mrPts, codeIndex 3 4 (mrGrid.mask (11 / 7, 13 / 14)) (mrBallTree mrGrid (11 / 7, 13 / 14) v) =
    .ok (if v.1 < 3 / 2 then (1, 2) else (1, 1)) := by
  intro v hv
  have e : ∀ k, codeIndex 3 4 (mrGrid.mask (11 / 7, 13 / 14)) k = codeIndex 3 4 (fun _ _ => true) k := by
    intro k
    have h1 : colSums 3 4 (mrGrid.mask (11 / 7, 13 / 14)) = colSums 3 4 fun _ _ => true := by
      unfold colSums
      apply List.map_congr_left
      intro c hc
      apply List.countP_congr
      intro r hr
      rw [mrMask r (List.mem_range.1 hr) c (List.mem_range.1 hc)]
    have h2 : rowSums 3 4 (mrGrid.mask (11 / 7, 13 / 14)) = rowSums 3 4 fun _ _ => true := by
      unfold rowSums
      apply List.map_congr_left
      intro r hr
      apply List.countP_congr
      intro c hc
      rw [mrMask r (List.mem_range.1 hr) c (List.mem_range.1 hc)]
    unfold codeIndex
    rw [h1, h2]
  rw [e, mrIndex hv]
  by_cases h : v.1 < 3 / 2
  · rw [if_pos h, if_pos h]
    decide
  · rw [if_neg h, if_neg h]
    decide

theorem mrData {e : Extremum ℝ} (he : maskDataInContour 3 4 exWindow.rel.toFinset (cut exWindow mrField.data).get = .ok e) :
    dataInContour mrLibs mrField mrPts = .ok ⟨exWindow, e⟩ := by
  have hgrid : (⟨mrField.data.rows, mrField.data.cols, mrField.X.get, mrField.Y.get⟩ : Grid ℝ) = mrGrid := rfl
  unfold dataInContour
  rw [hgrid, MrList.mean (Or.inl rfl)]
  have hm : masked mrGrid.ny mrGrid.nx (mrGrid.mask (11 / 7, 13 / 14)) ≠ [] := by
    show masked 3 4 (mrGrid.mask (11 / 7, 13 / 14)) ≠ []
    rw [mrMasked]
    simp
  have hmap : (mrPts.mapM fun v => codeIndex mrGrid.ny mrGrid.nx (mrGrid.mask (11 / 7, 13 / 14))
      (mrLibs.ballTree mrGrid (11 / 7, 13 / 14) v)) = .ok [(1, 1), (1, 2), (1, 2), (1, 2), (1, 1), (1, 1), (1, 1)] := by
    rw [mapM_ok (g := fun v : ℝ × ℝ => if v.1 < 3 / 2 then ((1 : Nat), (2 : Nat)) else (1, 1))]
    · unfold mrPts
      norm_num
    · exact fun v hv => mrCode v hv
  simp only [hm, if_false, bind, Except.bind, pure, Except.pure, hmap]
  simp only [List.map_cons, List.map_nil]
  have hw : getWindow mrField.data.rows mrField.data.cols (((1 : Nat) : Int), ((1 : Nat) : Int))
      [(((1 : Nat) : Int), ((2 : Nat) : Int)), (((1 : Nat) : Int), ((2 : Nat) : Int)), (((1 : Nat) : Int), ((2 : Nat) : Int)),
      (((1 : Nat) : Int), ((1 : Nat) : Int)), (((1 : Nat) : Int), ((1 : Nat) : Int)), (((1 : Nat) : Int), ((1 : Nat) : Int))] .auto =
      exWindow := exGetWindow
  rw [hw, if_pos (by
    show (exWindow.rel.all fun q => decide (0 ≤ q.1 ∧ q.1 < ((3 : Nat) : Int) ∧ 0 ≤ q.2 ∧ q.2 < ((4 : Nat) : Int))) = true
    decide)]
  have he' : maskDataInContour (cut exWindow mrField.data).rows (cut exWindow mrField.data).cols exWindow.rel.toFinset
    (cut exWindow mrField.data).get = .ok e := he
  rw [he']

/-! ### the two outcomes -/

noncomputable def mrCriteria : Criteria ℝ :=
  ⟨3 / 4, 1, 0, Real.sqrt (areaPolygon exCurve / Real.pi) / approxRD (13 / 14), true⟩

theorem MrList.skips {l : List (ℝ × ℝ)} (hl : MrList l) : Cntr.skipsContour (l.map some) = false := by
  have h : Cntr.skipsContour (l.map some) =
      (Cntr.closeNan (some ((11 : ℝ) / 7)) (some 2) && Cntr.closeNan (some ((13 : ℝ) / 14)) (some (1 / 2))) := by
    rcases hl with rfl | rfl
    · unfold Cntr.skipsContour mrPts Cntr.meanOf
      simp only [List.map_cons, List.map_nil, Option.map_some, List.all_cons, List.all_nil, Option.isSome_some, Bool.and_true,
        if_true, Option.getD_some, List.sum_cons, List.sum_nil, List.length_cons, List.length_nil]
      norm_num
    · unfold Cntr.skipsContour mrPts Cntr.meanOf
      simp only [List.reverse_cons, List.reverse_nil, List.nil_append, List.cons_append, List.map_cons, List.map_nil,
        Option.map_some, List.all_cons, List.all_nil, Option.isSome_some, Bool.and_true,
        if_true, Option.getD_some, List.sum_cons, List.sum_nil, List.length_cons, List.length_nil]
      norm_num
  rw [h]
  unfold Cntr.closeNan
  norm_num [abs_of_pos]

theorem mrEccen : ¬ gtNan (eccentricity 1 (1 / Real.sqrt 3)) (1 : ℝ) := by
  rintro ⟨u, hu, h1⟩
  unfold eccentricity at hu
  split at hu
  · cases hu
  · split at hu
    · cases hu
    · injection hu with hu
      have h2 : u ≤ 1 := by
        rw [← hu]
        apply Real.sqrt_le_one.2
        have : 0 ≤ |1 / Real.sqrt 3| ^ 2 / |(1 : ℝ)| ^ 2 := by positivity
        linarith
      exact absurd h1 (not_lt.2 h2)

theorem MrList.size {l : List (ℝ × ℝ)} (hl : MrList l) :
    Real.sqrt (areaPolygon l / Real.pi) ≤ mrCriteria.maxArea * approxRD (meanPt l).2 := by
  have hrd : 0 < approxRD (13 / 14) := by unfold approxRD; positivity
  rw [hl.mean, hl.area]
  show _ ≤ Real.sqrt (areaPolygon exCurve / Real.pi) / approxRD (13 / 14) * approxRD (13 / 14)
  rw [div_mul_cancel₀ _ hrd.ne']

theorem MrList.areas {l : List (ℝ × ℝ)} (hl : MrList l) {f : ℝ} (hf : 3 / 4 ≤ f) :
    isclose (areaPolygon l) (areaPolygon exCurve) (1 / 10 * f) = true := by
  rw [hl.area]
  unfold isclose
  simp only [sub_self, abs_zero, decide_eq_true_eq]
  have : (0 : ℝ) ≤ f := by linarith
  positivity

theorem mrStored {f : ℝ} (hf : 3 / 4 ≤ f) :
    ∃ e, examine { mrCriteria with ellipseFit := f } mrLibs mrField (1 / 2) (mrPts.map some) = .ok (.stored e) := by
  obtain ⟨v, hv, hv1⟩ := mrScore_up
  obtain ⟨x, h1, h2, h3⟩ := exValue (data := (cut exWindow mrField.data).get) (u := 1) (w := 0) (by norm_num) (by
    intro r hr c hc
    simp only [cut, exWindow, mrField, exField, Int.toNat_zero, Nat.zero_add, hr, hc, and_self, if_true])
  have hM : MrList mrPts := Or.inl rfl
  refine ⟨⟨mrPts, 1 / 2, areaPolygon mrPts, Real.sqrt (areaPolygon mrPts / Real.pi), (1, 1 / Real.sqrt 3, some 0), some v,
    eccentricity 1 (1 / Real.sqrt 3), meanPt mrPts, x.sign, maximaOf mrField ⟨exWindow, x⟩, none, some 0⟩, ?_⟩
  rw [examine_stored]
  refine ⟨hM.skips, rfl, exCurve, ⟨exWindow, x⟩, ?_⟩
  refine ⟨rfl, rfl, rfl, rfl, rfl, hM.size, hM.fit, hM.finite, hM.areas hf, rfl, mrEccen, ?_, ?_, mrData h1, rfl, rfl,
    by rw [h2]; exact one_ne_zero, Or.inl ⟨rfl, rfl, rfl⟩⟩
  · show liftFr (similarity 100 mrPts exCurve) = .ok (some v)
    rw [hv]
    rfl
  · rintro ⟨u, hu, h1⟩
    injection hu with hu
    subst hu
    exact absurd h1 (not_lt.2 (hv1.trans hf))

theorem mrDiscarded : examine mrCriteria mrLibs mrField.negated (-(1 / 2)) (mrPts.reverse.map some) = .ok (.discarded .similarity) := by
  classical
  obtain ⟨v, hv, hv1⟩ := mrScore_down
  have hM : MrList mrPts.reverse := Or.inr rfl
  unfold examine
  rw [hM.skips]
  have hal : allPoints (mrPts.reverse.map some) = some mrPts.reverse := by simp [mrPts, allPoints]
  simp only [Bool.false_eq_true, if_false, hal]
  unfold examinePoints
  have hsim : liftFr (similarity mrLibs.limit mrPts.reverse exCurve) = .ok (some v) := by
    show liftFr (similarity 100 mrPts.reverse exCurve) = .ok (some v)
    rw [hv]
    rfl
  have g1 : ¬ Real.sqrt (areaPolygon mrPts.reverse / Real.pi) > mrCriteria.maxArea * approxRD (meanPt mrPts.reverse).2 :=
    not_lt.2 hM.size
  have g2 : ¬¬ (FiniteEllipse mrPts.reverse ∧
      isclose (areaPolygon mrPts.reverse) (areaPolygon exCurve) (1 / 10 * mrCriteria.ellipseFit) = true) := not_not.2 ⟨hM.finite, hM.areas le_rfl⟩
  have g3 : ¬ gtNan (eccentricity 1 (1 / Real.sqrt 3)) mrCriteria.eccen := mrEccen
  have g4 : gtNan (some v) mrCriteria.ellipseFit := ⟨v, rfl, hv1⟩
  simp only [bind, Except.bind, pure, Except.pure]
  rw [if_neg g1, hM.fit]
  simp only
  rw [if_neg g2, if_neg g3, hsim]
  simp only
  rw [if_pos g4]

/-! ### the two runs -/

/-- a run on one snapshot with one contour -/
theorem run_single {nn : List (ℝ × ℝ) → ℝ × ℝ → Nat} (hnn : IsNN haversine nn) {c : Criteria ℝ} {L : Libs} {S : Fields} {l : ℝ}
    (hl0 : l ≠ 0) (hS : S.Ok) {vs : List (Vertex ℝ)} (hcl : contourList L S l = [vs]) {o : Outcome}
    (he : examine c L S l vs = .ok o) :
    ∃ s : LoopState Cols, (trackFields (colsEnv true nn) c L (fun _ => S) [l] 0 none 1 1 true Regs.empty).2 = .ok s ∧
      (s.table.rows ≠ [] ↔ ∃ e, o = .stored e) := by
  have hnn' : IsNN (colsEnv true nn).dist (colsEnv true nn).nn := hnn
  have hl : ([l] : List ℝ).filter (· ≠ 0) = [l] := by simp [hl0]
  have hv : ∀ m ∈ levelMeasures c L S l, ∃ v, verdict c m = .ok v := by
    intro m hm
    unfold levelMeasures at hm
    rw [hcl] at hm
    simp only [List.map_cons, List.map_nil, List.mem_singleton] at hm
    subst hm
    rw [verdict_measures, he]
    exact ⟨_, rfl⟩
  have hp : ∃ tb, pureLevel c (levelMeasures c L S l) = .ok tb := by
    unfold pureLevel
    rw [detectOneLevel_ok _ _ hv]
    exact ⟨_, rfl⟩
  obtain ⟨tb, hp⟩ := hp
  have hC : ∃ C, pureSnapshot (colsEnv true nn) c L S [l] = .ok C := by
    unfold pureSnapshot detectSnapshot
    rw [hl]
    simp only [List.foldlM_cons, List.foldlM_nil, levelStep, bind, Except.bind, pure, Except.pure, hp]
    by_cases h0 : tb.rows = []
    · simp [h0]
    · simp [h0]
  obtain ⟨C, hC⟩ := hC
  have hne : C.rows ≠ [] ↔ ∃ e, o = .stored e := by
    rw [snapshot_one_level hS hl hC, hcl]
    cases o with
    | stored e =>
      have hst : storedEddy c L S l vs = some e := by unfold storedEddy; rw [he]
      simp only [List.filterMap_cons, List.filterMap_nil, hst, List.map_cons, List.map_nil]
      have hc : e.contour ≠ [] := by
        obtain ⟨_, h1, _⟩ := examine_stored.1 he
        intro h0
        rw [h0] at h1
        exact contourList_ne L hS l vs (by rw [hcl]; simp) h1
      have hr : e.rows ≠ [] := by
        unfold EddyObj.rows
        simpa [EddyObj.data] using hc
      refine ⟨fun _ => ⟨e, rfl⟩, fun _ => ?_⟩
      unfold snapRows eddyRows
      simpa using hr
    | skipped =>
      have hst : storedEddy c L S l vs = none := by unfold storedEddy; rw [he]
      simp [hst, snapRows]
    | discarded r =>
      have hst : storedEddy c L S l vs = none := by unfold storedEddy; rw [he]
      simp [hst, snapRows]
  have hsnap : ∀ (t : Int) C, (fun _ : Int => pureSnapshot (colsEnv true nn) c L S [l]) t = .ok C → SnapRows C.rows := by
    intro t C hC
    have := detectSnapshot_inv (fun l tb htb => pureLevel_level htb) _ hC
    exact ⟨this.first, this.contig⟩
  have hts : trackTimes 0 none 1 = [0] := by decide
  have hrun := (run_ok_iff hnn' (tf := none) (ntimes := 1) (snap := fun _ => pureSnapshot (colsEnv true nn) c L S [l]) [0]
    (by simp) (fun _ _ => ⟨C, hC⟩) (fun t _ => rowsAt_snapRows hsnap t)).2 (by
      intro t ht _ hu
      obtain ⟨u, hu, hlt, _⟩ := hu
      rw [List.mem_singleton] at ht hu
      omega)
  obtain ⟨s, hs⟩ := hrun
  have hs' : timeTracking (colsEnv true nn) (fun _ => pureSnapshot (colsEnv true nn) c L S [l]) 0 none 1 1 true = .ok s := by
    unfold timeTracking
    rw [hts]
    exact hs
  refine ⟨s, ?_, ?_⟩
  · rw [(trackFields_pure _ _ _ (fun _ _ => hS) ⟨rfl, rfl⟩).1]
    exact hs'
  · rw [← hne]
    obtain ⟨g, hg⟩ := C03_no_detection_lost_or_invented hnn' hsnap hs'
    have hproc : s.processed = trackTimes 0 none 1 :=
      (run_inv hnn' _ (pairwise_trackTimes 0 none 1) (fun t _ => rowsAt_snapRows hsnap t) hs').proc
    rw [hproc, hts] at hg
    simp only [List.flatMap_cons, List.flatMap_nil, List.append_nil, tagged, rowsAt, hC] at hg
    constructor
    · intro h0 h1
      rw [h1] at hg
      exact h0 (by simpa using hg.eq_nil)
    · intro h0 h1
      rw [h1] at hg
      exact h0 (List.map_eq_nil_iff.1 hg.symm.eq_nil)

/-- **C105 refuted**: a map in which the run at a level returns an eddy, while the run on the map with reversed sign at
the opposite level returns none, although the contours are the same lines in the other direction. (The contour is traversed in the other direction, and the similarity with the fitted ellipse, whose
points have a fixed direction and start, is another one.) -/
theorem C105_refuted : ∃ (E : Env Cols ℝ (ℝ × ℝ)) (c : Criteria ℝ) (L : Libs) (S : Fields) (l : ℝ) (s s' : LoopState Cols),
    IsNN E.dist E.nn ∧ L.Nearest ∧ S.Ok ∧ S.Rectilinear ∧ c.skipGauss = true ∧
    (trackFields E c L (fun _ => S) [l] 0 none 1 1 true Regs.empty).2 = .ok s ∧ s.table.rows ≠ [] ∧
    (trackFields E c L (fun _ => S.negated) [-l] 0 none 1 1 true Regs.empty).2 = .ok s' ∧ s'.table.rows = [] ∧
    contourList L S.negated (-l) = (contourList L S l).map List.reverse := by
  obtain ⟨nn, hnn⟩ := exists_isNN haversine
  obtain ⟨e, he⟩ := mrStored le_rfl
  have hok : mrField.Ok := ⟨rfl, rfl, fun M hM => by cases hM⟩
  have hok' : mrField.negated.Ok := ⟨rfl, rfl, fun M hM => by cases hM⟩
  obtain ⟨s, h1, h2⟩ := run_single hnn (by norm_num) hok (mrField_contours mrLibs) he
  obtain ⟨s', h3, h4⟩ := run_single hnn (by norm_num) hok' (mrField_contours_neg mrLibs) mrDiscarded
  refine ⟨colsEnv true nn, mrCriteria, mrLibs, mrField, 1 / 2, s, s', hnn, mrLibs_nearest, hok, mrField_rect, rfl, h1, h2.2 ⟨e, rfl⟩, h3, ?_,
    by rw [mrField_contours_neg, mrField_contours]; simp⟩
  by_contra h
  obtain ⟨_, h⟩ := h4.1 h
  cases h

/-! ### what does not depend on the sign -/

theorem subsample_lengths {P : Type} (k : Nat) (p q p' q' : List P) (hp : p.length = p'.length) (hq : q.length = q'.length) :
    (Frechet.subsample k p q).1.length = (Frechet.subsample k p' q').1.length ∧
      (Frechet.subsample k p q).2.length = (Frechet.subsample k p' q').2.length := by
  induction h : p.length using Nat.strongRecOn generalizing k p q p' q' with
  | ind n ih =>
    unfold Frechet.subsample
    by_cases hc : 300 < p.length ∧ 300 < q.length
    · rw [if_pos hc, if_pos (by rw [← hp, ← hq]; exact hc)]
      exact ih _ (h ▸ Frechet.slice0_length_lt k p (by omega)) _ _ _ _ _ (by rw [Frechet.slice0_length, Frechet.slice0_length, hp])
        (by rw [Frechet.slice0_length, Frechet.slice0_length, hq]) rfl
    · rw [if_neg hc, if_neg (by rw [← hp, ← hq]; exact hc)]
      exact ⟨hp, hq⟩

/-- whether the distance of two curves is computed depends on their lengths only -/
theorem frdist_lengths (limit : Nat) (A A' B : List (ℝ × ℝ)) (h : A.length = A'.length) :
    (∀ e, Frechet.frdist limit eucl A B = .error e → Frechet.frdist limit eucl A' B = .error e) := by
  intro e he
  rw [Frechet.frdist_eq_val] at he ⊢
  have hl := subsample_lengths 0 (if A.length ≥ B.length then A else B) (if A.length ≥ B.length then B else A)
    (if A'.length ≥ B.length then A' else B) (if A'.length ≥ B.length then B else A')
    (by rw [h]; split_ifs <;> first | exact h | rfl) (by rw [h]; split_ifs <;> first | exact h | rfl)
  simp only [← List.length_eq_zero_iff, hl.1, hl.2] at he ⊢
  split_ifs at he ⊢ <;> first | exact he | cases he

theorem similarity_lengths (limit : Nat) (A A' B : List (ℝ × ℝ)) (h : A.length = A'.length) :
    (∀ e, liftFr (similarity limit A B) = .error e → liftFr (similarity limit A' B) = .error e) := by
  intro e he
  unfold similarity at he ⊢
  cases hd : Frechet.frdist limit eucl A B with
  | error f =>
    rw [hd] at he
    rw [frdist_lengths limit A A' B h f hd]
    exact he
  | ok d =>
    rw [hd] at he
    simp only [bind, Except.bind, pure, Except.pure] at he
    split at he <;> cases he

theorem mapM_valueError {α β : Type} {f : α → Except PyErr β} (hf : ∀ a e, f a = .error e → e = .valueError) {l : List α}
    (h : ∃ a ∈ l, ∀ b, f a ≠ .ok b) : l.mapM f = .error .valueError := by
  induction l with
  | nil => obtain ⟨a, ha, _⟩ := h; cases ha
  | cons a l ih =>
    rw [List.mapM_cons]
    cases ha : f a with
    | error e => rw [hf a e ha]; rfl
    | ok b =>
      have : l.mapM f = .error .valueError := by
        apply ih
        obtain ⟨x, hx, h2⟩ := h
        rcases List.mem_cons.1 hx with rfl | hx
        · exact absurd ha (h2 b)
        · exact ⟨x, hx, h2⟩
      simp only [bind, Except.bind, this]

theorem mapM_reverse {α β : Type} [Inhabited β] {f : α → Except PyErr β} (hf : ∀ a e, f a = .error e → e = .valueError) (l : List α) :
    l.reverse.mapM f = (l.mapM f).map List.reverse := by
  by_cases h : ∃ a ∈ l, ∀ b, f a ≠ .ok b
  · rw [mapM_valueError hf h, mapM_valueError hf (by simpa using h)]
    rfl
  · push Not at h
    have hg : ∀ a ∈ l, f a = .ok (match f a with | .ok b => b | .error _ => default) := by
      intro a ha
      obtain ⟨b, hb⟩ := h a ha
      rw [hb]
    rw [mapM_ok hg, mapM_ok (l := l.reverse) (fun a ha => hg a (List.mem_reverse.1 ha))]
    simp [Except.map]

theorem maxI_mem_congr {p q : Int} {l m : List Int} (h : ∀ v, v ∈ p :: l ↔ v ∈ q :: m) : maxI p l = maxI q m :=
  le_antisymm ((maxI_spec q m).1 _ ((h _).1 (maxI_spec p l).2)) ((maxI_spec p l).1 _ ((h _).2 (maxI_spec q m).2))

theorem minI_mem_congr {p q : Int} {l m : List Int} (h : ∀ v, v ∈ p :: l ↔ v ∈ q :: m) : minI p l = minI q m :=
  le_antisymm ((minI_spec p l).1 _ ((h _).2 (minI_spec q m).2)) ((minI_spec q m).1 _ ((h _).1 (minI_spec p l).2))

/-- the window of the reversed contour -/
def Window.reversed (w : Window) : Window := { w with rel := w.rel.reverse }

theorem getWindow_reverse (s0 s1 : Int) {p q : Int × Int} {ps qs : List (Int × Int)} (h : q :: qs = (p :: ps).reverse) (t : Threshold) :
    getWindow s0 s1 q qs t = (getWindow s0 s1 p ps t).reversed := by
  have hm : ∀ (f : Int × Int → Int) v, v ∈ f q :: qs.map f ↔ v ∈ f p :: ps.map f := by
    intro f v
    rw [← List.map_cons, ← List.map_cons, h, List.map_reverse, List.mem_reverse]
  unfold getWindow Window.reversed
  rw [maxI_mem_congr (hm Prod.fst), maxI_mem_congr (hm Prod.snd), minI_mem_congr (hm Prod.fst), minI_mem_congr (hm Prod.snd), h]
  simp only [List.map_reverse]

theorem dataInContour_negated (L : Libs) (S : Fields) (pts : List (ℝ × ℝ)) (hmean : meanPt pts.reverse = meanPt pts) :
    dataInContour L S.negated pts.reverse = (dataInContour L S pts).map fun i =>
      ⟨i.window.reversed, ⟨-i.ext.sign, -i.ext.maxima, i.ext.row, i.ext.col⟩⟩ := by
  unfold dataInContour
  rw [hmean]
  have hX : S.negated.X = S.X := rfl
  have hY : S.negated.Y = S.Y := rfl
  have hr : S.negated.data.rows = S.data.rows := rfl
  have hc : S.negated.data.cols = S.data.cols := rfl
  simp only [hX, hY, hr, hc]
  set g : Grid ℝ := ⟨S.data.rows, S.data.cols, S.X.get, S.Y.get⟩
  by_cases hk : masked S.data.rows S.data.cols (g.mask (meanPt pts)) = []
  · simp only [hk, if_true]
    rfl
  simp only [hk, if_false, bind, Except.bind, pure, Except.pure]
  rw [mapM_reverse (fun v e he => by
    unfold codeIndex at he
    simp only at he
    split_ifs at he
    injection he with he
    exact he.symm)]
  cases pts.mapM fun v => codeIndex S.data.rows S.data.cols (g.mask (meanPt pts)) (L.ballTree g (meanPt pts) v) with
  | error e => rfl
  | ok ind =>
    simp only [Except.map, List.map_reverse]
    generalize ind.map (fun p : ℕ × ℕ => ((p.1 : Int), (p.2 : Int))) = l
    cases l with
    | nil => rfl
    | cons p ps =>
      cases hrev : (p :: ps).reverse with
      | nil => simp at hrev
      | cons q qs =>
        simp only
        rw [getWindow_reverse _ _ hrev.symm]
        set w := getWindow S.data.rows S.data.cols p ps .auto
        have hcut : cut w.reversed S.negated.data = ⟨(cut w S.data).rows, (cut w S.data).cols,
          fun r c => ((cut w S.data).get r c).map fun x => -x⟩ := rfl
        have hrel : w.reversed.rel = w.rel.reverse := rfl
        rw [hcut, hrel]
        simp only [List.all_reverse, List.toFinset_reverse]
        split_ifs with hall
        · have hneg := C90_negative (cut w S.data).get (cut w S.data).rows (cut w S.data).cols
            fun r c => decide (((r : Int), (c : Int)) ∈ fillHoles (cut w S.data).rows (cut w S.data).cols w.rel.toFinset)
          have hfun : (fun r c => ((cut w S.data).get r c).map fun x => -x) =
              fun r c => ((cut w S.data).get r c).map (-1 * ·) := by
            funext r c
            congr 1
            funext x
            ring
          unfold maskDataInContour
          rw [hfun, hneg]
          cases maskData (K := ℝ) _ _ (cut w S.data).get _ with
          | error e => rfl
          | ok e => rfl
        · rfl

theorem meanPt_reverse (pts : List (ℝ × ℝ)) : meanPt pts.reverse = meanPt pts := by
  unfold meanPt
  simp [List.sum_reverse]

theorem fitConic_reverse (pts : List (ℝ × ℝ)) : fitConic pts.reverse = fitConic pts := by
  have h1 : normalMat (meanPt pts) pts.reverse = normalMat (meanPt pts) pts := by
    unfold normalMat
    simp [List.sum_reverse]
  have h2 : normalRhs (meanPt pts) pts.reverse = normalRhs (meanPt pts) pts := by
    unfold normalRhs
    simp [List.sum_reverse]
  unfold fitConic
  rw [meanPt_reverse]
  simp only [h1, h2]

theorem fitEllipse_reverse (pts : List (ℝ × ℝ)) : fitEllipse pts.reverse = fitEllipse pts := by
  unfold fitEllipse
  rw [fitConic_reverse, meanPt_reverse, List.length_reverse]

theorem finiteEllipse_reverse (pts : List (ℝ × ℝ)) : FiniteEllipse pts.reverse ↔ FiniteEllipse pts := by
  unfold FiniteEllipse
  rw [fitConic_reverse, meanPt_reverse]

theorem meanOf_reverse (l : List (Option ℝ)) : Cntr.meanOf l.reverse = Cntr.meanOf l := by
  unfold Cntr.meanOf
  simp [List.sum_reverse]

theorem skips_reverse {vs : List (Vertex ℝ)} (h : vs.head? = vs.getLast?) : Cntr.skipsContour vs.reverse = Cntr.skipsContour vs := by
  cases vs with
  | nil => rfl
  | cons v vs =>
    cases hr : (v :: vs).reverse with
    | nil => simp at hr
    | cons u us =>
      have hu : u = v := by
        have h1 : (v :: vs).reverse.head? = some u := by rw [hr]; rfl
        rw [List.head?_reverse, ← h] at h1
        injection h1 with h1
        exact h1.symm
      unfold Cntr.skipsContour
      simp only
      rw [← hr, List.map_reverse, List.map_reverse, meanOf_reverse, meanOf_reverse, hu]

/-- The second eddy is the first one upside down: the same contour in the other direction, opposite level, sign and extremum, the
same area, radius, ellipse, eccentricity, centre and position of the extremum. -/
structure OppositeEddy (e e' : EddyObj) : Prop where
  contour : e'.contour = e.contour.reverse
  level : e'.level = -e.level
  area : e'.area = e.area
  radius : e'.radius = e.radius
  ellipse : e'.ellipse = e.ellipse
  eccen : e'.eccen = e.eccen
  center : e'.center = e.center
  sign : e'.sign = -e.sign
  maximum : e'.maxima.1 = -e.maxima.1
  place : e'.maxima.2 = e.maxima.2
  gauss : e'.gauss = e.gauss
  gaussError : e'.gaussError = e.gaussError

/-- the same treatment of two contours, with eddies that are opposite -/
def OppositeResult : Except PyErr Outcome → Except PyErr Outcome → Prop
  | .error a, .error b => a = b
  | .ok .skipped, .ok .skipped => True
  | .ok (.discarded a), .ok (.discarded b) => a = b
  | .ok (.stored e), .ok (.stored e') => OppositeEddy e e'
  | _, _ => False

theorem examine_negated {c : Criteria ℝ} (hc : c.skipGauss = true) (h1 : 1 ≤ c.ellipseFit) (L : Libs) (S : Fields) (l : ℝ)
    {vs : List (Vertex ℝ)} (hcl : vs.head? = vs.getLast?) (hch : ∀ pts : List (ℝ × ℝ), vs = pts.map some → pts.IsChain NotOpposite) :
    OppositeResult (examine c L S l vs) (examine c L S.negated (-l) vs.reverse) := by
  classical
  unfold examine
  rw [skips_reverse hcl]
  by_cases hsk : Cntr.skipsContour vs = true
  · simp only [hsk, if_true]; trivial
  simp only [hsk]
  cases hp : allPoints vs with
  | none =>
    have : allPoints vs.reverse = none := by
      cases hq : allPoints vs.reverse with
      | none => rfl
      | some qs =>
        have h2 := allPoints_eq.1 hq
        have h3 : vs = qs.reverse.map some := by rw [List.map_reverse, ← h2, List.reverse_reverse]
        rw [allPoints_eq.2 h3] at hp
        cases hp
    rw [this]
    rfl
  | some pts =>
  have hv := allPoints_eq.1 hp
  have hp' : allPoints vs.reverse = some pts.reverse := allPoints_eq.2 (by rw [hv, List.map_reverse])
  rw [hp']
  have harea := C33_direction pts (hch pts hv)
  show OppositeResult (examinePoints c L S l pts) (examinePoints c L S.negated (-l) pts.reverse)
  unfold examinePoints
  simp only [bind, Except.bind, pure, Except.pure, harea, meanPt_reverse, fitEllipse_reverse, finiteEllipse_reverse]
  by_cases g1 : Real.sqrt (areaPolygon pts / Real.pi) > c.maxArea * approxRD (meanPt pts).2
  · simp only [g1, if_true]; rfl
  simp only [g1, if_false]
  cases hf : fitEllipse pts with
  | error e => rfl
  | ok fit =>
  by_cases hfin : FiniteEllipse pts ∧ isclose (areaPolygon pts) (areaPolygon fit.1) (1 / 10 * c.ellipseFit) = true
  swap
  · simp only [hfin, not_false_eq_true, if_true]; rfl
  simp only [hfin, not_true_eq_false, if_false, and_self]
  by_cases h2 : gtNan (eccentricity fit.2.1 fit.2.2.1) c.eccen
  · simp only [h2, if_true]; rfl
  simp only [h2, if_false]
  cases hs : liftFr (similarity L.limit pts fit.1) with
  | error e =>
    rw [similarity_lengths L.limit pts pts.reverse fit.1 (by simp) e hs]
    rfl
  | ok sim =>
  cases hs' : liftFr (similarity L.limit pts.reverse fit.1) with
  | error e =>
    rw [similarity_lengths L.limit pts.reverse pts fit.1 (by simp) e hs'] at hs
    cases hs
  | ok sim' =>
  have hsim : ∀ {A : List (ℝ × ℝ)} {x : Option ℝ}, liftFr (similarity L.limit A fit.1) = .ok x → ¬ gtNan x c.ellipseFit := by
    rintro A x hx ⟨u, rfl, hu⟩
    cases hy : similarity L.limit A fit.1 with
    | error e => rw [hy] at hx; cases e <;> cases hx
    | ok y =>
      rw [hy] at hx
      injection hx with hx
      subst hx
      have := (similarity_unit hy).2
      linarith
  simp only [hsim hs, hsim hs', if_false, dataInContour_negated L S pts (meanPt_reverse pts)]
  cases dataInContour L S pts with
  | error e => rfl
  | ok i =>
  simp only [Except.map, hc, if_true, neg_eq_zero]
  by_cases h4 : i.ext.maxima = 0
  · simp only [h4, if_true]; rfl
  · simp only [h4, if_false]
    exact ⟨rfl, rfl, rfl, rfl, rfl, rfl, rfl, rfl, rfl, rfl, rfl, rfl⟩

/-- **C105** partial: without the Gaussian fit and with a similarity threshold of at least one (so that this criterion discards
nothing), if the contours of the negated map at the negated level are those of the map in the other direction, closed and without
consecutive vertices of opposite azimuths, then each contour is treated in the same way, and the eddies of the level correspond, in
the same order: contour, area, radius, ellipse, eccentricity, centre and position of the extremum are the same, level, sign and
extremum opposite. What is missing: the similarity with the ellipse and its criterion, the Gaussian fit, contours that start
elsewhere. -/
theorem C105_partial {c : Criteria ℝ} (hc : c.skipGauss = true) (h1 : 1 ≤ c.ellipseFit) (L : Libs) (S : Fields) (l : ℝ)
    (hrev : contourList L S.negated (-l) = (contourList L S l).map List.reverse)
    (hcl : ∀ vs ∈ contourList L S l, vs.head? = vs.getLast? ∧ ∀ pts : List (ℝ × ℝ), vs = pts.map some → pts.IsChain NotOpposite) :
    List.Forall₂ OppositeResult ((contourList L S l).map (examine c L S l))
      ((contourList L S.negated (-l)).map (examine c L S.negated (-l))) ∧
    List.Forall₂ OppositeEddy ((contourList L S l).filterMap (storedEddy c L S l))
      ((contourList L S.negated (-l)).filterMap (storedEddy c L S.negated (-l))) := by
  rw [hrev]
  revert hcl
  generalize contourList L S l = cs
  intro hcl
  induction cs with
  | nil => exact ⟨.nil, .nil⟩
  | cons vs cs ih =>
    have ih := ih fun us hus => hcl us (List.mem_cons_of_mem _ hus)
    obtain ⟨g1, g2⟩ := hcl vs List.mem_cons_self
    have he := examine_negated hc h1 L S l g1 g2
    refine ⟨.cons he ih.1, ?_⟩
    simp only [List.map_cons, List.filterMap_cons]
    unfold storedEddy at ih ⊢
    revert he
    cases examine c L S l vs with
    | error e =>
      cases examine c L S.negated (-l) vs.reverse with
      | error e' => exact fun _ => ih.2
      | ok o' => intro he; cases he
    | ok o =>
      cases examine c L S.negated (-l) vs.reverse with
      | error e' => cases o <;> (intro he; cases he)
      | ok o' =>
        cases o <;> cases o' <;> intro he <;> first | exact ih.2 | exact .cons he ih.2 | cases he

/-- the example meets the hypotheses and has an eddy, also with the threshold one -/
example : contourList mrLibs mrField.negated (-(1 / 2)) = (contourList mrLibs mrField (1 / 2)).map List.reverse ∧
    (∀ vs ∈ contourList mrLibs mrField (1 / 2), vs.head? = vs.getLast? ∧ ∀ pts : List (ℝ × ℝ), vs = pts.map some → pts.IsChain NotOpposite) ∧
    ∃ e, examine { mrCriteria with ellipseFit := 1 } mrLibs mrField (1 / 2) (mrPts.map some) = .ok (.stored e) := by
  refine ⟨?_, ?_, mrStored (by norm_num)⟩
  · rw [mrField_contours_neg, mrField_contours]
    simp
  · rw [mrField_contours]
    intro vs hvs
    rw [List.mem_singleton] at hvs
    subst hvs
    refine ⟨by simp [mrPts], fun pts h => ?_⟩
    have : mrPts = pts := List.map_injective_iff.2 (Option.some_injective _) h
    exact this ▸ mrChain

end Trackeddy
