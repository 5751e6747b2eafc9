import Verif.Props.Pipeline
import Verif.Proofs.Cntr.Cast
import Mathlib.Data.Rat.Cast.Order
import Mathlib.Data.Real.Archimedean

/-!
A field in which the pipeline finds an eddy: two adjacent grid points with value 1 on a grid of zeros. Its contour at 1/2 has six
vertices on an ellipse. This shows that the hypotheses of C84-C88 can be met, with a table that is not empty.
-/
namespace Trackeddy
open Spec
open Cntr (Vertex SameShape arrGrid)

def exqX : Cntr.NdArr ℚ := ⟨3, 4, fun _ c => [0, 1, 2, 3].getD c 0⟩
def exqY : Cntr.NdArr ℚ := ⟨3, 4, fun r _ => [0, 1, 2].getD r 0⟩
def exqZ : Cntr.NdArr (Option ℚ) :=
  ⟨3, 4, fun r c => if r < 3 ∧ c < 4 then some (if r = 1 ∧ (c = 1 ∨ c = 2) then 1 else 0) else none⟩

/-- the example -/
def exField : Fields :=
  ⟨⟨3, 4, fun _ c => [0, 1, 2, 3].getD c 0⟩, ⟨3, 4, fun r _ => [0, 1, 2].getD r 0⟩,
    ⟨3, 4, fun r c => if r < 3 ∧ c < 4 then some (if r = 1 ∧ (c = 1 ∨ c = 2) then 1 else 0) else none⟩⟩

/-- the coordinates on the grid -/
theorem exAxis4 {c : Nat} (h : c < 4) : ([0, 1, 2, 3] : List ℝ).getD c 0 = c := by
  interval_cases c <;> simp

theorem exAxis3 {r : Nat} (h : r < 3) : ([0, 1, 2] : List ℝ).getD r 0 = r := by
  interval_cases r <;> simp

/-- its contour -/
noncomputable def exPts : List (ℝ × ℝ) := [(1, 1 / 2), (2, 1 / 2), (5 / 2, 1), (2, 3 / 2), (1, 3 / 2), (1 / 2, 1), (1, 1 / 2)]

theorem exField_ok : exField.Ok := ⟨rfl, rfl, fun M hM => by cases hM⟩

theorem exq_contours : Cntr.extractContours exqX exqY exqZ (1 / 2) 50 Cntr.exMem =
    .ok ([[some (1, 1 / 2), some (2, 1 / 2), some (5 / 2, 1), some (2, 3 / 2), some (1, 3 / 2), some (1 / 2, 1),
      some (1, 1 / 2)]].map .points, [.codes [1, 2, 2, 2, 2, 2, 2]]) := by
  decide +kernel

theorem exField_cast : exqX.cast (Rat.castHom ℝ) = exField.X ∧ exqY.cast (Rat.castHom ℝ) = exField.Y ∧
    exqZ.castO (Rat.castHom ℝ) = exField.data := by
  have hX : exqX.cast (Rat.castHom ℝ) = exField.X := by
    unfold Cntr.NdArr.cast exqX exField
    simp only [Cntr.NdArr.mk.injEq, true_and]
    funext _ c
    match c with
    | 0 | 1 | 2 | 3 => simp
    | c + 4 => simp
  have hY : exqY.cast (Rat.castHom ℝ) = exField.Y := by
    unfold Cntr.NdArr.cast exqY exField
    simp only [Cntr.NdArr.mk.injEq, true_and]
    funext r _
    match r with
    | 0 | 1 | 2 => simp
    | r + 3 => simp
  have hZ : exqZ.castO (Rat.castHom ℝ) = exField.data := by
    unfold Cntr.NdArr.castO exqZ exField
    simp only [Cntr.NdArr.mk.injEq, true_and]
    funext r c
    split_ifs <;> simp
  exact ⟨hX, hY, hZ⟩

theorem exField_contours (L : Libs) : contourList L exField (1 / 2) = [exPts.map some] := by
  obtain ⟨cds, h⟩ := Cntr.extract_cast (Rat.castHom ℝ) Rat.cast_strictMono (X := exqX) (Y := exqY) (Z := exqZ)
    (mem' := L.mem exField.data (1 / 2)) (fuel' := 4 * (4 * 3) + 2)
    ⟨rfl, rfl, fun M hM => by cases hM⟩ (1 / 2) (by decide) (by decide) exq_contours
  obtain ⟨hX, hY, hZ⟩ := exField_cast
  have hl : Rat.castHom ℝ (1 / 2) = 1 / 2 := by norm_num
  rw [hX, hY, hZ, hl] at h
  unfold contourList contoursOf
  have hd : 4 * (exField.data.cols * exField.data.rows) + 2 = 4 * (4 * 3) + 2 := rfl
  rw [hd, h]
  simp [vertsOf, exPts]

theorem exMean : meanPt exPts = (10 / 7, 13 / 14) := by
  unfold meanPt exPts
  simp only [List.map_cons, List.map_nil, List.sum_cons, List.sum_nil, List.length_cons, List.length_nil]
  norm_num

theorem exGeneric : Generic exPts := by
  intro A B C D E h
  rw [exMean] at h
  have h1 := h (1, 1 / 2) (by simp [exPts])
  have h2 := h (2, 1 / 2) (by simp [exPts])
  have h3 := h (5 / 2, 1) (by simp [exPts])
  have h4 := h (2, 3 / 2) (by simp [exPts])
  have h5 := h (1, 3 / 2) (by simp [exPts])
  have h6 := h (1 / 2, 1) (by simp [exPts])
  unfold form at h1 h2 h3 h4 h5 h6
  simp only at h1 h2 h3 h4 h5 h6
  norm_num at h1 h2 h3 h4 h5 h6
  refine ⟨?_, ?_, ?_, ?_, ?_⟩ <;> linarith

/-- the fitted conic -/
noncomputable def exConic : Conic := ⟨49 / 48, 0, 147 / 48, -7 / 48, -7 / 16⟩

theorem exFitConic : fitConic exPts = .ok exConic := by
  apply fitConic_exact
  · intro p hp
    rw [exMean]
    unfold OnConic form exConic
    simp only [exPts, List.mem_cons, List.not_mem_nil, or_false] at hp
    rcases hp with rfl | rfl | rfl | rfl | rfl | rfl | rfl <;> norm_num
  · exact (det_ne_zero_iff_generic _).2 exGeneric

theorem exNotTilted : ¬ Tilted exConic := by
  unfold Tilted exConic
  norm_num

theorem exRotate : rotateConic exConic (10 / 7, 13 / 14) = (exConic, (10 / 7, 13 / 14)) := by
  unfold rotateConic
  rw [if_neg exNotTilted]

theorem exF : conicF exConic = 49 / 48 := by
  unfold conicF exConic
  norm_num

theorem exFinite : FiniteEllipse exPts := by
  intro q hq
  rw [exFitConic] at hq
  injection hq with hq
  subst hq
  rw [exMean, exRotate]
  unfold exConic
  norm_num

/-- the same vertices from another start -/
noncomputable def exCurve : List (ℝ × ℝ) := [(5 / 2, 1), (2, 3 / 2), (1, 3 / 2), (1 / 2, 1), (1, 1 / 2), (2, 1 / 2), (5 / 2, 1)]

theorem exEllPoint (t : ℝ) : ellipsePoint exConic (10 / 7, 13 / 14) t = (3 / 2 + Real.cos t, 1 + 1 / Real.sqrt 3 * Real.sin t) := by
  unfold ellipsePoint
  simp only [exRotate, exF]
  have hphi : phiOf exConic = 0 := by unfold phiOf; rw [if_neg exNotTilted]
  rw [hphi]
  have h1 : |(49 / 48 : ℝ) / exConic.a| = 1 := by unfold exConic; norm_num
  have h2 : |(49 / 48 : ℝ) / exConic.c| = 1 / 3 := by unfold exConic; norm_num
  rw [h1, h2, Real.sqrt_one, Real.sqrt_div zero_le_one, Real.sqrt_one]
  simp only [Real.cos_zero, Real.sin_zero]
  unfold exConic
  norm_num

theorem exFit : fitEllipse exPts = .ok (exCurve, (1, 1 / Real.sqrt 3, some 0)) := by
  unfold fitEllipse
  rw [exFitConic]
  simp only [bind, Except.bind, pure, Except.pure, exMean, Except.ok.injEq, Prod.mk.injEq]
  have hs : Real.sqrt 3 * Real.sqrt 3 = 3 := Real.mul_self_sqrt (by norm_num)
  have hp : 0 < Real.sqrt 3 := Real.sqrt_pos.2 (by norm_num)
  have hq : 1 / Real.sqrt 3 * (Real.sqrt 3 / 2) = 1 / 2 := by field_simp
  have hc : Real.cos (2 * Real.pi / 3) = -1 / 2 ∧ Real.sin (2 * Real.pi / 3) = Real.sqrt 3 / 2 := by
    have : 2 * Real.pi / 3 = Real.pi - Real.pi / 3 := by ring
    rw [this, Real.cos_pi_sub, Real.sin_pi_sub, Real.cos_pi_div_three, Real.sin_pi_div_three]
    norm_num
  have hax : semiAxes exConic (10 / 7, 13 / 14) = (1, 1 / Real.sqrt 3) := by
    unfold semiAxes
    simp only [exRotate, exF]
    have h1 : |(49 / 48 : ℝ) / exConic.a| = 1 := by unfold exConic; norm_num
    have h2 : |(49 / 48 : ℝ) / exConic.c| = 1 / 3 := by unfold exConic; norm_num
    rw [h1, h2, Real.sqrt_one, Real.sqrt_div zero_le_one, Real.sqrt_one]
  refine ⟨?_, ?_, ?_, ?_⟩
  · have hl : linspace2pi exPts.length = [0, Real.pi / 3, 2 * Real.pi / 3, Real.pi, Real.pi / 3 + Real.pi,
        2 * Real.pi / 3 + Real.pi, 2 * Real.pi] := by
      unfold linspace2pi
      simp only [exPts, List.length_cons, List.length_nil, List.range_succ, List.range_zero]
      simp only [List.nil_append, List.cons_append, List.map_cons, List.map_nil]
      norm_num
      refine ⟨?_, ?_, ?_, ?_, ?_⟩ <;> ring
    rw [hl]
    simp only [List.map_cons, List.map_nil, exEllPoint, Real.cos_add_pi, Real.sin_add_pi, Real.cos_zero, Real.sin_zero,
      Real.cos_pi_div_three, Real.sin_pi_div_three, hc.1, hc.2, Real.cos_pi, Real.sin_pi, Real.cos_two_pi, Real.sin_two_pi,
      mul_neg, hq]
    unfold exCurve
    norm_num
  · rw [hax]
    exact max_eq_left (by rw [div_le_one hp]; nlinarith)
  · rw [hax]
    exact min_eq_right (by rw [div_le_one hp]; nlinarith)
  · unfold angleOf exConic
    norm_num

theorem exAreas : areaPolygon exCurve = areaPolygon exPts :=
  (C33_first_vertex (1, 1 / 2) (5 / 2, 1) [(2, 1 / 2)] [(2, 3 / 2), (1, 3 / 2), (1 / 2, 1)]).symm

/-! ### the libraries -/

/-- some answer of a nearest grid point exists -/
theorem exists_answer_of_ne (g : Grid ℝ) (pt v : ℝ × ℝ) (h : masked g.ny g.nx (g.mask pt) ≠ []) :
    ∃ k, g.BallTreeAnswer pt v k := by
  obtain ⟨p, hp, hmin⟩ := Finset.exists_min_image (masked g.ny g.nx (g.mask pt)).toFinset (g.dist2 v)
    (by rwa [List.toFinset_nonempty_iff])
  obtain ⟨k, hk⟩ := List.mem_iff_getElem?.1 (List.mem_toFinset.1 hp)
  exact ⟨k, p, hk, fun q hq => hmin q (List.mem_toFinset.2 hq)⟩

open Classical in
/-- a correct search for nearest grid points, with a choice among equally near ones -/
noncomputable def exBallTree (g : Grid ℝ) (pt v : ℝ × ℝ) : Nat :=
  if g.BallTreeAnswer pt v (if v.1 < 3 / 2 then 5 else 6) then (if v.1 < 3 / 2 then 5 else 6)
  else if h : ∃ k, g.BallTreeAnswer pt v k then h.choose else 0

/-- the libraries of the example -/
noncomputable def exLibs : Libs := ⟨100, fun _ _ => Cntr.exMem, exBallTree, fun _ => .error .valueError⟩

theorem exLibs_nearest : exLibs.Nearest := by
  intro g pt v h
  show g.BallTreeAnswer pt v (exBallTree g pt v)
  unfold exBallTree
  by_cases h1 : g.BallTreeAnswer pt v (if v.1 < 3 / 2 then 5 else 6)
  · rw [if_pos h1]
    exact h1
  · rw [if_neg h1, dif_pos (exists_answer_of_ne g pt v h)]
    exact (exists_answer_of_ne g pt v h).choose_spec

theorem exField_rect : exField.Rectilinear := by
  refine ⟨fun c => [0, 1, 2, 3].getD c 0, fun r => [0, 1, 2].getD r 0, fun _ _ => rfl, fun _ _ => rfl, Or.inl ?_, Or.inl ?_⟩
  · intro i j h hj
    have hj : j < 4 := hj
    show ([0, 1, 2, 3] : List ℝ).getD i 0 ≤ ([0, 1, 2, 3] : List ℝ).getD j 0
    rw [exAxis4 hj, exAxis4 (by omega)]
    exact Nat.cast_le.2 h
  · intro i j h hj
    have hj : j < 3 := hj
    show ([0, 1, 2] : List ℝ).getD i 0 ≤ ([0, 1, 2] : List ℝ).getD j 0
    rw [exAxis3 hj, exAxis3 (by omega)]
    exact Nat.cast_le.2 h

/-- the grid of the example -/
def exGrid : Grid ℝ := ⟨3, 4, fun _ c => [0, 1, 2, 3].getD c 0, fun r _ => [0, 1, 2].getD r 0⟩

theorem exMask : ∀ r < 3, ∀ c < 4, exGrid.mask (10 / 7, 13 / 14) r c = true := by
  intro r hr c hc
  unfold Grid.mask nearPt exGrid
  simp only [Bool.and_eq_true, decide_eq_true_eq, exAxis4 hc, exAxis3 hr]
  have h1 : (r : ℝ) ≤ 2 := by exact_mod_cast Nat.le_of_lt_succ hr
  have h2 : (c : ℝ) ≤ 3 := by exact_mod_cast Nat.le_of_lt_succ hc
  have h3 : (0 : ℝ) ≤ r := by positivity
  have h4 : (0 : ℝ) ≤ c := by positivity
  rw [abs_of_pos (by norm_num : (0 : ℝ) < 10 / 7), abs_of_pos (by norm_num : (0 : ℝ) < 13 / 14)]
  constructor <;> rw [abs_le] <;> constructor <;> linarith

theorem exMasked : masked 3 4 (exGrid.mask (10 / 7, 13 / 14)) =
    [(0, 0), (0, 1), (0, 2), (0, 3), (1, 0), (1, 1), (1, 2), (1, 3), (2, 0), (2, 1), (2, 2), (2, 3)] := by
  have e : masked 3 4 (exGrid.mask (10 / 7, 13 / 14)) = masked 3 4 (fun _ _ => true) := by
    unfold masked
    apply List.flatMap_congr
    intro r hr
    congr 1
    apply List.filter_congr
    intro c hc
    exact exMask r (List.mem_range.1 hr) c (List.mem_range.1 hc)
  rw [e]
  decide

theorem exIndex {v : ℝ × ℝ} (hv : v ∈ exPts) :
    exBallTree exGrid (10 / 7, 13 / 14) v = if v.1 < 3 / 2 then 5 else 6 := by
  unfold exBallTree
  rw [if_pos]
  unfold Grid.BallTreeAnswer
  simp only [exPts, List.mem_cons, List.not_mem_nil, or_false] at hv
  show ∃ p, (masked 3 4 (exGrid.mask (10 / 7, 13 / 14)))[_]? = some p ∧
    ∀ q ∈ masked 3 4 (exGrid.mask (10 / 7, 13 / 14)), exGrid.dist2 v p ≤ exGrid.dist2 v q
  rw [exMasked]
  unfold Grid.dist2 exGrid
  rcases hv with rfl | rfl | rfl | rfl | rfl | rfl | rfl
  all_goals norm_num

theorem exCode : ∀ v ∈ exPts, codeIndex 3 4 (exGrid.mask (10 / 7, 13 / 14)) (exBallTree exGrid (10 / 7, 13 / 14) v) =
    .ok (if v.1 < 3 / 2 then (1, 1) else (1, 2)) := by
  intro v hv
  have e : ∀ k, codeIndex 3 4 (exGrid.mask (10 / 7, 13 / 14)) k = codeIndex 3 4 (fun _ _ => true) k := by
    intro k
    have h1 : colSums 3 4 (exGrid.mask (10 / 7, 13 / 14)) = colSums 3 4 fun _ _ => true := by
      unfold colSums
      apply List.map_congr_left
      intro c hc
      apply List.countP_congr
      intro r hr
      rw [exMask r (List.mem_range.1 hr) c (List.mem_range.1 hc)]
    have h2 : rowSums 3 4 (exGrid.mask (10 / 7, 13 / 14)) = rowSums 3 4 fun _ _ => true := by
      unfold rowSums
      apply List.map_congr_left
      intro r hr
      apply List.countP_congr
      intro c hc
      rw [exMask r (List.mem_range.1 hr) c (List.mem_range.1 hc)]
    unfold codeIndex
    rw [h1, h2]
  rw [e, exIndex hv]
  by_cases h : v.1 < 3 / 2
  · rw [if_pos h, if_pos h]
    decide
  · rw [if_neg h, if_neg h]
    decide

def exWindow : Window := ⟨0, 0, 3, 4, [(1, 1), (1, 2), (1, 2), (1, 2), (1, 1), (1, 1), (1, 1)]⟩

theorem exGetWindow : getWindow 3 4 (1, 1) [(1, 2), (1, 2), (1, 2), (1, 1), (1, 1), (1, 1)] .auto = exWindow := by
  decide +kernel

theorem exData : ∃ e : Extremum ℝ, dataInContour exLibs exField exPts = .ok ⟨exWindow, e⟩ ∧ e.maxima ≠ 0 := by
  have hin : ∀ p : Int × Int, p = (1, 1) ∨ p = (1, 2) → p ∈ fillHoles 3 4 exWindow.rel.toFinset := by
    intro p hp
    rw [C41_inside_iff]
    rcases hp with rfl | rfl
    · exact ⟨by unfold InWindow; decide, Or.inl (by decide)⟩
    · exact ⟨by unfold InWindow; decide, Or.inl (by decide)⟩
  obtain ⟨e, he⟩ := (C42_defined 3 4 (cut exWindow exField.data).get
    fun r c => decide (((r : Int), (c : Int)) ∈ fillHoles 3 4 exWindow.rel.toFinset)).1.2
      ⟨1, 1, 1, by norm_num, by norm_num, by simpa using hin (1, 1) (Or.inl rfl), by simp [cut, exWindow, exField]⟩
  refine ⟨e, ?_, ?_⟩
  · unfold dataInContour
    have hm : masked exField.data.rows exField.data.cols ((⟨exField.data.rows, exField.data.cols, exField.X.get,
        exField.Y.get⟩ : Grid ℝ).mask (meanPt exPts)) ≠ [] := by
      rw [exMean]
      show masked 3 4 (exGrid.mask (10 / 7, 13 / 14)) ≠ []
      rw [exMasked]
      simp
    have hmap : (exPts.mapM fun v => codeIndex exField.data.rows exField.data.cols ((⟨exField.data.rows, exField.data.cols,
        exField.X.get, exField.Y.get⟩ : Grid ℝ).mask (meanPt exPts)) (exLibs.ballTree ⟨exField.data.rows, exField.data.cols,
        exField.X.get, exField.Y.get⟩ (meanPt exPts) v)) = .ok [(1, 1), (1, 2), (1, 2), (1, 2), (1, 1), (1, 1), (1, 1)] := by
      rw [mapM_ok (g := fun v : ℝ × ℝ => if v.1 < 3 / 2 then ((1 : Nat), (1 : Nat)) else (1, 2))]
      · unfold exPts
        norm_num
      · intro v hv
        rw [exMean]
        exact exCode v hv
    simp only [hm, if_false, bind, Except.bind, pure, Except.pure, hmap]
    simp only [List.map_cons, List.map_nil]
    have hw : getWindow exField.data.rows exField.data.cols (((1 : Nat) : Int), ((1 : Nat) : Int))
        [(((1 : Nat) : Int), ((2 : Nat) : Int)), (((1 : Nat) : Int), ((2 : Nat) : Int)), (((1 : Nat) : Int), ((2 : Nat) : Int)),
        (((1 : Nat) : Int), ((1 : Nat) : Int)), (((1 : Nat) : Int), ((1 : Nat) : Int)), (((1 : Nat) : Int), ((1 : Nat) : Int))] .auto =
        exWindow := exGetWindow
    rw [hw, if_pos (by decide)]
    have he' : maskDataInContour (cut exWindow exField.data).rows (cut exWindow exField.data).cols exWindow.rel.toFinset
      (cut exWindow exField.data).get = .ok e := he
    rw [he']
  · obtain ⟨x, h1, h2, _⟩ := C42_extremum _ _ _ _ e he
    have hpos : 0 < total 3 4 (cut exWindow exField.data).get
        fun r c => decide (((r : Int), (c : Int)) ∈ fillHoles 3 4 exWindow.rel.toFinset) := by
      have hnn : ∀ r c x, (cut exWindow exField.data).get r c = some x → 0 ≤ x := by
        intro r c x hx
        simp only [cut, exField] at hx
        split_ifs at hx <;> simp at hx <;> subst hx <;> norm_num
      unfold total
      refine Finset.sum_pos' (fun r _ => Finset.sum_nonneg fun c _ => ?_) ⟨1, by simp, Finset.sum_pos' (fun c _ => ?_) ⟨1, by simp, ?_⟩⟩
      · split
        · exact le_rfl
        · rename_i x hx
          split
          · exact hnn r c x hx
          · exact le_rfl
      · split
        · exact le_rfl
        · rename_i x hx
          split
          · exact hnn 1 c x hx
          · exact le_rfl
      · have : (((1 : Nat) : Int), ((1 : Nat) : Int)) ∈ fillHoles 3 4 exWindow.rel.toFinset := hin (1, 1) (Or.inl rfl)
        simp only [this]
        simp [cut, exField, exWindow]
    obtain ⟨_, h3, h4, _⟩ := h2 hpos
    rw [h3]
    exact ne_of_gt h4

/-! ### the eddy -/

/-- criteria met by the contour -/
noncomputable def exCriteria : Criteria ℝ :=
  ⟨1, 1, 0, Real.sqrt (areaPolygon exPts / Real.pi) / approxRD (13 / 14), true⟩

theorem exSkips : Cntr.skipsContour (exPts.map some) = false := by
  have h : Cntr.skipsContour (exPts.map some) =
      (Cntr.closeNan (some ((10 : ℝ) / 7)) (some 1) && Cntr.closeNan (some ((13 : ℝ) / 14)) (some (1 / 2))) := by
    unfold Cntr.skipsContour exPts Cntr.meanOf
    simp only [List.map_cons, List.map_nil, Option.map_some, List.all_cons, List.all_nil, Option.isSome_some, Bool.and_true,
      if_true, Option.getD_some, List.sum_cons, List.sum_nil, List.length_cons, List.length_nil]
    norm_num
  rw [h]
  unfold Cntr.closeNan
  norm_num [abs_of_pos]

theorem exSim : ∃ v, similarity 100 exPts exCurve = .ok v := by
  obtain ⟨d, hd, _⟩ := Frechet.C24_frdist_is_discrete_frechet 100 eucl eucl_symm exPts exCurve (by simp [exPts])
    (by simp [exCurve]) (Or.inl (by simp [exPts])) (by simp [exPts, exCurve])
  unfold similarity
  simp only [hd, bind, Except.bind, pure, Except.pure]
  split <;> exact ⟨_, rfl⟩

theorem exStored : ∃ e, examine exCriteria exLibs exField (1 / 2) (exPts.map some) = .ok (.stored e) := by
  obtain ⟨v, hv⟩ := exSim
  obtain ⟨x, hx, hx0⟩ := exData
  refine ⟨⟨exPts, 1 / 2, areaPolygon exPts, Real.sqrt (areaPolygon exPts / Real.pi), (1, 1 / Real.sqrt 3, some 0), v,
    eccentricity 1 (1 / Real.sqrt 3), meanPt exPts, x.sign, maximaOf exField ⟨exWindow, x⟩, none, some 0⟩, ?_⟩
  rw [examine_stored]
  refine ⟨exSkips, rfl, exCurve, ⟨exWindow, x⟩, ?_⟩
  have hrd : 0 < approxRD (13 / 14) := by unfold approxRD; positivity
  refine ⟨rfl, rfl, rfl, rfl, rfl, ?_, exFit, exFinite, ?_, rfl, ?_, ?_, ?_, hx, rfl, rfl, hx0, Or.inl ⟨rfl, rfl, rfl⟩⟩
  · rw [exMean]
    show Real.sqrt (areaPolygon exPts / Real.pi) ≤ Real.sqrt (areaPolygon exPts / Real.pi) / approxRD (13 / 14) * approxRD (13 / 14)
    rw [div_mul_cancel₀ _ hrd.ne']
  · rw [exAreas]
    unfold isclose
    simp only [sub_self, abs_zero, decide_eq_true_eq]
    have : (0 : ℝ) ≤ exCriteria.ellipseFit := zero_le_one
    positivity
  · rintro ⟨u, hu, h1⟩
    simp only at hu
    unfold eccentricity at hu
    split at hu
    · cases hu
    · split at hu
      · cases hu
      · injection hu with hu
        have h2 : u ≤ 1 := by
          rw [← hu]
          apply Real.sqrt_le_one.2
          have : 0 ≤ |1 / Real.sqrt 3| ^ 2 / |(1 : ℝ)| ^ 2 := by positivity
          linarith
        exact absurd h1 (not_lt.2 h2)
  · show liftFr (similarity 100 exPts exCurve) = .ok v
    rw [hv]
    rfl
  · rintro ⟨u, hu, h1⟩
    simp only at hu
    subst hu
    exact absurd h1 (not_lt.2 (similarity_unit hv).2)

/-! ### the run -/

/-- a nearest of finitely many points -/
theorem exists_isNN {P : Type} (d : P → P → ℝ) : ∃ nn, IsNN d nn := by
  have key : ∀ (l : List P) (q : P), ∃ k : Nat, l ≠ [] → ∃ a, l[k]? = some a ∧ ∀ p ∈ l, d q a ≤ d q p := by
    intro l q
    induction l with
    | nil => exact ⟨0, fun h => absurd rfl h⟩
    | cons x l ih =>
      by_cases hl : l = []
      · exact ⟨0, fun _ => ⟨x, rfl, by simp [hl]⟩⟩
      · obtain ⟨k, hk⟩ := ih
        obtain ⟨a, h1, h2⟩ := hk hl
        by_cases hx : d q x ≤ d q a
        · refine ⟨0, fun _ => ⟨x, rfl, ?_⟩⟩
          intro p hp
          rcases List.mem_cons.1 hp with rfl | hp
          · exact le_rfl
          · exact hx.trans (h2 p hp)
        · refine ⟨k + 1, fun _ => ⟨a, h1, ?_⟩⟩
          intro p hp
          rcases List.mem_cons.1 hp with rfl | hp
          · exact (not_le.1 hx).le
          · exact h2 p hp
  choose f hf using key
  exact ⟨f, fun l q h => hf l q h⟩

theorem exSnapshot {Pt : Type} (E : Env Cols ℝ Pt) :
    ∃ C, pureSnapshot E exCriteria exLibs exField [1 / 2] = .ok C ∧ C.rows ≠ [] := by
  obtain ⟨e, he⟩ := exStored
  have hl : ([1 / 2] : List ℝ).filter (· ≠ 0) = [1 / 2] := by norm_num
  have hv : ∀ m ∈ levelMeasures exCriteria exLibs exField (1 / 2), ∃ v, verdict exCriteria m = .ok v := by
    intro m hm
    unfold levelMeasures at hm
    rw [exField_contours] at hm
    simp only [List.map_cons, List.map_nil, List.mem_singleton] at hm
    subst hm
    rw [verdict_measures, he]
    exact ⟨_, rfl⟩
  have hp : ∃ tb, pureLevel exCriteria (levelMeasures exCriteria exLibs exField (1 / 2)) = .ok tb := by
    unfold pureLevel
    rw [detectOneLevel_ok _ _ hv]
    exact ⟨_, rfl⟩
  obtain ⟨tb, hp⟩ := hp
  have hC : ∃ C, pureSnapshot E exCriteria exLibs exField [1 / 2] = .ok C := by
    unfold pureSnapshot detectSnapshot
    rw [hl]
    simp only [List.foldlM_cons, List.foldlM_nil, levelStep, bind, Except.bind, pure, Except.pure, hp]
    by_cases h0 : tb.rows = []
    · simp [h0]
    · simp [h0]
  obtain ⟨C, hC⟩ := hC
  refine ⟨C, hC, ?_⟩
  rw [snapshot_one_level exField_ok hl hC, exField_contours]
  have hse : storedEddy exCriteria exLibs exField (1 / 2) (exPts.map some) = some e := by
    unfold storedEddy
    rw [he]
  have hne : exPts.map some ≠ ([] : List (Vertex ℝ)) := by simp [exPts]
  simp only [List.filterMap_cons, List.filterMap_nil, hse, List.map_cons, List.map_nil]
  have hc : e.contour ≠ [] := by
    obtain ⟨_, h1, _⟩ := examine_stored.1 he
    intro h0
    rw [h0] at h1
    simp [exPts] at h1
  have hr : e.rows ≠ [] := by
    unfold EddyObj.rows
    simpa [EddyObj.data] using hc
  unfold snapRows eddyRows
  simpa using hr

/-- The pipeline finds the eddy: the hypotheses of C84-C88 hold, and the table is not empty. -/
theorem exPipeline : ∃ (nn : List (ℝ × ℝ) → ℝ × ℝ → Nat) (s : LoopState Cols),
    IsNN (colsEnv true nn).dist (colsEnv true nn).nn ∧
    (∀ t ∈ trackTimes 0 none 1, ((fun _ => exField) t : Fields).Ok ∧ ((fun _ => exField) t : Fields).Rectilinear) ∧
    exLibs.Nearest ∧
    (trackFields (colsEnv true nn) exCriteria exLibs (fun _ => exField) [1 / 2] 0 none 1 1 true Regs.empty).2 = .ok s ∧
    s.table.rows ≠ [] := by
  obtain ⟨nn, hnn⟩ := exists_isNN haversine
  have hnn' : IsNN (colsEnv true nn).dist (colsEnv true nn).nn := hnn
  obtain ⟨C, hC, hne⟩ := exSnapshot (colsEnv true nn)
  have hsnap : ∀ (t : Int) C, (fun _ : Int => pureSnapshot (colsEnv true nn) exCriteria exLibs exField [1 / 2]) t = .ok C → SnapRows C.rows := by
    intro t C hC
    have := detectSnapshot_inv (fun l tb htb => pureLevel_level htb) _ hC
    exact ⟨this.first, this.contig⟩
  have hts : trackTimes 0 none 1 = [0] := by decide
  have hrun := (run_ok_iff hnn' (tf := none) (ntimes := 1) (snap := fun _ => pureSnapshot (colsEnv true nn) exCriteria exLibs exField [1 / 2]) [0]
    (by simp) (fun _ _ => ⟨C, hC⟩) (fun t _ => rowsAt_snapRows hsnap t)).2 (by
      intro t ht _ hu
      obtain ⟨u, hu, hlt, _⟩ := hu
      rw [List.mem_singleton] at ht hu
      omega)
  obtain ⟨s, hs⟩ := hrun
  have hs' : timeTracking (colsEnv true nn) (fun _ => pureSnapshot (colsEnv true nn) exCriteria exLibs exField [1 / 2]) 0 none 1 1 true = .ok s := by
    unfold timeTracking
    rw [hts]
    exact hs
  refine ⟨nn, s, hnn', fun t _ => ⟨exField_ok, exField_rect⟩, exLibs_nearest, ?_, ?_⟩
  · rw [(trackFields_pure _ _ _ (fun _ _ => exField_ok) ⟨rfl, rfl⟩).1]
    exact hs'
  · obtain ⟨g, hg⟩ := C03_no_detection_lost_or_invented hnn' hsnap hs'
    have hproc : s.processed = trackTimes 0 none 1 :=
      (run_inv hnn' _ (pairwise_trackTimes 0 none 1) (fun t _ => rowsAt_snapRows hsnap t) hs').proc
    rw [hproc, hts] at hg
    intro h0
    rw [h0] at hg
    have := hg.symm.eq_nil
    simp only [List.flatMap_cons, List.flatMap_nil, List.append_nil, tagged, rowsAt, hC] at this
    exact hne (List.map_eq_nil_iff.1 this)

/-- C84-C88 are not vacuous: the table of the example has rows, and they are those of one eddy. -/
example : ∃ (E : Env Cols ℝ (ℝ × ℝ)) (s : LoopState Cols), s.table.rows ≠ [] ∧
    MadeOfT (fun _ rows => ∃ d, rows = tableRows d ∧ OnContour exField.grid [1 / 2] d) s.table.rows ∧
    MadeOfT (fun _ rows => ∃ d pts pix, rows = tableRows d ∧ HasContour d pts ∧
      List.Forall₂ (NearestNear exField.grid (centroid pts)) pts pix ∧ ExtremumIn exField.grid d pix ∧
      ∀ ρ, SmallContour exField.grid pts ρ → List.Forall₂ (NearestPoint exField.grid) pts pix) s.table.rows ∧
    MadeOfT (fun _ rows => ∃ d pts, rows = tableRows d ∧ HasContour d pts ∧ 2 ≤ pts.length ∧ Accepted exCriteria d pts)
      s.table.rows := by
  obtain ⟨nn, s, h1, h2, h3, h4, h5⟩ := exPipeline
  exact ⟨colsEnv true nn, s, h5, C84_eddies_are_contour_lines h1 (fun t ht => (h2 t ht).1) ⟨rfl, rfl⟩ h4,
    C85_extremum_enclosed h1 h3 (fun t ht => (h2 t ht).1) (fun t ht => (h2 t ht).2) ⟨rfl, rfl⟩ h4,
    C86_columns_and_criteria h1 (fun t ht => (h2 t ht).1) ⟨rfl, rfl⟩ h4⟩

/-- C88 for the example -/
example : ∃ (E : Env Cols ℝ (ℝ × ℝ)) (s : LoopState Cols), s.table.rows ≠ [] ∧
    ∃ (lines : Int → List (List Side)) (pick : Int → List Side → Option EddyObj) (g : Int → Nat → Nat),
      (∀ t ∈ trackTimes 0 none 1, Contours exField.grid (1 / 2) (lines t) ∧ ∀ cl ∈ lines t, ∀ e, pick t cl = some e ↔
        ∃ pts, cl.map (exField.grid.point (1 / 2)) = pts.map some ∧ Qualifies exCriteria exLibs exField (1 / 2) pts e) ∧
      s.table.rows.Perm ((trackTimes 0 none 1).flatMap fun t =>
        (((lines t).filterMap (pick t)).mapIdx fun i e => atTime t (eddyRows (g t i) (tableRows e.data))).flatten) := by
  obtain ⟨nn, s, h1, h2, h3, h4, h5⟩ := exPipeline
  exact ⟨colsEnv true nn, s, h5, C88_one_level_complete h1 (by norm_num) (fun t ht => (h2 t ht).1) ⟨rfl, rfl⟩ h4⟩

end Trackeddy
