import Verif.Props.Origin
import Verif.Model.Api
import Verif.Spec.Edge
import Mathlib.Analysis.Real.Pi.Bounds

/-!
C108: contours of the returned eddies that are not closed.
-/
namespace Trackeddy
open Spec
open Cntr (Vertex)

/-! ### ends of contours -/

/-- a side of one cell only is at the edge of the grid -/
theorem border_outermost {S : Fields} {e : Side} (h : S.grid.Border e) :
    S.grid.Outermost e.a ∧ S.grid.Outermost e.b ∧ NextPoint e.a e.b := by
  obtain ⟨c, ⟨⟨h1, h2, _⟩, hc⟩, hu⟩ := h
  have hcell : ∀ c : ℕ × ℕ, c.1 + 1 < S.grid.nx → c.2 + 1 < S.grid.ny → S.grid.IsCell c := fun c a b => ⟨a, b, fun _ _ => rfl⟩
  obtain ⟨i, j⟩ := c
  simp only at h1 h2 hu
  simp only [sidesOf, List.mem_cons, List.not_mem_nil, or_false] at hc
  unfold Grid.Outermost NextPoint
  rcases hc with rfl | rfl | rfl | rfl <;> simp only [Side.a, Side.b, if_true, if_false, Bool.false_eq_true]
  · have : j = 0 := by
      by_contra hj
      have := hu (i, j - 1) ⟨hcell _ h1 (by simp only; omega), by simp [sidesOf]; omega⟩
      simp only [Prod.mk.injEq] at this
      omega
    refine ⟨⟨by omega, by omega, by omega⟩, ⟨by omega, by omega, by omega⟩, by simp⟩
  · have : i + 2 = S.grid.nx := by
      by_contra hj
      have := hu (i + 1, j) ⟨hcell _ (by simp only; omega) h2, by simp [sidesOf]⟩
      simp at this
    refine ⟨⟨by omega, by omega, by omega⟩, ⟨by omega, by omega, by omega⟩, by simp⟩
  · have : j + 2 = S.grid.ny := by
      by_contra hj
      have := hu (i, j + 1) ⟨hcell _ h1 (by simp only; omega), by simp [sidesOf]⟩
      simp at this
    refine ⟨⟨by omega, by omega, by omega⟩, ⟨by omega, by omega, by omega⟩, by simp⟩
  · have : i = 0 := by
      by_contra hj
      have := hu (i - 1, j) ⟨hcell _ (by simp only; omega) h2, by simp [sidesOf]; omega⟩
      simp only [Prod.mk.injEq] at this
      omega
    refine ⟨⟨by omega, by omega, by omega⟩, ⟨by omega, by omega, by omega⟩, by simp⟩

/-- the point of a crossed side lies on it -/
theorem point_between {G : Spec.Grid ℝ} {l : ℝ} {e : Side} (hc : G.Crossed l e) {v : ℝ × ℝ} (hv : G.point l e = some v) :
    ∃ w : ℝ, 0 ≤ w ∧ w ≤ 1 ∧ v = (G.x e.a + w * (G.x e.b - G.x e.a), G.y e.a + w * (G.y e.b - G.y e.a)) := by
  unfold Grid.point at hv
  split at hv
  · rename_i u z hu hz
    injection hv with hv
    have h : u ≤ l ∧ l < z ∨ z ≤ l ∧ l < u := by
      unfold Grid.Crossed Grid.Above at hc
      rw [hu, hz] at hc
      by_cases h1 : l < u <;> by_cases h2 : l < z
      · exact absurd ⟨fun _ => ⟨z, rfl, h2⟩, fun _ => ⟨u, rfl, h1⟩⟩ hc
      · exact Or.inr ⟨not_lt.1 h2, h1⟩
      · exact Or.inl ⟨not_lt.1 h1, h2⟩
      · refine absurd ⟨?_, ?_⟩ hc
        · rintro ⟨x, hx, hx'⟩
          injection hx with hx
          subst hx
          exact absurd hx' h1
        · rintro ⟨x, hx, hx'⟩
          injection hx with hx
          subst hx
          exact absurd hx' h2
    obtain ⟨h1, h2, _⟩ := Cntr.weight_range h
    exact ⟨_, h1, h2, hv.symm⟩
  · cases hv

/-- the ends of an open contour line are at border sides that the level crosses -/
theorem open_ends {S : Fields} {l : ℝ} {es : List Side} (h : S.grid.IsContour l es) (ho : es.head? ≠ es.getLast?) {e : Side}
    (he : es.head? = some e ∨ es.getLast? = some e) : S.grid.Border e ∧ S.grid.Crossed l e := by
  refine ⟨h.opened ho e he, ?_⟩
  have hm : e ∈ es := by
    rcases he with he | he
    · exact List.mem_of_head? he
    · exact List.mem_of_getLast? he
  exact (Cntr.contour_sides h hm).2

theorem map_ends {es : List Side} {G : Spec.Grid ℝ} {l : ℝ} {pts : List (ℝ × ℝ)} (h : es.map (G.point l) = pts.map some) :
    es.head?.map (G.point l) = pts.head?.map some ∧ es.getLast?.map (G.point l) = pts.getLast?.map some := by
  rw [← List.head?_map, ← List.head?_map, ← List.getLast?_map, ← List.getLast?_map, h]
  exact ⟨rfl, rfl⟩

theorem closed_map {es : List Side} {G : Spec.Grid ℝ} {l : ℝ} {pts : List (ℝ × ℝ)} (h : es.map (G.point l) = pts.map some)
    (hc : es.head? = es.getLast?) : ClosedLine pts := by
  obtain ⟨h1, h2⟩ := map_ends h
  rw [hc, h2] at h1
  unfold ClosedLine
  cases h3 : pts.head? <;> cases h4 : pts.getLast? <;> rw [h3, h4] at h1 <;> simp_all

/-- **C108, what holds**: the contour of every eddy of the returned table is closed, or both its ends lie on the edge of the grid. -/
theorem C108_partial {Pt : Type} {E : Env Cols ℝ Pt} (hnn : IsNN E.dist E.nn) {c : Criteria ℝ} {L : Libs}
    {field : Int → Fields} {levels : List ℝ} {t0 : Int} {tf : Option Int} {T : Nat} {ntimes : Int} {regs : Regs Cols}
    (h : ∀ t ∈ trackTimes t0 tf T, (field t).Ok) (hr : StoreEmpty regs) {s : LoopState Cols}
    (hs : (trackFields E c L field levels t0 tf T ntimes true regs).2 = .ok s) :
    MadeOfT (fun t rows => ∃ d pts, rows = tableRows d ∧ HasContour d pts ∧ (ClosedLine pts ∨ EndsOnEdge (field t).grid pts))
      s.table.rows := by
  refine (C84_eddies_are_contour_lines hnn h hr hs).mono ?_
  rintro t rows ⟨d, hd, l, hl, hl0, hlev, es, pts, hes, hp, hc⟩
  refine ⟨d, pts, hd, hc, ?_⟩
  by_cases ho : es.head? = es.getLast?
  · exact Or.inl (closed_map hp ho)
  · right
    intro v hv
    have : ∃ e, (es.head? = some e ∨ es.getLast? = some e) ∧ (field t).grid.point l e = some v := by
      obtain ⟨h1, h2⟩ := map_ends hp
      rcases hv with hv | hv
      · rw [hv] at h1
        obtain ⟨e, he, h3⟩ := Option.map_eq_some_iff.1 h1
        exact ⟨e, Or.inl he, h3⟩
      · rw [hv] at h2
        obtain ⟨e, he, h3⟩ := Option.map_eq_some_iff.1 h2
        exact ⟨e, Or.inr he, h3⟩
    obtain ⟨e, he, hpt⟩ := this
    obtain ⟨hb, hcr⟩ := open_ends hes ho he
    obtain ⟨o1, o2, o3⟩ := border_outermost hb
    obtain ⟨w, w0, w1, hw⟩ := point_between hcr hpt
    exact ⟨e.a, e.b, w, o1, o2, o3, w0, w1, hw⟩

/-- **C108, what holds**: if no requested level separates grid points of the first and last rows and columns, the contour of
every eddy is closed. -/
theorem C108_closed_inside {Pt : Type} {E : Env Cols ℝ Pt} (hnn : IsNN E.dist E.nn) {c : Criteria ℝ} {L : Libs}
    {field : Int → Fields} {levels : List ℝ} {t0 : Int} {tf : Option Int} {T : Nat} {ntimes : Int} {regs : Regs Cols}
    (h : ∀ t ∈ trackTimes t0 tf T, (field t).Ok) (hr : StoreEmpty regs)
    (hedge : ∀ t ∈ trackTimes t0 tf T, ∀ l ∈ levels, l ≠ 0 → (field t).grid.EdgeOnOneSide l) {s : LoopState Cols}
    (hs : (trackFields E c L field levels t0 tf T ntimes true regs).2 = .ok s) :
    MadeOfT (fun _ rows => ∃ d pts, rows = tableRows d ∧ HasContour d pts ∧ ClosedLine pts) s.table.rows := by
  refine (trackFields_made hnn h hr hs).mono ?_
  rintro t rows ⟨l, hl, hl0, vs, hvs, e, he, hre, ht⟩
  obtain ⟨l', hl', hl0', hlev, es, pts, hes, hp, hc⟩ := stored_onContour (h t ht) hl hl0 hvs he
  refine ⟨e.data, pts, hre, hc, closed_map hp ?_⟩
  by_contra ho
  obtain ⟨f, hf⟩ : ∃ f, es.head? = some f := by
    cases es with
    | nil => exact absurd rfl ho
    | cons a es => exact ⟨a, rfl⟩
  obtain ⟨hb, hcr⟩ := open_ends hes ho (Or.inl hf)
  obtain ⟨o1, o2, _⟩ := border_outermost hb
  exact hcr (hedge t ht l' hl' hl0' _ _ o1 o2)

/-! ### an open contour -/

def opqX : Cntr.NdArr ℚ := ⟨3, 3, fun _ c => [87, 90, 93].getD c 0⟩
def opqY : Cntr.NdArr ℚ := ⟨3, 3, fun r _ => [0, 3 / 5, 3].getD r 0⟩
def opqZ : Cntr.NdArr (Option ℚ) := ⟨3, 3, fun r c => if r < 3 ∧ c < 3 then some (if c = 1 then [3 / 4, 6 / 7].getD r 0 else 0) else none⟩

/-- an elevation at the southern edge of the grid -/
noncomputable def opField : Fields :=
  ⟨⟨3, 3, fun _ c => [87, 90, 93].getD c 0⟩, ⟨3, 3, fun r _ => [0, 3 / 5, 3].getD r 0⟩,
    ⟨3, 3, fun r c => if r < 3 ∧ c < 3 then some (if c = 1 then [3 / 4, 6 / 7].getD r 0 else 0) else none⟩⟩

noncomputable def opPts : List (ℝ × ℝ) := [(89, 0), (355 / 4, 3 / 5), (90, 8 / 5), (365 / 4, 3 / 5), (91, 0)]

noncomputable def opCurve : List (ℝ × ℝ) := [(365 / 4, 3 / 5), (90, 8 / 5), (355 / 4, 3 / 5), (90, -2 / 5), (365 / 4, 3 / 5)]

theorem opq_contours : Cntr.extractContours opqX opqY opqZ (1 / 2) 38 Cntr.exMem =
    .ok ([[some (89, 0), some (355 / 4, 3 / 5), some (90, 8 / 5), some (365 / 4, 3 / 5), some (91, 0)]].map .points,
      [.codes [1, 2, 2, 2, 2]]) := by
  decide +kernel

theorem opField_cast : opqX.cast (Rat.castHom ℝ) = opField.X ∧ opqY.cast (Rat.castHom ℝ) = opField.Y ∧
    opqZ.castO (Rat.castHom ℝ) = opField.data := by
  refine ⟨?_, ?_, ?_⟩
  · unfold Cntr.NdArr.cast opqX opField
    simp only [Cntr.NdArr.mk.injEq, true_and]
    funext _ c
    match c with
    | 0 | 1 | 2 => norm_num
    | c + 3 => simp
  · unfold Cntr.NdArr.cast opqY opField
    simp only [Cntr.NdArr.mk.injEq, true_and]
    funext r _
    match r with
    | 0 | 1 | 2 => norm_num
    | r + 3 => simp
  · unfold Cntr.NdArr.castO opqZ opField
    simp only [Cntr.NdArr.mk.injEq, true_and]
    funext r c
    by_cases hrc : r < 3 ∧ c < 3
    swap
    · rw [if_neg hrc, if_neg hrc]; rfl
    rw [if_pos hrc, if_pos hrc]
    simp only [Option.map_some, Option.some.injEq]
    split_ifs
    · match r with
      | 0 | 1 => norm_num
      | r + 2 => simp
    · simp

theorem opField_full : ∀ r < opField.data.rows, ∀ c < opField.data.cols, (opField.data.get r c).isSome := by
  intro r hr c hc
  show (if r < 3 ∧ c < 3 then some _ else none).isSome
  rw [if_pos ⟨hr, hc⟩]
  rfl

theorem opField_ok : opField.Ok := ⟨rfl, rfl, fun M hM => by cases hM⟩

theorem opField_contours (L : Libs) : contourList L opField (1 / 2) = [opPts.map some] := by
  obtain ⟨cds, h⟩ := Cntr.extract_cast (Rat.castHom ℝ) Rat.cast_strictMono (X := opqX) (Y := opqY) (Z := opqZ)
    (mem' := L.mem opField.data (1 / 2)) (fuel' := 4 * (3 * 3) + 2)
    ⟨rfl, rfl, fun M hM => by cases hM⟩ (1 / 2) (by decide) (by decide) opq_contours
  obtain ⟨hX, hY, hZ⟩ := opField_cast
  have hl : Rat.castHom ℝ (1 / 2) = 1 / 2 := by norm_num
  rw [hX, hY, hZ, hl] at h
  unfold contourList contoursOf
  have hd : 4 * (opField.data.cols * opField.data.rows) + 2 = 4 * (3 * 3) + 2 := rfl
  rw [hd, h]
  simp [vertsOf, opPts]

theorem opField_rect : opField.Rectilinear := by
  refine ⟨fun c => [87, 90, 93].getD c 0, fun r => [0, 3 / 5, 3].getD r 0, fun _ _ => rfl, fun _ _ => rfl,
    Or.inl ?_, Or.inl ?_⟩
  · intro i j h hj
    have hj : j < 3 := hj
    interval_cases j <;> interval_cases i <;> norm_num
  · intro i j h hj
    have hj : j < 3 := hj
    interval_cases j <;> interval_cases i <;> norm_num

theorem opMean : meanPt opPts = (90, 14 / 25) := by
  unfold meanPt opPts
  simp only [List.map_cons, List.map_nil, List.sum_cons, List.sum_nil, List.length_cons, List.length_nil]
  norm_num

/-! ### the fitted ellipse -/

theorem opGeneric : Generic opPts := by
  intro A B C D E h
  rw [opMean] at h
  have h1 := h (89, 0) (by simp [opPts])
  have h2 := h (355 / 4, 3 / 5) (by simp [opPts])
  have h3 := h (90, 8 / 5) (by simp [opPts])
  have h4 := h (365 / 4, 3 / 5) (by simp [opPts])
  have h5 := h (91, 0) (by simp [opPts])
  unfold form at h1 h2 h3 h4 h5
  simp only at h1 h2 h3 h4 h5
  norm_num at h1 h2 h3 h4 h5
  refine ⟨?_, ?_, ?_, ?_, ?_⟩ <;> linarith

noncomputable def opConic : Conic := ⟨25 / 39, 0, 625 / 624, 0, -25 / 312⟩

theorem opFitConic : fitConic opPts = .ok opConic := by
  apply fitConic_exact
  · intro p hp
    rw [opMean]
    unfold OnConic form opConic
    simp only [opPts, List.mem_cons, List.not_mem_nil, or_false] at hp
    rcases hp with rfl | rfl | rfl | rfl | rfl <;> norm_num
  · exact (det_ne_zero_iff_generic _).2 opGeneric

theorem opNotTilted : ¬ Tilted opConic := by
  unfold Tilted opConic
  norm_num

theorem opRotate : rotateConic opConic (90, 14 / 25) = (opConic, (90, 14 / 25)) := by
  unfold rotateConic
  rw [if_neg opNotTilted]

theorem opF : conicF opConic = 625 / 624 := by
  unfold conicF opConic
  norm_num

theorem opFinite : FiniteEllipse opPts := by
  intro q hq
  rw [opFitConic] at hq
  injection hq with hq
  subst hq
  rw [opMean, opRotate]
  unfold opConic
  norm_num

theorem opAxes : Real.sqrt |(625 / 624 : ℝ) / opConic.a| = 5 / 4 ∧ Real.sqrt |(625 / 624 : ℝ) / opConic.c| = 1 := by
  constructor
  · have h1 : |(625 / 624 : ℝ) / opConic.a| = (5 / 4) ^ 2 := by unfold opConic; norm_num
    rw [h1, Real.sqrt_sq (by norm_num)]
  · have h2 : |(625 / 624 : ℝ) / opConic.c| = 1 := by unfold opConic; norm_num
    rw [h2, Real.sqrt_one]

theorem opEllPoint (t : ℝ) : ellipsePoint opConic (90, 14 / 25) t = (90 + 5 / 4 * Real.cos t, 3 / 5 + Real.sin t) := by
  unfold ellipsePoint
  simp only [opRotate, opF]
  have hphi : phiOf opConic = 0 := by unfold phiOf; rw [if_neg opNotTilted]
  rw [hphi, opAxes.1, opAxes.2]
  simp only [Real.cos_zero, Real.sin_zero]
  unfold opConic
  norm_num

theorem opFit : fitEllipse opPts = .ok (opCurve, (5 / 4, 1, some 0)) := by
  unfold fitEllipse
  rw [opFitConic]
  simp only [bind, Except.bind, pure, Except.pure, opMean, Except.ok.injEq, Prod.mk.injEq]
  have hax : semiAxes opConic (90, 14 / 25) = (5 / 4, 1) := by
    unfold semiAxes
    simp only [opRotate, opF, opAxes.1, opAxes.2]
  refine ⟨?_, ?_, ?_, ?_⟩
  · have hl : linspace2pi opPts.length = [0, Real.pi / 2, Real.pi, Real.pi / 2 + Real.pi, 2 * Real.pi] := by
      unfold linspace2pi
      simp only [opPts, List.length_cons, List.length_nil, List.range_succ, List.range_zero]
      simp only [List.nil_append, List.cons_append, List.map_cons, List.map_nil]
      norm_num
      refine ⟨?_, ?_, ?_⟩ <;> ring
    rw [hl]
    simp only [List.map_cons, List.map_nil, opEllPoint, Real.cos_add_pi, Real.sin_add_pi, Real.cos_zero, Real.sin_zero,
      Real.cos_pi_div_two, Real.sin_pi_div_two, Real.cos_pi, Real.sin_pi, Real.cos_two_pi, Real.sin_two_pi]
    unfold opCurve
    norm_num
  · rw [hax]
    norm_num
  · rw [hax]
    norm_num
  · unfold angleOf opConic
    norm_num

theorem opEccen : ¬ gtNan (eccentricity (5 / 4) 1) (85 / 100 : ℝ) := by
  rintro ⟨u, hu, h1⟩
  unfold eccentricity at hu
  rw [if_neg (by norm_num), if_neg (by norm_num)] at hu
  injection hu with hu
  have h2 : (1 : ℝ) - |1| ^ 2 / |5 / 4| ^ 2 = (3 / 5) ^ 2 := by norm_num
  rw [h2, Real.sqrt_sq (by norm_num)] at hu
  rw [← hu] at h1
  norm_num at h1

/-! ### the areas -/

theorem arg_upper {x y : ℝ} (hy : 0 < y) : arctan2 y x = Real.pi / 2 - Real.arctan (x / y) := by
  unfold arctan2
  have h1 := Real.neg_pi_div_two_lt_arctan (x / y)
  have h2 := Real.arctan_lt_pi_div_two (x / y)
  have hs : 0 < Real.sqrt (1 + (x / y) ^ 2) := Real.sqrt_pos.2 (by positivity)
  have hr : 0 < y * Real.sqrt (1 + (x / y) ^ 2) := mul_pos hy hs
  have hpi := Real.pi_pos
  have := Complex.arg_mul_cos_add_sin_mul_I hr (θ := Real.pi / 2 - Real.arctan (x / y)) ⟨by linarith, by linarith⟩
  rw [← this]
  congr 1
  have hc : Real.cos (Real.pi / 2 - Real.arctan (x / y)) = x / y / Real.sqrt (1 + (x / y) ^ 2) := by
    rw [Real.cos_pi_div_two_sub, Real.sin_arctan]
  have hsn : Real.sin (Real.pi / 2 - Real.arctan (x / y)) = 1 / Real.sqrt (1 + (x / y) ^ 2) := by
    rw [Real.sin_pi_div_two_sub, Real.cos_arctan]
  rw [← Complex.ofReal_cos, ← Complex.ofReal_sin, hc, hsn]
  apply Complex.ext
  · simp
    field_simp
  · simp
    field_simp

theorem deg2rad_abs {a : ℝ} (ha : |a| < 90) : |deg2rad a| < Real.pi / 2 := by
  unfold deg2rad
  have hpi := Real.pi_pos
  rw [abs_mul, abs_of_pos (by positivity : 0 < Real.pi / 180)]
  calc |a| * (Real.pi / 180) < 90 * (Real.pi / 180) := by gcongr
    _ = Real.pi / 2 := by ring

/-- colatitude and azimuth near the meridian 90 -/
theorem polar_90 {a b : ℝ} (ha : |a| < 90) (hb : |b| < 90) : polar (90 + a, b) =
    (Real.pi / 2 + Real.arcsin (Real.cos (deg2rad b) * Real.sin (deg2rad a)),
     Real.pi / 2 - Real.arctan (Real.tan (deg2rad b) / Real.cos (deg2rad a))) := by
  have hA := abs_lt.1 (deg2rad_abs ha)
  have hB := abs_lt.1 (deg2rad_abs hb)
  have e : deg2rad (90 + a) = deg2rad a + Real.pi / 2 := by unfold deg2rad; ring
  have hca : 0 < Real.cos (deg2rad a) := Real.cos_pos_of_mem_Ioo hA
  have hcb : 0 < Real.cos (deg2rad b) := Real.cos_pos_of_mem_Ioo hB
  unfold polar
  simp only [e, Prod.mk.injEq]
  constructor
  · rw [C34_arccos, Real.cos_add_pi_div_two, mul_neg, Real.arccos_neg, Real.arccos]
    ring
  · unfold azim
    rw [Real.sin_add_pi_div_two, arg_upper (mul_pos hcb hca)]
    have h1 : Real.sin (deg2rad b) / (Real.cos (deg2rad b) * Real.cos (deg2rad a)) = Real.tan (deg2rad b) / Real.cos (deg2rad a) := by
      rw [Real.tan_eq_sin_div_cos, div_div]
    rw [h1]
    have h2 := Real.neg_pi_div_two_lt_arctan (Real.tan (deg2rad b) / Real.cos (deg2rad a))
    have h3 := Real.arctan_lt_pi_div_two (Real.tan (deg2rad b) / Real.cos (deg2rad a))
    exact mod2pi_of_range (by linarith) (by linarith)

/-- one piece between two such points -/
theorem integrand_90 {c d u v : ℝ} (hu : |u| < Real.pi / 2) (hv : |v| < Real.pi / 2) :
    integrand (Real.pi / 2 + c, Real.pi / 2 - u) (Real.pi / 2 + d, Real.pi / 2 - v) = (1 + Real.sin ((c + d) / 2)) * (u - v) := by
  unfold integrand
  obtain ⟨hu1, hu2⟩ := abs_lt.1 hu
  obtain ⟨hv1, hv2⟩ := abs_lt.1 hv
  have hw : wrap (Real.pi / 2 - v - (Real.pi / 2 - u)) = u - v := wrap_unique (k := 0) (by push_cast; ring) (by linarith) (by linarith)
  simp only [hw]
  have : Real.pi / 2 + c + (Real.pi / 2 + d - (Real.pi / 2 + c)) / 2 = (c + d) / 2 + Real.pi / 2 := by ring
  rw [this, Real.cos_add_pi_div_two]
  ring

/-- one degree -/
noncomputable def opD : ℝ := Real.pi / 180

noncomputable def opAl : ℝ := Real.arcsin (Real.cos (3 / 5 * opD) * Real.sin (5 / 4 * opD))
noncomputable def opTh : ℝ := Real.arctan (Real.tan (3 / 5 * opD) / Real.cos (5 / 4 * opD))

theorem opD_pos : 0 < opD ∧ opD < 1 / 50 := by
  unfold opD
  have h1 := Real.pi_pos
  have h2 := Real.pi_lt_d2
  exact ⟨by positivity, by linarith⟩

theorem deg_opD (x : ℝ) : deg2rad x = x * opD := rfl

theorem opD_pi : opD * 180 = Real.pi := by unfold opD; ring

theorem op_arcsin {x : ℝ} (h0 : -(90 : ℝ) ≤ x) (h1 : x ≤ 90) : Real.arcsin (Real.sin (x * opD)) = x * opD := by
  have := opD_pi
  have := opD_pos.1
  exact Real.arcsin_sin (by nlinarith) (by nlinarith)

theorem op_arctan {x : ℝ} (h0 : -(90 : ℝ) < x) (h1 : x < 90) : Real.arctan (Real.tan (x * opD)) = x * opD := by
  have := opD_pi
  have := opD_pos.1
  exact Real.arctan_tan (by nlinarith) (by nlinarith)

theorem opPolarP : polar (89, 0) = (Real.pi / 2 + -opD, Real.pi / 2 - 0) := by
  have := polar_90 (a := -1) (b := 0) (by norm_num) (by norm_num)
  norm_num [deg_opD] at this
  rw [this]
  have h := op_arcsin (x := 1) (by norm_num) (by norm_num)
  rw [one_mul] at h
  rw [h]
  simp

theorem opPolarQ : polar (91, 0) = (Real.pi / 2 + opD, Real.pi / 2 - 0) := by
  have := polar_90 (a := 1) (b := 0) (by norm_num) (by norm_num)
  norm_num [deg_opD] at this
  rw [this]
  have h := op_arcsin (x := 1) (by norm_num) (by norm_num)
  rw [one_mul] at h
  rw [h]
  simp

theorem opPolarW : polar (355 / 4, 3 / 5) = (Real.pi / 2 + -opAl, Real.pi / 2 - opTh) := by
  have h := polar_90 (a := -(5 / 4)) (b := 3 / 5) (by norm_num [abs_of_pos]) (by norm_num [abs_of_pos])
  have e : (90 : ℝ) + -(5 / 4) = 355 / 4 := by norm_num
  rw [e] at h
  rw [h]
  simp only [deg_opD, neg_mul, Real.sin_neg, Real.cos_neg, mul_neg, Real.arcsin_neg]
  rfl

theorem opPolarE : polar (365 / 4, 3 / 5) = (Real.pi / 2 + opAl, Real.pi / 2 - opTh) := by
  have h := polar_90 (a := 5 / 4) (b := 3 / 5) (by norm_num [abs_of_pos]) (by norm_num [abs_of_pos])
  have e : (90 : ℝ) + 5 / 4 = 365 / 4 := by norm_num
  rw [e] at h
  rw [h]
  rfl

theorem opPolarM {y : ℝ} (h0 : -90 < y) (h1 : y < 90) : polar (90, y) = (Real.pi / 2 + 0, Real.pi / 2 - y * opD) := by
  have h := polar_90 (a := 0) (b := y) (by norm_num) (abs_lt.2 ⟨h0, h1⟩)
  rw [add_zero] at h
  rw [h]
  simp only [deg_opD, zero_mul, Real.sin_zero, mul_zero, Real.arcsin_zero, Real.cos_zero, div_one, op_arctan h0 h1]

theorem opTh_abs : |opTh| < Real.pi / 2 := abs_lt.2 ⟨Real.neg_pi_div_two_lt_arctan _, Real.arctan_lt_pi_div_two _⟩

theorem opY_abs {y : ℝ} (h0 : -90 < y) (h1 : y < 90) : |y * opD| < Real.pi / 2 := by
  have := opD_pi
  have := opD_pos.1
  exact abs_lt.2 ⟨by nlinarith, by nlinarith⟩

theorem opIntegral : integral (opPts.map polar) =
    2 * (opTh * Real.sin ((opD + opAl) / 2) + (8 / 5 * opD - opTh) * Real.sin (opAl / 2)) := by
  have h0 : |(0 : ℝ)| < Real.pi / 2 := by rw [abs_zero]; have := Real.pi_pos; positivity
  have hN := opY_abs (y := 8 / 5) (by norm_num) (by norm_num)
  unfold opPts
  simp only [List.map_cons, List.map_nil, opPolarP, opPolarQ, opPolarW, opPolarE, opPolarM (y := 8 / 5) (by norm_num) (by norm_num)]
  unfold integral
  simp only [List.tail_cons, List.zipWith_cons_cons, List.zipWith_nil_right, List.sum_cons, List.sum_nil,
    integrand_90 h0 opTh_abs, integrand_90 opTh_abs hN, integrand_90 hN opTh_abs, integrand_90 opTh_abs h0]
  have e1 : (-opD + -opAl) / 2 = -((opD + opAl) / 2) := by ring
  have e2 : (-opAl + 0) / 2 = -(opAl / 2) := by ring
  have e3 : (opAl + opD) / 2 = (opD + opAl) / 2 := by ring
  rw [e1, e2, e3, Real.sin_neg, Real.sin_neg, zero_add]
  ring

theorem opIntegralCurve : integral (opCurve.map polar) = -(4 * opD * Real.sin (opAl / 2)) := by
  have hN := opY_abs (y := 8 / 5) (by norm_num) (by norm_num)
  have hS := opY_abs (y := -2 / 5) (by norm_num) (by norm_num)
  unfold opCurve
  simp only [List.map_cons, List.map_nil, opPolarW, opPolarE, opPolarM (y := 8 / 5) (by norm_num) (by norm_num),
    opPolarM (y := -2 / 5) (by norm_num) (by norm_num)]
  unfold integral
  simp only [List.tail_cons, List.zipWith_cons_cons, List.zipWith_nil_right, List.sum_cons, List.sum_nil,
    integrand_90 opTh_abs hN, integrand_90 hN opTh_abs, integrand_90 opTh_abs hS, integrand_90 hS opTh_abs]
  have e1 : (-opAl + 0) / 2 = -(opAl / 2) := by ring
  have e2 : (0 + -opAl) / 2 = -(opAl / 2) := by ring
  rw [e1, e2, Real.sin_neg, zero_add, add_zero]
  ring

theorem sin_ge_small {x : ℝ} (h0 : 0 < x) (h1 : x ≤ 1 / 40) : 999 / 1000 * x ≤ Real.sin x := by
  have h2 := Real.sin_gt_sub_cube h0
  have h3 : x ^ 2 ≤ (1 / 40) ^ 2 := pow_le_pow_left₀ h0.le h1 2
  have h4 : x ^ 3 ≤ (1 / 40) ^ 2 * x := by
    have : x ^ 3 = x ^ 2 * x := by ring
    rw [this]
    exact mul_le_mul_of_nonneg_right h3 h0.le
  linarith

theorem cos_ge_small {x : ℝ} (h0 : 0 ≤ x) (h1 : x ≤ 1 / 40) : 999 / 1000 ≤ Real.cos x := by
  have h2 : 1 - x ^ 2 / 2 ≤ Real.cos x := Real.one_sub_sq_div_two_le_cos
  have h3 : x ^ 2 ≤ (1 / 40) ^ 2 := pow_le_pow_left₀ h0 h1 2
  linarith

theorem opBounds : 9 / 8 * opD ≤ opAl ∧ opAl ≤ 5 / 4 * opD ∧ 3 / 5 * opD ≤ opTh ∧ opTh ≤ 61 / 100 * opD := by
  obtain ⟨h0, h1⟩ := opD_pos
  have hpi := opD_pi
  have c1' : 999 / 1000 ≤ Real.cos (3 / 5 * opD) := cos_ge_small (by positivity) (by linarith)
  have c2' : 999 / 1000 ≤ Real.cos (5 / 4 * opD) := cos_ge_small (by positivity) (by linarith)
  have s1' : 999 / 1000 * (5 / 4 * opD) ≤ Real.sin (5 / 4 * opD) := sin_ge_small (by positivity) (by linarith)
  have hsin : 0 < Real.sin (5 / 4 * opD) := lt_of_lt_of_le (by positivity) s1'
  refine ⟨?_, ?_, ?_, ?_⟩
  · unfold opAl
    rw [Real.le_arcsin_iff_sin_le' ⟨by nlinarith, by nlinarith⟩]
    have : Real.sin (9 / 8 * opD) ≤ 9 / 8 * opD := Real.sin_le (by positivity)
    have : 999 / 1000 * (999 / 1000 * (5 / 4 * opD)) ≤ Real.cos (3 / 5 * opD) * Real.sin (5 / 4 * opD) :=
      mul_le_mul c1' s1' (by positivity) (by linarith)
    linarith
  · have : opAl ≤ Real.arcsin (Real.sin (5 / 4 * opD)) := by
      apply Real.monotone_arcsin
      have := Real.cos_le_one (3 / 5 * opD)
      nlinarith
    rwa [op_arcsin (by norm_num) (by norm_num)] at this
  · rw [← op_arctan (x := 3 / 5) (by norm_num) (by norm_num)]
    apply Real.arctan_strictMono.monotone
    have ht : 0 ≤ Real.tan (3 / 5 * opD) := Real.tan_nonneg_of_nonneg_of_le_pi_div_two (by positivity) (by nlinarith)
    rw [le_div_iff₀ (by linarith)]
    have := Real.cos_le_one (5 / 4 * opD)
    nlinarith
  · have ht : 0 ≤ Real.tan (3 / 5 * opD) := Real.tan_nonneg_of_nonneg_of_le_pi_div_two (by positivity) (by nlinarith)
    have h3 : Real.tan (3 / 5 * opD) ≤ 3 / 5 * opD / (999 / 1000) := by
      rw [Real.tan_eq_sin_div_cos]
      have : Real.sin (3 / 5 * opD) ≤ 3 / 5 * opD := Real.sin_le (by positivity)
      exact div_le_div₀ (by positivity) this (by norm_num) c1'
    have h4 : Real.tan (3 / 5 * opD) / Real.cos (5 / 4 * opD) ≤ 3 / 5 * opD / (999 / 1000) / (999 / 1000) :=
      div_le_div₀ (by positivity) h3 (by norm_num) c2'
    have h5 : opTh ≤ Real.tan (3 / 5 * opD) / Real.cos (5 / 4 * opD) := by
      unfold opTh
      have hx : 0 ≤ Real.tan (3 / 5 * opD) / Real.cos (5 / 4 * opD) := div_nonneg ht (by linarith)
      rcases hx.eq_or_lt with h | h
      · rw [← h, Real.arctan_zero]
      · have := Real.lt_tan (Real.arctan_pos.2 h) (Real.arctan_lt_pi_div_two _)
        rw [Real.tan_arctan] at this
        exact this.le
    have h6 : 3 / 5 * opD / (999 / 1000) / (999 / 1000) ≤ 61 / 100 * opD := by
      rw [div_div, div_le_iff₀ (by norm_num)]
      nlinarith
    linarith

/-- the two areas differ by less than 8 % -/
theorem opAreaBounds : 0 < Real.sin (opAl / 2) ∧ Real.sin (opAl / 2) ≤ opD ∧
    |integral (opPts.map polar) - 4 * opD * Real.sin (opAl / 2)| ≤ 8 / 100 * (4 * opD * Real.sin (opAl / 2)) := by
  obtain ⟨h0, h1⟩ := opD_pos
  obtain ⟨a1, a2, t1, t2⟩ := opBounds
  have s1' : 999 / 1000 * (opAl / 2) ≤ Real.sin (opAl / 2) := sin_ge_small (by linarith) (by linarith)
  have s2 : Real.sin (opAl / 2) ≤ opAl / 2 := Real.sin_le (by linarith)
  have s3 : Real.sin (opD / 2) ≤ opD / 2 := Real.sin_le (by linarith)
  have s4' : 999 / 1000 * (opD / 2) ≤ Real.sin (opD / 2) := sin_ge_small (by linarith) (by linarith)
  have hσ : 0 < Real.sin (opAl / 2) := by linarith
  have c1' : 999 / 1000 ≤ Real.cos (opAl / 2) := cos_ge_small (by linarith) (by linarith)
  have c2' : 999 / 1000 ≤ Real.cos (opD / 2) := cos_ge_small (by linarith) (by linarith)
  have hadd : Real.sin ((opD + opAl) / 2) = Real.sin (opD / 2) * Real.cos (opAl / 2) + Real.cos (opD / 2) * Real.sin (opAl / 2) := by
    rw [← Real.sin_add]
    congr 1
    ring
  set σ := Real.sin (opAl / 2)
  have up : Real.sin ((opD + opAl) / 2) ≤ 19 / 10 * σ := by
    have e1 : Real.sin (opD / 2) * Real.cos (opAl / 2) ≤ opD / 2 * 1 :=
      mul_le_mul s3 (Real.cos_le_one _) (by linarith) (by linarith)
    have e2 : Real.cos (opD / 2) * σ ≤ 1 * σ := mul_le_mul_of_nonneg_right (Real.cos_le_one _) hσ.le
    rw [hadd]
    linarith
  have lo : 7 / 5 * σ ≤ Real.sin ((opD + opAl) / 2) := by
    have e1 : 999 / 1000 * (opD / 2) * (999 / 1000) ≤ Real.sin (opD / 2) * Real.cos (opAl / 2) :=
      mul_le_mul s4' c1' (by norm_num) (by linarith)
    have e2 : 999 / 1000 * σ ≤ Real.cos (opD / 2) * σ := mul_le_mul_of_nonneg_right c2' hσ.le
    rw [hadd]
    linarith
  refine ⟨hσ, by linarith, ?_⟩
  rw [opIntegral]
  have e1 : opTh * Real.sin ((opD + opAl) / 2) ≤ opTh * (19 / 10 * σ) := mul_le_mul_of_nonneg_left up (by linarith)
  have e2 : opTh * (7 / 5 * σ) ≤ opTh * Real.sin ((opD + opAl) / 2) := mul_le_mul_of_nonneg_left lo (by linarith)
  have e3 : opTh * σ ≤ 61 / 100 * opD * σ := mul_le_mul_of_nonneg_right t2 hσ.le
  have e4 : 3 / 5 * opD * σ ≤ opTh * σ := mul_le_mul_of_nonneg_right t1 hσ.le
  rw [abs_le]
  constructor <;> nlinarith

theorem areaPolygon_eq (l : List (ℝ × ℝ)) : areaPolygon l = (6378137 / 1000) ^ 2 * |integral (l.map polar)| := by
  unfold areaPolygon
  simp only
  have := Real.pi_pos
  field_simp
  norm_num

theorem opAreaClose : isclose (areaPolygon opPts) (areaPolygon opCurve) (1 / 10 * (85 / 100)) = true := by
  obtain ⟨h1, _, h2⟩ := opAreaBounds
  have h0 := opD_pos.1
  have hpos : 0 < 4 * opD * Real.sin (opAl / 2) := by positivity
  unfold isclose
  rw [decide_eq_true_eq, areaPolygon_eq, areaPolygon_eq, opIntegralCurve, abs_neg, abs_of_pos hpos, ← mul_sub, abs_mul,
    abs_of_pos (by norm_num : (0 : ℝ) < (6378137 / 1000) ^ 2), abs_mul, abs_of_pos hpos,
    abs_of_pos (by norm_num : (0 : ℝ) < (6378137 / 1000) ^ 2)]
  have h3 : 0 ≤ integral (opPts.map polar) := by
    have := (abs_le.1 h2).1
    linarith
  rw [abs_of_nonneg h3]
  nlinarith

theorem opSize : Real.sqrt (areaPolygon opPts / Real.pi) ≤ 2 * Real.pi * approxRD (meanPt opPts).2 := by
  obtain ⟨h1, h1', h2⟩ := opAreaBounds
  obtain ⟨h0, h0'⟩ := opD_pos
  have hpi := Real.pi_gt_three
  have hI : |integral (opPts.map polar)| ≤ 5 * (1 / 50) ^ 2 := by
    have h3 := abs_le.1 h2
    have h4 : opD * Real.sin (opAl / 2) ≤ 1 / 50 * (1 / 50) := mul_le_mul h0'.le (h1'.trans h0'.le) h1.le (by norm_num)
    have h5 : 0 < opD * Real.sin (opAl / 2) := by positivity
    rw [abs_le]
    constructor <;> nlinarith
  have hrd : 100 ≤ approxRD (14 / 25) := by
    unfold approxRD
    simp only
    have e1 := Real.add_one_le_exp (-(14 / 25 - (0 : ℝ)) ^ 2 / 2 * (15 / 100) ^ 2)
    have e2 := Real.exp_pos (-(14 / 25 - (0 : ℝ)) ^ 2 / 40 * (15 / 100) ^ 2)
    norm_num at e1 e2 ⊢
    linarith
  rw [opMean]
  simp only
  have hR : (600 : ℝ) ≤ 2 * Real.pi * approxRD (14 / 25) := by nlinarith
  refine le_trans ?_ hR
  rw [show (600 : ℝ) = Real.sqrt (600 ^ 2) by rw [Real.sqrt_sq (by norm_num)]]
  apply Real.sqrt_le_sqrt
  rw [areaPolygon_eq, div_le_iff₀ (by linarith)]
  nlinarith [abs_nonneg (integral (opPts.map polar))]

/-! ### the other criteria -/

theorem opSim : ∃ v, similarity 100 opPts opCurve = .ok v ∧ ¬ gtNan v (85 / 100 : ℝ) := by
  obtain ⟨d, hd, _⟩ := Frechet.C24_frdist_is_discrete_frechet 100 eucl eucl_symm opPts opCurve (by simp [opPts])
    (by simp [opCurve]) (Or.inl (by simp [opPts])) (by simp [opPts, opCurve])
  have hge := Frechet.C25_frdist_ge_first 100 eucl eucl_symm opPts opCurve _ _ rfl rfl d hd
  have h1 : 9 / 4 ≤ d := by
    refine le_trans ?_ hge
    unfold eucl
    apply Real.le_sqrt_of_sq_le
    norm_num
  have sq : ∀ {x y : ℝ}, 0 ≤ y → x ≤ y ^ 2 → Real.sqrt x ≤ y := fun h0 h => (Real.sqrt_le_left h0).2 h
  have l1 : arcLength opPts ≤ 5 := by
    unfold arcLength opPts
    simp only [arcLoop, eucl]
    have e1 : Real.sqrt ((89 - 355 / 4) ^ 2 + (0 - 3 / 5) ^ 2) ≤ 7 / 10 := sq (by norm_num) (by norm_num)
    have e2 : Real.sqrt ((355 / 4 - 90) ^ 2 + (3 / 5 - 8 / 5) ^ 2) ≤ 17 / 10 := sq (by norm_num) (by norm_num)
    have e3 : Real.sqrt ((90 - 365 / 4) ^ 2 + (8 / 5 - 3 / 5) ^ 2) ≤ 17 / 10 := sq (by norm_num) (by norm_num)
    have e4 : Real.sqrt ((365 / 4 - 91) ^ 2 + (3 / 5 - 0) ^ 2) ≤ 7 / 10 := sq (by norm_num) (by norm_num)
    linarith
  have l2 : arcLength opCurve ≤ 7 := by
    unfold arcLength opCurve
    simp only [arcLoop, eucl]
    have e1 : Real.sqrt ((365 / 4 - 90) ^ 2 + (3 / 5 - 8 / 5) ^ 2) ≤ 17 / 10 := sq (by norm_num) (by norm_num)
    have e2 : Real.sqrt ((90 - 355 / 4) ^ 2 + (8 / 5 - 3 / 5) ^ 2) ≤ 17 / 10 := sq (by norm_num) (by norm_num)
    have e3 : Real.sqrt ((355 / 4 - 90) ^ 2 + (3 / 5 - -2 / 5) ^ 2) ≤ 17 / 10 := sq (by norm_num) (by norm_num)
    have e4 : Real.sqrt ((90 - 365 / 4) ^ 2 + (-2 / 5 - 3 / 5) ^ 2) ≤ 17 / 10 := sq (by norm_num) (by norm_num)
    linarith
  have g1 : 0 ≤ arcLength opPts := by
    unfold arcLength opPts
    simp only [arcLoop, eucl]
    positivity
  have g2 : 0 ≤ arcLength opCurve := by
    unfold arcLength opCurve
    simp only [arcLoop, eucl]
    positivity
  have geo : Real.sqrt (arcLength opPts * arcLength opCurve) ≤ 6 := sq (by norm_num) (by nlinarith)
  have s2 : (7 / 5 : ℝ) ≤ Real.sqrt 2 := Real.le_sqrt_of_sq_le (by norm_num)
  have hden : Real.sqrt (arcLength opPts * arcLength opCurve) / Real.sqrt 2 ≤ 30 / 7 := by
    rw [div_le_iff₀ (by linarith)]
    linarith
  unfold similarity
  simp only [hd, bind, Except.bind, pure, Except.pure]
  split
  · rename_i h0
    refine ⟨_, rfl, ?_⟩
    rintro ⟨u, hu, h2⟩
    rw [if_neg (by linarith)] at hu
    injection hu with hu
    have := (round4_range (x := 0) le_rfl (by norm_num)).2
    have h3 := roundEven_le (x := 0 * 10000) (n := 0) (by norm_num)
    have h4 : round4 0 ≤ 0 := by
      unfold round4
      have : ((roundEven (0 * 10000) : ℤ) : ℝ) ≤ 0 := by exact_mod_cast h3
      exact div_nonpos_of_nonpos_of_nonneg this (by norm_num)
    linarith
  · rename_i h0
    refine ⟨_, rfl, ?_⟩
    rintro ⟨u, hu, h2⟩
    injection hu with hu
    have hp : 0 < Real.sqrt (arcLength opPts * arcLength opCurve) / Real.sqrt 2 :=
      lt_of_le_of_ne (by positivity) (Ne.symm h0)
    have h3 : 21 / 40 ≤ d / (Real.sqrt (arcLength opPts * arcLength opCurve) / Real.sqrt 2) := by
      rw [le_div_iff₀ hp]
      linarith
    have h4 : max (1 - d / (Real.sqrt (arcLength opPts * arcLength opCurve) / Real.sqrt 2)) 0 ≤ 1 / 2 :=
      max_le (by linarith) (by norm_num)
    have h5 : roundEven (max (1 - d / (Real.sqrt (arcLength opPts * arcLength opCurve) / Real.sqrt 2)) 0 * 10000) ≤ 5000 :=
      roundEven_le (by push_cast; linarith)
    have h6 : u ≤ 1 / 2 := by
      rw [← hu]
      unfold round4
      have : ((roundEven (max (1 - d / (Real.sqrt (arcLength opPts * arcLength opCurve) / Real.sqrt 2)) 0 * 10000) : ℤ) : ℝ) ≤ 5000 := by
        exact_mod_cast h5
      linarith
    linarith

theorem opSkips : Cntr.skipsContour (opPts.map some) = false := by
  have h : Cntr.skipsContour (opPts.map some) =
      (Cntr.closeNan (some (90 : ℝ)) (some 89) && Cntr.closeNan (some ((14 : ℝ) / 25)) (some 0)) := by
    unfold Cntr.skipsContour opPts Cntr.meanOf
    simp only [List.map_cons, List.map_nil, Option.map_some, List.all_cons, List.all_nil, Option.isSome_some, Bool.and_true,
      if_true, Option.getD_some, List.sum_cons, List.sum_nil, List.length_cons, List.length_nil]
    norm_num
  rw [h]
  unfold Cntr.closeNan
  norm_num [abs_of_pos]

/-! ### the data inside -/

/-- the nearest grid points -/
noncomputable def opPixel (v : ℝ × ℝ) : ℕ × ℕ := if v.2 = 0 then (0, 1) else (1, 1)

theorem opClear : ∀ v ∈ opPts, opField.ClearPixel (meanPt opPts) v (opPixel v) := by
  intro v hv
  rw [opMean]
  simp only [opPts, List.mem_cons, List.not_mem_nil, or_false] at hv
  have key : ∀ p : ℕ × ℕ, (p = (0, 1) ∨ p = (1, 1)) →
      (∀ r < 3, ∀ c < 3, (r, c) ≠ p → (opField.X.get p.1 p.2 - v.1) ^ 2 + (opField.Y.get p.1 p.2 - v.2) ^ 2 <
        (opField.X.get r c - v.1) ^ 2 + (opField.Y.get r c - v.2) ^ 2) → opField.ClearPixel (90, 14 / 25) v p := by
    intro p hp h
    refine ⟨?_, ?_, ?_, ?_, h⟩
    · show p.1 < 3
      rcases hp with rfl | rfl <;> decide
    · show p.2 < 3
      rcases hp with rfl | rfl <;> decide
    · rcases hp with rfl | rfl <;> simp only [opField] <;> rw [abs_le] <;> norm_num
    · rcases hp with rfl | rfl <;> simp only [opField] <;> rw [abs_le] <;> norm_num
  apply key
  · unfold opPixel
    split_ifs <;> simp
  · rcases hv with rfl | rfl | rfl | rfl | rfl <;> unfold opPixel opField <;> norm_num <;>
      intro r hr c hc hne <;> interval_cases r <;> interval_cases c <;>
      first | (exfalso; simp at hne; done) | (clear hne; norm_num)

def opWindow : Window := ⟨0, 0, 3, 3, [(0, 1), (1, 1), (1, 1), (1, 1), (0, 1)]⟩

theorem opGetWindow : getWindow 3 3 (0, 1) [(1, 1), (1, 1), (1, 1), (0, 1)] .auto = opWindow := by
  decide +kernel

theorem opFill : fillHoles 3 3 opWindow.rel.toFinset = {(0, 1), (1, 1)} := by decide +kernel

theorem opExtremum : ∃ e, maskDataInContour 3 3 opWindow.rel.toFinset (cut opWindow opField.data).get = .ok e ∧ e.maxima ≠ 0 := by
  have hZ : ∀ r < 3, ∀ c < 3, (cut opWindow opField.data).get r c = some (if c = 1 then [3 / 4, 6 / 7].getD r 0 else 0) := by
    intro r hr c hc
    simp only [cut, opWindow, opField, Int.toNat_zero, Nat.zero_add, hr, hc, and_self, if_true]
  obtain ⟨e, he⟩ := (C42_defined 3 3 (cut opWindow opField.data).get
    fun r c => decide (((r : Int), (c : Int)) ∈ fillHoles 3 3 opWindow.rel.toFinset)).1.2
      ⟨1, 1, 6 / 7, by norm_num, by norm_num, by rw [opFill]; decide, by rw [hZ 1 (by norm_num) 1 (by norm_num)]; simp⟩
  refine ⟨e, he, ?_⟩
  obtain ⟨x, ⟨h1, h2, h3, h4⟩, h5, _⟩ := C42_extremum _ _ _ _ e he
  have ht : total 3 3 (cut opWindow opField.data).get (fun r c => decide (((r : Int), (c : Int)) ∈ fillHoles 3 3 opWindow.rel.toFinset)) =
      3 / 4 + 6 / 7 := by
    rw [opFill]
    unfold total
    simp only [Finset.sum_range_succ, Finset.sum_range_zero, hZ 0 (by norm_num), hZ 1 (by norm_num), hZ 2 (by norm_num),
      (by norm_num : 0 < 3), (by norm_num : 1 < 3), (by norm_num : 2 < 3)]
    simp
  obtain ⟨_, g2, g3, _⟩ := h5 (by rw [ht]; norm_num)
  rw [g2]
  exact ne_of_gt g3

theorem opData : ∃ i, dataInContour exLibs opField opPts = .ok i ∧ i.ext.maxima ≠ 0 := by
  obtain ⟨x, h1, h2⟩ := opExtremum
  refine ⟨⟨opWindow, x⟩, ?_, h2⟩
  rw [dataInContour_nearest exLibs_nearest opField_rect (by simp [opPts]) fun v hv => clear_nearest (opClear v hv)]
  have e : (opPts.map fun v => (((opPixel v).1 : Int), ((opPixel v).2 : Int))) = [(0, 1), (1, 1), (1, 1), (1, 1), (0, 1)] := by
    unfold opPts opPixel
    norm_num
  rw [e]
  simp only
  have hw : getWindow (opField.data.rows : Int) (opField.data.cols : Int) (0, 1) [(1, 1), (1, 1), (1, 1), (0, 1)] .auto = opWindow :=
    opGetWindow
  rw [hw, if_pos (by
    show (opWindow.rel.all fun q => decide (0 ≤ q.1 ∧ q.1 < ((3 : Nat) : Int) ∧ 0 ≤ q.2 ∧ q.2 < ((3 : Nat) : Int))) = true
    decide)]
  have he' : maskDataInContour (cut opWindow opField.data).rows (cut opWindow opField.data).cols opWindow.rel.toFinset
    (cut opWindow opField.data).get = .ok x := h1
  rw [he']
  rfl

theorem opStored : ∃ e, examine { defaultCriteria with skipGauss := true } exLibs opField (1 / 2) (opPts.map some) = .ok (.stored e) := by
  obtain ⟨v, hv, hgt⟩ := opSim
  obtain ⟨i, hi, h0⟩ := opData
  exact (examine_data (c := { defaultCriteria with skipGauss := true }) rfl opSkips opSize opFit opFinite opAreaClose opEccen hv hgt).2
    i hi h0

/-- **C108 refuted**: with the default criteria, apart from the Gaussian fit, which the user leaves out, a run on a map without
missing values returns eddies, and none of their contours is closed. (Nothing in `_detect_one_level` asks whether a contour is
closed. The elevation is cut off by the southern edge of the grid, at the equator, and what is left of its contour passes the
tests.) -/
theorem C108_refuted : ∃ (E : Env Cols ℝ (ℝ × ℝ)) (L : Libs) (S : Fields) (l : ℝ) (s : LoopState Cols),
    IsNN E.dist E.nn ∧ L.Nearest ∧ S.Ok ∧ S.Rectilinear ∧ (∀ r < S.data.rows, ∀ c < S.data.cols, (S.data.get r c).isSome) ∧
    (trackFields E { defaultCriteria with skipGauss := true } L (fun _ => S) [l] 0 none 1 1 true Regs.empty).2 = .ok s ∧
    s.table.rows ≠ [] ∧
    MadeOfT (fun _ rows => ∃ d pts, rows = tableRows d ∧ HasContour d pts ∧ ¬ ClosedLine pts) s.table.rows := by
  obtain ⟨nn, hnn⟩ := exists_isNN haversine
  obtain ⟨e, he⟩ := opStored
  obtain ⟨s, h1, h2⟩ := run_single hnn (by norm_num) opField_ok (opField_contours exLibs) he
  refine ⟨colsEnv true nn, exLibs, opField, 1 / 2, s, hnn, exLibs_nearest, opField_ok, opField_rect, opField_full, h1,
    h2.2 ⟨e, rfl⟩, ?_⟩
  have hnn' : IsNN (colsEnv true nn).dist (colsEnv true nn).nn := hnn
  refine (trackFields_made hnn' (fun _ _ => opField_ok) ⟨rfl, rfl⟩ h1).mono ?_
  rintro t rows ⟨l, hl, _, vs, hvs, e', he', hre, _⟩
  rw [List.mem_singleton] at hl
  subst hl
  rw [opField_contours, List.mem_singleton] at hvs
  subst hvs
  obtain ⟨_, h3, _⟩ := examine_stored.1 he'
  have hc : e'.contour = opPts := (List.map_injective_iff.2 (Option.some_injective _) h3).symm
  refine ⟨e'.data, opPts, hre, ?_, ?_⟩
  · unfold HasContour
    rw [← hc]
    rfl
  · unfold ClosedLine opPts
    norm_num

/-- the hypotheses of `C108_closed_inside` hold for the map of the example, whose table is not empty -/
example : ∃ (nn : List (ℝ × ℝ) → ℝ × ℝ → Nat) (s : LoopState Cols),
    IsNN (colsEnv true nn).dist (colsEnv true nn).nn ∧ (∀ t ∈ trackTimes 0 none 1, ((fun _ => exField) t : Fields).Ok) ∧
    (∀ l ∈ ([1 / 2] : List ℝ), l ≠ 0 → exField.grid.EdgeOnOneSide l) ∧
    (trackFields (colsEnv true nn) exCriteria exLibs (fun _ => exField) [1 / 2] 0 none 1 1 true Regs.empty).2 = .ok s ∧
    s.table.rows ≠ [] := by
  obtain ⟨nn, s, h1, h2, h3, h4, h5⟩ := exPipeline
  refine ⟨nn, s, h1, fun t ht => (h2 t ht).1, ?_, h4, h5⟩
  intro l hl _
  rw [List.mem_singleton] at hl
  subst hl
  have key : ∀ p, exField.grid.Outermost p → ¬ exField.grid.Above (1 / 2) p := by
    rintro ⟨i, j⟩ ⟨h1, h2, h3⟩ ⟨v, hv, hlt⟩
    have h1 : i < 4 := h1
    have h2 : j < 3 := h2
    have h3 : i = 0 ∨ i + 1 = 4 ∨ j = 0 ∨ j + 1 = 3 := h3
    have hv : exField.data.get j i = some v := hv
    have h0 : exField.data.get j i = some 0 := by
      simp only [exField]
      rw [if_pos ⟨h2, h1⟩, if_neg (by omega)]
    rw [h0] at hv
    injection hv with hv
    rw [← hv] at hlt
    norm_num at hlt
  intro p q hp hq
  exact iff_of_false (key p hp) (key q hq)

end Trackeddy
