import Verif.Props.Negated

/-!
C106: the origin of the longitudes.
-/
namespace Trackeddy
open Spec
open Cntr (Vertex SameShape arrGrid)

/-- the same map with longitudes `a * lon + b` -/
def Fields.relon (S : Fields) (a b : ℝ) : Fields := ⟨⟨S.X.rows, S.X.cols, fun r c => a * S.X.get r c + b⟩, S.Y, S.data⟩

/-- the same map with longitudes counted `k` turns further -/
def Fields.around (S : Fields) (k : ℤ) : Fields := ⟨⟨S.X.rows, S.X.cols, fun r c => S.X.get r c + 360 * k⟩, S.Y, S.data⟩

theorem Fields.around_relon (S : Fields) (k : ℤ) : S.around k = S.relon 1 (360 * k) := by
  unfold Fields.around Fields.relon
  simp

theorem Fields.around_ok {S : Fields} (h : S.Ok) (k : ℤ) : (S.around k).Ok := h

theorem Fields.relon_ok {S : Fields} (h : S.Ok) (a b : ℝ) : (S.relon a b).Ok := h

/-! ### contours -/

theorem contourList_relon (L : Libs) {S : Fields} (h : S.Ok) (a b level : ℝ) :
    contourList L (S.relon a b) level =
      (contourList L S level).map fun vs => vs.map (Option.map fun p => (a * p.1 + b, p.2)) := by
  obtain ⟨segs, codes, h1, h2⟩ := Cntr.C79_affine_coordinates h level a 0 b 0 1 0 (L.mem S.data level)
    (L.mem S.data level) (fuel := 4 * (S.data.cols * S.data.rows) + 2) (fuel' := 4 * (S.data.cols * S.data.rows) + 2) le_rfl le_rfl
  have hx : Cntr.NdArr.lin a 0 b S.X S.Y = (S.relon a b).X := by
    unfold Cntr.NdArr.lin Fields.relon
    have h3 := h.1
    simp_all
  have hy : Cntr.NdArr.lin 0 1 0 S.X S.Y = S.Y := by
    unfold Cntr.NdArr.lin
    have h3 := h.1
    have h4 := h.2.1
    cases hY : S.Y
    simp_all
  rw [hx, hy] at h2
  unfold contourList contoursOf
  have e : 4 * ((S.relon a b).data.cols * (S.relon a b).data.rows) + 2 = 4 * (S.data.cols * S.data.rows) + 2 := rfl
  have e2 : (S.relon a b).data = S.data := rfl
  have e3 : (S.relon a b).Y = S.Y := rfl
  rw [e, e2, e3, h1, h2]
  simp only [zero_mul, one_mul, add_zero, zero_add]
  rw [List.filterMap_map, List.map_filterMap]
  apply List.filterMap_congr
  intro it _
  cases it <;> simp [vertsOf, Cntr.Item.map]

/-- a point counted `k` turns further -/
def lonTurn (k : ℤ) (p : ℝ × ℝ) : ℝ × ℝ := (p.1 + 360 * k, p.2)

theorem contourList_around (L : Libs) {S : Fields} (h : S.Ok) (k : ℤ) (level : ℝ) :
    contourList L (S.around k) level = (contourList L S level).map fun vs => vs.map (Option.map (lonTurn k)) := by
  rw [S.around_relon, contourList_relon L h]
  simp only [one_mul]
  rfl

/-! ### the ellipse -/

theorem meanPt_translate {pts : List (ℝ × ℝ)} (hne : pts ≠ []) (v : ℝ × ℝ) :
    meanPt (pts.map fun p => (p.1 + v.1, p.2 + v.2)) = ((meanPt pts).1 + v.1, (meanPt pts).2 + v.2) := by
  have hl : (pts.length : ℝ) ≠ 0 := Nat.cast_ne_zero.2 (by simpa using hne)
  unfold meanPt
  simp only [List.map_map, Function.comp_def, List.length_map]
  have e : ∀ (f : ℝ × ℝ → ℝ) (b : ℝ), (pts.map fun p => f p + b).sum = (pts.map f).sum + pts.length * b := by
    intro f b
    rw [List.sum_map_add]
    simp
  rw [e, e]
  simp only [Prod.mk.injEq]
  constructor <;> field_simp

theorem fitConic_translate {pts : List (ℝ × ℝ)} (hne : pts ≠ []) (v : ℝ × ℝ) :
    fitConic (pts.map fun p => (p.1 + v.1, p.2 + v.2)) = fitConic pts := by
  have hd : ∀ m p : ℝ × ℝ, designRow (m.1 + v.1, m.2 + v.2) (p.1 + v.1, p.2 + v.2) = designRow m p := by
    intro m p
    unfold designRow
    simp only [add_sub_add_right_eq_sub]
  have h1 : normalMat ((meanPt pts).1 + v.1, (meanPt pts).2 + v.2) (pts.map fun p => (p.1 + v.1, p.2 + v.2)) =
      normalMat (meanPt pts) pts := by
    unfold normalMat
    simp only [List.map_map, Function.comp_def, hd]
  have h2 : normalRhs ((meanPt pts).1 + v.1, (meanPt pts).2 + v.2) (pts.map fun p => (p.1 + v.1, p.2 + v.2)) =
      normalRhs (meanPt pts) pts := by
    unfold normalRhs
    simp only [List.map_map, Function.comp_def, hd]
  unfold fitConic
  rw [meanPt_translate hne]
  simp only [h1, h2]

theorem rotateConic_fst (q : Conic) (m m' : ℝ × ℝ) : (rotateConic q m).1 = (rotateConic q m').1 := by
  unfold rotateConic
  split_ifs <;> rfl

theorem ellipsePoint_translate (q : Conic) (m v : ℝ × ℝ) (t : ℝ) :
    ellipsePoint q (m.1 + v.1, m.2 + v.2) t = ((ellipsePoint q m t).1 + v.1, (ellipsePoint q m t).2 + v.2) := by
  unfold ellipsePoint
  simp only
  rw [rotateConic_fst q (m.1 + v.1, m.2 + v.2) m]
  have h := Real.sin_sq_add_cos_sq (orientation q)
  by_cases ht : Tilted q
  · have hp : phiOf q = orientation q := by unfold phiOf; rw [if_pos ht]
    have e1 : ∀ m, (rotateConic q m).2 = (Real.cos (orientation q) * m.1 - Real.sin (orientation q) * m.2,
      Real.sin (orientation q) * m.1 + Real.cos (orientation q) * m.2) := by
      intro m
      unfold rotateConic
      rw [if_pos ht]
    rw [hp, e1, e1]
    simp only [Prod.mk.injEq]
    constructor
    · linear_combination v.1 * h
    · linear_combination v.2 * h
  · have hp : phiOf q = 0 := by unfold phiOf; rw [if_neg ht]
    have e1 : ∀ m, (rotateConic q m).2 = m := by
      intro m
      unfold rotateConic
      rw [if_neg ht]
    rw [hp, e1, e1]
    simp only [Real.cos_zero, Real.sin_zero, Prod.mk.injEq]
    constructor <;> ring

theorem fitEllipse_translate {pts : List (ℝ × ℝ)} (hne : pts ≠ []) (v : ℝ × ℝ) :
    fitEllipse (pts.map fun p => (p.1 + v.1, p.2 + v.2)) =
      (fitEllipse pts).map fun r => (r.1.map fun p => (p.1 + v.1, p.2 + v.2), r.2) := by
  unfold fitEllipse
  rw [fitConic_translate hne, meanPt_translate hne]
  cases fitConic pts with
  | error e => rfl
  | ok q =>
    simp only [bind, Except.bind, pure, Except.pure, Except.map, List.length_map, List.map_map, Except.ok.injEq, Prod.mk.injEq]
    have hs : semiAxes q ((meanPt pts).1 + v.1, (meanPt pts).2 + v.2) = semiAxes q (meanPt pts) := by
      unfold semiAxes
      simp only [rotateConic_fst q ((meanPt pts).1 + v.1, (meanPt pts).2 + v.2) (meanPt pts)]
    rw [hs]
    refine ⟨?_, rfl, rfl, trivial⟩
    apply List.map_congr_left
    intro t _
    exact ellipsePoint_translate q (meanPt pts) v t

theorem finiteEllipse_translate {pts : List (ℝ × ℝ)} (hne : pts ≠ []) (v : ℝ × ℝ) :
    FiniteEllipse (pts.map fun p => (p.1 + v.1, p.2 + v.2)) ↔ FiniteEllipse pts := by
  unfold FiniteEllipse
  rw [fitConic_translate hne, meanPt_translate hne]
  simp only [rotateConic_fst _ ((meanPt pts).1 + v.1, (meanPt pts).2 + v.2) (meanPt pts)]

/-! ### everything for a turn -/

theorem lonTurn_eq (k : ℤ) (l : List (ℝ × ℝ)) : l.map (lonTurn k) = l.map fun p => (p.1 + (360 * (k : ℝ), (0 : ℝ)).1, p.2 + (360 * (k : ℝ), (0 : ℝ)).2) := by
  simp only [add_zero]
  rfl

theorem meanPt_turn {pts : List (ℝ × ℝ)} (hne : pts ≠ []) (k : ℤ) : meanPt (pts.map (lonTurn k)) = lonTurn k (meanPt pts) := by
  rw [lonTurn_eq, meanPt_translate hne]
  simp [lonTurn]

theorem fitEllipse_turn {pts : List (ℝ × ℝ)} (hne : pts ≠ []) (k : ℤ) :
    fitEllipse (pts.map (lonTurn k)) = (fitEllipse pts).map fun r => (r.1.map (lonTurn k), r.2) := by
  have h := fitEllipse_translate hne (360 * (k : ℝ), (0 : ℝ))
  have e : (fun p : ℝ × ℝ => (p.1 + (360 * (k : ℝ), (0 : ℝ)).1, p.2 + (360 * (k : ℝ), (0 : ℝ)).2)) = lonTurn k := by
    funext p
    simp [lonTurn]
  rw [e] at h
  exact h

theorem finiteEllipse_turn {pts : List (ℝ × ℝ)} (hne : pts ≠ []) (k : ℤ) : FiniteEllipse (pts.map (lonTurn k)) ↔ FiniteEllipse pts := by
  rw [lonTurn_eq]
  exact finiteEllipse_translate hne _

theorem area_turn (pts : List (ℝ × ℝ)) (k : ℤ) : areaPolygon (pts.map (lonTurn k)) = areaPolygon pts := by
  refine (C33_longitude_turns pts _ ?_).symm
  rw [List.forall₂_map_right_iff, List.forall₂_same]
  exact fun p _ => ⟨rfl, k, rfl⟩

theorem similarity_turn (limit : Nat) (A B : List (ℝ × ℝ)) (k : ℤ) :
    similarity limit (A.map (lonTurn k)) (B.map (lonTurn k)) = similarity limit A B := by
  have := C28_similarity_invariant limit A B one_pos (360 * (k : ℝ), 0)
  simp only [one_mul, add_zero] at this
  exact this

/-! ### the grid points of the contour -/

/-- the grid of a map -/
def Fields.pixels (S : Fields) : Grid ℝ := ⟨S.data.rows, S.data.cols, S.X.get, S.Y.get⟩

/-- `p` is a grid point in the search box, nearer to the vertex than every other grid point of the box -/
def Fields.NearestPixel (S : Fields) (pt v : ℝ × ℝ) (p : ℕ × ℕ) : Prop :=
  p ∈ masked S.data.rows S.data.cols (S.pixels.mask pt) ∧
  ∀ q ∈ masked S.data.rows S.data.cols (S.pixels.mask pt), q ≠ p → S.pixels.dist2 v p < S.pixels.dist2 v q

theorem code_nearest {L : Libs} (hL : L.Nearest) {S : Fields} (hS : S.Rectilinear) {pt v : ℝ × ℝ} {p : ℕ × ℕ}
    (h : S.NearestPixel pt v p) :
    codeIndex S.data.rows S.data.cols (S.pixels.mask pt) (L.ballTree S.pixels pt v) = .ok p := by
  obtain ⟨lon, lat, hX, hY, hlon, hlat⟩ := hS
  obtain ⟨h1, h2⟩ := h
  obtain ⟨q, hq, hmin⟩ := hL S.pixels pt v (List.ne_nil_of_mem h1)
  obtain ⟨q', hq', hc⟩ := C40_partial S.pixels lon lat hX hY hlon hlat pt _ (List.getElem?_eq_some_iff.1 hq).1
  rw [hq] at hq'
  injection hq' with hq'
  subst hq'
  have : q = p := by
    by_contra hne
    exact absurd (hmin p h1) (not_le.2 (h2 q (List.mem_of_getElem? hq) hne))
  rw [← this]
  exact hc

/-- the data inside a contour whose vertices have the nearest grid points `f v` -/
theorem dataInContour_nearest {L : Libs} (hL : L.Nearest) {S : Fields} (hS : S.Rectilinear) {pts : List (ℝ × ℝ)} (hne : pts ≠ [])
    {f : ℝ × ℝ → ℕ × ℕ} (hf : ∀ v ∈ pts, S.NearestPixel (meanPt pts) v (f v)) :
    dataInContour L S pts = match pts.map fun v => (((f v).1 : Int), ((f v).2 : Int)) with
      | [] => .error .valueError
      | p :: ps =>
        let w := getWindow S.data.rows S.data.cols p ps .auto
        let near := cut w S.data
        if w.rel.all fun q => decide (0 ≤ q.1 ∧ q.1 < near.rows ∧ 0 ≤ q.2 ∧ q.2 < near.cols) then do
          let e ← maskDataInContour near.rows near.cols w.rel.toFinset near.get
          return ⟨w, e⟩
        else .error .indexError := by
  obtain ⟨v0, hv0⟩ := List.exists_mem_of_ne_nil _ hne
  have hm : masked S.data.rows S.data.cols (S.pixels.mask (meanPt pts)) ≠ [] := List.ne_nil_of_mem (hf v0 hv0).1
  unfold dataInContour
  have e : (⟨S.data.rows, S.data.cols, S.X.get, S.Y.get⟩ : Grid ℝ) = S.pixels := rfl
  have hmap : (pts.mapM fun v => codeIndex S.data.rows S.data.cols (S.pixels.mask (meanPt pts)) (L.ballTree S.pixels (meanPt pts) v)) =
      .ok (pts.map f) := mapM_ok fun v hv => code_nearest hL hS (hf v hv)
  simp only [e]
  simp only [hm, if_false, hmap, bind, Except.bind, pure, Except.pure, List.map_map, Function.comp_def]
  generalize pts.map _ = l
  cases l <;> rfl

theorem Fields.around_rect {S : Fields} (h : S.Rectilinear) (k : ℤ) : (S.around k).Rectilinear := by
  obtain ⟨lon, lat, hX, hY, hlon, hlat⟩ := h
  refine ⟨fun c => lon c + 360 * k, lat, fun r c => by show S.X.get r c + _ = _; rw [hX], hY, ?_, hlat⟩
  rcases hlon with h | h
  · exact Or.inl fun i j a b => by have := h i j a b; simpa using this
  · exact Or.inr fun i j a b => by have := h i j a b; simpa using this

/-- the vertex has a nearest grid point, nearer than all others, and it is within three degrees of the mean of the contour in both
coordinates -/
def Fields.ClearPixel (S : Fields) (pt v : ℝ × ℝ) (p : ℕ × ℕ) : Prop :=
  p.1 < S.data.rows ∧ p.2 < S.data.cols ∧ |S.X.get p.1 p.2 - pt.1| ≤ 3 ∧ |S.Y.get p.1 p.2 - pt.2| ≤ 3 ∧
  ∀ r < S.data.rows, ∀ c < S.data.cols, (r, c) ≠ p →
    (S.X.get p.1 p.2 - v.1) ^ 2 + (S.Y.get p.1 p.2 - v.2) ^ 2 < (S.X.get r c - v.1) ^ 2 + (S.Y.get r c - v.2) ^ 2

theorem clear_nearest {S : Fields} {pt v : ℝ × ℝ} {p : ℕ × ℕ} (h : S.ClearPixel pt v p) : S.NearestPixel pt v p := by
  obtain ⟨h1, h2, h3, h4, h5⟩ := h
  refine ⟨mem_masked.2 ⟨h1, h2, ?_⟩, ?_⟩
  · unfold Grid.mask nearPt Fields.pixels
    simp only [Bool.and_eq_true, decide_eq_true_eq]
    have p1 := abs_nonneg pt.1
    have p2 := abs_nonneg pt.2
    constructor <;> linarith
  · intro q hq hne
    obtain ⟨g1, g2, -⟩ := mem_masked.1 hq
    exact h5 q.1 g1 q.2 g2 hne

theorem clear_turn {S : Fields} {pt v : ℝ × ℝ} {p : ℕ × ℕ} (h : S.ClearPixel pt v p) (k : ℤ) :
    (S.around k).ClearPixel (lonTurn k pt) (lonTurn k v) p := by
  obtain ⟨h1, h2, h3, h4, h5⟩ := h
  refine ⟨h1, h2, ?_, h4, ?_⟩
  · show |S.X.get p.1 p.2 + 360 * (k : ℝ) - (pt.1 + 360 * (k : ℝ))| ≤ 3
    rwa [add_sub_add_right_eq_sub]
  · intro r hr c hc hne
    show (S.X.get p.1 p.2 + 360 * (k : ℝ) - (v.1 + 360 * (k : ℝ))) ^ 2 + (S.Y.get p.1 p.2 - v.2) ^ 2 <
      (S.X.get r c + 360 * (k : ℝ) - (v.1 + 360 * (k : ℝ))) ^ 2 + (S.Y.get r c - v.2) ^ 2
    rw [add_sub_add_right_eq_sub, add_sub_add_right_eq_sub]
    exact h5 r hr c hc hne

theorem dataInContour_turn {L : Libs} (hL : L.Nearest) {S : Fields} (hS : S.Rectilinear) {pts : List (ℝ × ℝ)} (hne : pts ≠ [])
    (hp : ∀ v ∈ pts, ∃ p, S.ClearPixel (meanPt pts) v p) (k : ℤ) :
    dataInContour L (S.around k) (pts.map (lonTurn k)) = dataInContour L S pts := by
  classical
  let f : ℝ × ℝ → ℕ × ℕ := fun v => if h : ∃ p, S.ClearPixel (meanPt pts) v p then h.choose else (0, 0)
  have hf : ∀ v ∈ pts, S.ClearPixel (meanPt pts) v (f v) := by
    intro v hv
    show S.ClearPixel (meanPt pts) v (dite _ _ _)
    rw [dif_pos (hp v hv)]
    exact (hp v hv).choose_spec
  have hback : ∀ v : ℝ × ℝ, lonTurn (-k) (lonTurn k v) = v := by
    intro v
    unfold lonTurn
    simp
  have h1 := dataInContour_nearest hL hS hne fun v hv => clear_nearest (hf v hv)
  have h2 := dataInContour_nearest (f := fun v => f (lonTurn (-k) v)) hL (S.around_rect hS k) (pts := pts.map (lonTurn k))
    (by simpa using hne) (by
      intro v hv
      obtain ⟨u, hu, rfl⟩ := List.mem_map.1 hv
      rw [meanPt_turn hne, hback]
      exact clear_nearest (clear_turn (hf u hu) k))
  rw [h1, h2, List.map_map]
  simp only [Function.comp_def, hback]
  rfl

/-! ### what does not depend on the origin -/

/-- The second eddy is the first one with the longitudes counted `k` turns further: contour, centre and place of the extremum are
moved, everything else is the same. -/
structure SameEddyAround (k : ℤ) (e e' : EddyObj) : Prop where
  contour : e'.contour = e.contour.map fun p => (p.1 + 360 * (k : ℝ), p.2)
  level : e'.level = e.level
  area : e'.area = e.area
  radius : e'.radius = e.radius
  ellipse : e'.ellipse = e.ellipse
  ellipseError : e'.ellipseError = e.ellipseError
  eccen : e'.eccen = e.eccen
  center : e'.center = (e.center.1 + 360 * (k : ℝ), e.center.2)
  sign : e'.sign = e.sign
  maxima : e'.maxima = (e.maxima.1, e.maxima.2.1, e.maxima.2.2 + 360 * (k : ℝ))
  gauss : e'.gauss = e.gauss
  gaussError : e'.gaussError = e.gaussError

/-- the same treatment of two contours, with the same eddies up to the origin of the longitudes -/
def SameResultAround (k : ℤ) : Except PyErr Outcome → Except PyErr Outcome → Prop
  | .error a, .error b => a = b
  | .ok .skipped, .ok .skipped => True
  | .ok (.discarded a), .ok (.discarded b) => a = b
  | .ok (.stored e), .ok (.stored e') => SameEddyAround k e e'
  | _, _ => False

/-- the contour without missing vertices, when the data inside are found alike -/
theorem examinePoints_turn {c : Criteria ℝ} (hc : c.skipGauss = true) (L : Libs) (S : Fields) (l : ℝ) {pts : List (ℝ × ℝ)} (hne : pts ≠ [])
    (k : ℤ) (hd : dataInContour L (S.around k) (pts.map (lonTurn k)) = dataInContour L S pts) :
    SameResultAround k (examinePoints c L S l pts) (examinePoints c L (S.around k) l (pts.map (lonTurn k))) := by
  classical
  unfold examinePoints
  have hm2 : (lonTurn k (meanPt pts)).2 = (meanPt pts).2 := rfl
  simp only [bind, Except.bind, pure, Except.pure, area_turn, meanPt_turn hne, fitEllipse_turn hne, finiteEllipse_turn hne, hd, hm2]
  by_cases g1 : Real.sqrt (areaPolygon pts / Real.pi) > c.maxArea * approxRD (meanPt pts).2
  · simp only [g1, if_true]; rfl
  simp only [g1, if_false]
  cases hf : fitEllipse pts with
  | error e => rfl
  | ok fit =>
  simp only [Except.map, area_turn, similarity_turn]
  by_cases hfin : FiniteEllipse pts ∧ isclose (areaPolygon pts) (areaPolygon fit.1) (1 / 10 * c.ellipseFit) = true
  swap
  · simp only [hfin, not_false_eq_true, if_true]; rfl
  simp only [hfin, not_true_eq_false, if_false, and_self]
  by_cases h2 : gtNan (eccentricity fit.2.1 fit.2.2.1) c.eccen
  · simp only [h2, if_true]; rfl
  simp only [h2, if_false]
  cases hs : liftFr (similarity L.limit pts fit.1) with
  | error e => rfl
  | ok sim =>
  simp only
  by_cases h3 : gtNan sim c.ellipseFit
  · simp only [h3, if_true]; rfl
  simp only [h3, if_false]
  cases dataInContour L S pts with
  | error e => rfl
  | ok i =>
  simp only [hc, if_true]
  by_cases h4 : i.ext.maxima = 0
  · simp only [h4, if_true]; rfl
  · simp only [h4, if_false]
    exact ⟨rfl, rfl, rfl, rfl, rfl, rfl, rfl, rfl, rfl, rfl, rfl, rfl⟩

theorem examine_turn {c : Criteria ℝ} (hc : c.skipGauss = true) {L : Libs} (hL : L.Nearest) {S : Fields} (hS : S.Rectilinear) (l : ℝ)
    (k : ℤ) {vs : List (Vertex ℝ)} (hne : vs ≠ [])
    (hskip : Cntr.skipsContour (vs.map (Option.map (lonTurn k))) = Cntr.skipsContour vs)
    (hp : ∀ pts : List (ℝ × ℝ), vs = pts.map some → ∀ v ∈ pts, ∃ p, S.ClearPixel (meanPt pts) v p) :
    SameResultAround k (examine c L S l vs) (examine c L (S.around k) l (vs.map (Option.map (lonTurn k)))) := by
  unfold examine
  rw [hskip]
  by_cases hsk : Cntr.skipsContour vs = true
  · simp only [hsk, if_true]; trivial
  simp only [hsk]
  cases hq : allPoints vs with
  | none =>
    have : allPoints (vs.map (Option.map (lonTurn k))) = none := by
      cases hq' : allPoints (vs.map (Option.map (lonTurn k))) with
      | none => rfl
      | some qs =>
        exfalso
        have h2 := allPoints_eq.1 hq'
        have h3 : vs = (qs.map (lonTurn (-k))).map some := by
          have h4 := congrArg (List.map (Option.map (lonTurn (-k)))) h2
          rw [List.map_map, List.map_map] at h4
          rw [List.map_map]
          convert h4 using 1
          · symm
            convert List.map_id vs using 2
            funext v
            cases v <;> simp [lonTurn]
          · rfl
        rw [allPoints_eq.2 h3] at hq
        cases hq
    rw [this]
    rfl
  | some pts =>
    have hv := allPoints_eq.1 hq
    have hq' : allPoints (vs.map (Option.map (lonTurn k))) = some (pts.map (lonTurn k)) := by
      rw [allPoints_eq, hv]
      simp
    rw [hq']
    have hne' : pts ≠ [] := by
      rintro rfl
      exact hne hv
    exact examinePoints_turn hc L S l hne' k (dataInContour_turn hL hS hne' (hp pts hv) k)

/-- **C106** partial: without the Gaussian fit, on a rectilinear grid, if every vertex of a contour has one nearest grid point that
is within three degrees of the mean of the contour, and the first test (mean equal to the first vertex) has the same outcome, then
the contours of the map with longitudes counted `k` turns further are treated in the same way, in the same order, and the eddies are
the same ones, with the longitudes of contour, centre and extremum `360 k` higher. What is missing: the grid points more than three
degrees from the mean (see `C106_refuted`), equally near grid points, the Gaussian fit. -/
theorem C106_partial {c : Criteria ℝ} (hc : c.skipGauss = true) {L : Libs} (hL : L.Nearest) {S : Fields} (hok : S.Ok)
    (hS : S.Rectilinear) (l : ℝ) (k : ℤ)
    (hv : ∀ vs ∈ contourList L S l, Cntr.skipsContour (vs.map (Option.map fun p => (p.1 + 360 * (k : ℝ), p.2))) = Cntr.skipsContour vs ∧
      ∀ pts : List (ℝ × ℝ), vs = pts.map some → ∀ v ∈ pts, ∃ p, S.ClearPixel (meanPt pts) v p) :
    contourList L (S.around k) l = (contourList L S l).map (fun vs => vs.map (Option.map fun p => (p.1 + 360 * (k : ℝ), p.2))) ∧
    List.Forall₂ (SameResultAround k) ((contourList L S l).map (examine c L S l))
      ((contourList L (S.around k) l).map (examine c L (S.around k) l)) ∧
    List.Forall₂ (SameEddyAround k) ((contourList L S l).filterMap (storedEddy c L S l))
      ((contourList L (S.around k) l).filterMap (storedEddy c L (S.around k) l)) := by
  have hcl := contourList_around L hok k l
  refine ⟨hcl, ?_⟩
  rw [hcl]
  have hne := contourList_ne L hok l
  revert hv hne
  generalize contourList L S l = cs
  intro hv hne
  induction cs with
  | nil => exact ⟨.nil, .nil⟩
  | cons vs cs ih =>
    have ih := ih (fun us hus => hv us (List.mem_cons_of_mem _ hus)) fun us hus => hne us (List.mem_cons_of_mem _ hus)
    obtain ⟨g1, g2⟩ := hv vs List.mem_cons_self
    have he := examine_turn hc hL hS l k (hne vs List.mem_cons_self) g1 g2
    refine ⟨.cons he ih.1, ?_⟩
    simp only [List.map_cons, List.filterMap_cons]
    unfold storedEddy at ih ⊢
    revert he
    cases examine c L S l vs with
    | error e =>
      cases examine c L (S.around k) l (vs.map (Option.map (lonTurn k))) with
      | error e' => exact fun _ => ih.2
      | ok o' => intro he; cases he
    | ok o =>
      cases examine c L (S.around k) l (vs.map (Option.map (lonTurn k))) with
      | error e' => cases o <;> (intro he; cases he)
      | ok o' =>
        cases o <;> cases o' <;> intro he <;> first | exact ih.2 | exact .cons he ih.2 | cases he

/-! ### an example -/

def orqX : Cntr.NdArr ℚ := ⟨3, 4, fun _ c => [-1 / 4, 1, 2, 13 / 4].getD c 0⟩
def orqY : Cntr.NdArr ℚ := ⟨3, 4, fun r _ => [-1 / 4, 1, 9 / 4].getD r 0⟩

/-- a grid with irregular spacing, whose contour at 3/5 is the one of the first example -/
noncomputable def orField : Fields :=
  ⟨⟨3, 4, fun _ c => [-1 / 4, 1, 2, 13 / 4].getD c 0⟩, ⟨3, 4, fun r _ => [-1 / 4, 1, 9 / 4].getD r 0⟩, exField.data⟩

theorem orq_contours : Cntr.extractContours orqX orqY exqZ (3 / 5) 50 Cntr.exMem =
    .ok ([[some (1, 1 / 2), some (2, 1 / 2), some (5 / 2, 1), some (2, 3 / 2), some (1, 3 / 2), some (1 / 2, 1),
      some (1, 1 / 2)]].map .points, [.codes [1, 2, 2, 2, 2, 2, 2]]) := by
  decide +kernel

theorem orField_cast : orqX.cast (Rat.castHom ℝ) = orField.X ∧ orqY.cast (Rat.castHom ℝ) = orField.Y := by
  constructor
  · unfold Cntr.NdArr.cast orqX orField
    simp only [Cntr.NdArr.mk.injEq, true_and]
    funext _ c
    match c with
    | 0 | 1 | 2 | 3 => norm_num
    | c + 4 => simp
  · unfold Cntr.NdArr.cast orqY orField
    simp only [Cntr.NdArr.mk.injEq, true_and]
    funext r _
    match r with
    | 0 | 1 | 2 => norm_num
    | r + 3 => simp

theorem orField_ok : orField.Ok := ⟨rfl, rfl, fun M hM => by cases hM⟩

theorem orField_contours (L : Libs) : contourList L orField (3 / 5) = [exPts.map some] := by
  obtain ⟨cds, h⟩ := Cntr.extract_cast (Rat.castHom ℝ) Rat.cast_strictMono (X := orqX) (Y := orqY) (Z := exqZ)
    (mem' := L.mem orField.data (3 / 5)) (fuel' := 4 * (4 * 3) + 2)
    ⟨rfl, rfl, fun M hM => by cases hM⟩ (3 / 5) (by decide) (by decide) orq_contours
  obtain ⟨hX, hY⟩ := orField_cast
  have hZ : exqZ.castO (Rat.castHom ℝ) = orField.data := exField_cast.2.2
  have hl : Rat.castHom ℝ (3 / 5) = 3 / 5 := by norm_num
  rw [hX, hY, hZ, hl] at h
  unfold contourList contoursOf
  have hd : 4 * (orField.data.cols * orField.data.rows) + 2 = 4 * (4 * 3) + 2 := rfl
  rw [hd, h]
  simp [vertsOf, exPts]

theorem orField_rect : orField.Rectilinear := by
  refine ⟨fun c => [-1 / 4, 1, 2, 13 / 4].getD c 0, fun r => [-1 / 4, 1, 9 / 4].getD r 0, fun _ _ => rfl, fun _ _ => rfl,
    Or.inl ?_, Or.inl ?_⟩
  · intro i j h hj
    have hj : j < 4 := hj
    interval_cases j <;> interval_cases i <;> norm_num
  · intro i j h hj
    have hj : j < 3 := hj
    interval_cases j <;> interval_cases i <;> norm_num

/-- the nearest grid points -/
noncomputable def orPixel (v : ℝ × ℝ) : ℕ × ℕ := if v.1 < 3 / 2 then (1, 1) else (1, 2)

theorem orClear : ∀ v ∈ exPts, orField.ClearPixel (meanPt exPts) v (orPixel v) := by
  intro v hv
  rw [exMean]
  simp only [exPts, List.mem_cons, List.not_mem_nil, or_false] at hv
  have key : ∀ p : ℕ × ℕ, (p = (1, 1) ∨ p = (1, 2)) →
      (∀ r < 3, ∀ c < 4, (r, c) ≠ p → (orField.X.get p.1 p.2 - v.1) ^ 2 + (orField.Y.get p.1 p.2 - v.2) ^ 2 <
        (orField.X.get r c - v.1) ^ 2 + (orField.Y.get r c - v.2) ^ 2) → orField.ClearPixel (10 / 7, 13 / 14) v p := by
    intro p hp h
    refine ⟨?_, ?_, ?_, ?_, h⟩
    · show p.1 < 3
      rcases hp with rfl | rfl <;> decide
    · show p.2 < 4
      rcases hp with rfl | rfl <;> decide
    · rcases hp with rfl | rfl <;> simp only [orField] <;> rw [abs_le] <;> norm_num
    · rcases hp with rfl | rfl <;> simp only [orField] <;> rw [abs_le] <;> norm_num
  apply key
  · unfold orPixel
    split_ifs <;> simp
  · rcases hv with rfl | rfl | rfl | rfl | rfl | rfl | rfl <;> unfold orPixel orField <;> norm_num <;>
      intro r hr c hc hne <;> interval_cases r <;> interval_cases c <;>
      first | (exfalso; simp at hne; done) | (clear hne; norm_num)

/-- a contour that meets all criteria on its shape: what happens depends on the data inside -/
theorem examine_data {c : Criteria ℝ} (hc : c.skipGauss = true) {L : Libs} {S : Fields} {l : ℝ} {pts curve : List (ℝ × ℝ)}
    {prm : ℝ × ℝ × Option ℝ} {sim : Option ℝ} (hskip : Cntr.skipsContour (pts.map some) = false)
    (hsize : Real.sqrt (areaPolygon pts / Real.pi) ≤ c.maxArea * approxRD (meanPt pts).2)
    (hfit : fitEllipse pts = .ok (curve, prm)) (hfin : FiniteEllipse pts)
    (harea : isclose (areaPolygon pts) (areaPolygon curve) (1 / 10 * c.ellipseFit) = true)
    (hecc : ¬ gtNan (eccentricity prm.1 prm.2.1) c.eccen) (hsim : similarity L.limit pts curve = .ok sim)
    (hgt : ¬ gtNan sim c.ellipseFit) :
    (∀ e, dataInContour L S pts = .error e → examine c L S l (pts.map some) = .error e) ∧
    (∀ i, dataInContour L S pts = .ok i → i.ext.maxima ≠ 0 → ∃ e, examine c L S l (pts.map some) = .ok (.stored e)) := by
  classical
  have hal : allPoints (pts.map some) = some pts := allPoints_eq.2 rfl
  have g1 : ¬ Real.sqrt (areaPolygon pts / Real.pi) > c.maxArea * approxRD (meanPt pts).2 := not_lt.2 hsize
  have g2 : ¬¬ (FiniteEllipse pts ∧ isclose (areaPolygon pts) (areaPolygon curve) (1 / 10 * c.ellipseFit) = true) :=
    not_not.2 ⟨hfin, harea⟩
  have hs' : liftFr (similarity L.limit pts curve) = .ok sim := by rw [hsim]; rfl
  have key : examine c L S l (pts.map some) = match dataInContour L S pts with
      | .error e => .error e
      | .ok i => if i.ext.maxima = 0 then .ok (.discarded .island) else
        .ok (.stored ⟨pts, l, areaPolygon pts, Real.sqrt (areaPolygon pts / Real.pi), prm, sim, eccentricity prm.1 prm.2.1,
          meanPt pts, i.ext.sign, maximaOf S i, none, some 0⟩) := by
    unfold examine
    rw [hskip]
    simp only [Bool.false_eq_true, if_false, hal]
    unfold examinePoints
    simp only [bind, Except.bind, pure, Except.pure]
    rw [if_neg g1, hfit]
    simp only
    rw [if_neg g2, if_neg hecc, hs']
    simp only
    rw [if_neg hgt]
    cases dataInContour L S pts with
    | error e => rfl
    | ok i => simp only [hc, if_true]
  refine ⟨fun e he => by rw [key, he], fun i hi h0 => ?_⟩
  rw [key, hi]
  simp only [h0, if_false]
  exact ⟨_, rfl⟩

/-- the data inside contours with these grid points -/
theorem orData {L : Libs} (hL : L.Nearest) {S : Fields} (hS : S.Rectilinear) (hdata : S.data = exField.data) {pts : List (ℝ × ℝ)}
    {f : ℝ × ℝ → ℕ × ℕ} (hf : ∀ v ∈ pts, S.NearestPixel (meanPt pts) v (f v))
    (hpix : pts.map f = [(1, 1), (1, 2), (1, 2), (1, 2), (1, 1), (1, 1), (1, 1)]) :
    ∃ i, dataInContour L S pts = .ok i ∧ i.ext.maxima ≠ 0 := by
  obtain ⟨x, h1, h2, h3⟩ := exValue (data := (cut exWindow exField.data).get) (u := 1) (w := 0) (by norm_num) (by
    intro r hr c hc
    simp only [cut, exWindow, exField, Int.toNat_zero, Nat.zero_add, hr, hc, and_self, if_true])
  refine ⟨⟨exWindow, x⟩, ?_, by rw [h2]; exact one_ne_zero⟩
  have hne : pts ≠ [] := by
    rintro rfl
    cases hpix
  rw [dataInContour_nearest hL hS hne hf]
  have e : (pts.map fun v => (((f v).1 : Int), ((f v).2 : Int))) = [(1, 1), (1, 2), (1, 2), (1, 2), (1, 1), (1, 1), (1, 1)] := by
    have := congrArg (List.map fun p : ℕ × ℕ => ((p.1 : Int), (p.2 : Int))) hpix
    rw [List.map_map] at this
    exact this
  rw [e, hdata]
  simp only
  have hw : getWindow (exField.data.rows : Int) (exField.data.cols : Int) (1, 1) [(1, 2), (1, 2), (1, 2), (1, 1), (1, 1), (1, 1)] .auto =
    exWindow := exGetWindow
  rw [hw, if_pos (by
    show (exWindow.rel.all fun q => decide (0 ≤ q.1 ∧ q.1 < ((3 : Nat) : Int) ∧ 0 ≤ q.2 ∧ q.2 < ((4 : Nat) : Int))) = true
    decide)]
  have he' : maskDataInContour (cut exWindow exField.data).rows (cut exWindow exField.data).cols exWindow.rel.toFinset
    (cut exWindow exField.data).get = .ok x := h1
  rw [he']
  rfl

theorem orPixels : exPts.map orPixel = [(1, 1), (1, 2), (1, 2), (1, 2), (1, 1), (1, 1), (1, 1)] := by
  unfold exPts orPixel
  norm_num

theorem orStored : ∃ e, examine exCriteria exLibs orField (3 / 5) (exPts.map some) = .ok (.stored e) := by
  obtain ⟨v, hv⟩ := exSim
  obtain ⟨i, hi, h0⟩ := orData exLibs_nearest orField_rect rfl (fun v hv => clear_nearest (orClear v hv)) orPixels
  have hrd : 0 < approxRD (13 / 14) := by unfold approxRD; positivity
  refine (examine_data (c := exCriteria) rfl exSkips ?_ exFit exFinite ?_ mrEccen hv ?_).2 i hi h0
  · rw [exMean]
    show Real.sqrt (areaPolygon exPts / Real.pi) ≤ Real.sqrt (areaPolygon exPts / Real.pi) / approxRD (13 / 14) * approxRD (13 / 14)
    rw [div_mul_cancel₀ _ hrd.ne']
  · rw [exAreas]
    unfold isclose
    simp only [sub_self, abs_zero, decide_eq_true_eq]
    have : (0 : ℝ) ≤ exCriteria.ellipseFit := zero_le_one
    positivity
  · rintro ⟨u, hu, h1⟩
    subst hu
    exact absurd h1 (not_lt.2 (similarity_unit hv).2)

theorem orSkips : Cntr.skipsContour ((exPts.map some).map (Option.map fun p => (p.1 + 360 * ((1 : ℤ) : ℝ), p.2))) = false := by
  have h : Cntr.skipsContour ((exPts.map some).map (Option.map fun p => (p.1 + 360 * ((1 : ℤ) : ℝ), p.2))) =
      (Cntr.closeNan (some ((10 : ℝ) / 7 + 360)) (some 361) && Cntr.closeNan (some ((13 : ℝ) / 14)) (some (1 / 2))) := by
    unfold Cntr.skipsContour exPts Cntr.meanOf
    simp only [List.map_cons, List.map_nil, Option.map_some, List.all_cons, List.all_nil, Option.isSome_some, Bool.and_true,
      if_true, Option.getD_some, List.sum_cons, List.sum_nil, List.length_cons, List.length_nil]
    norm_num
  rw [h]
  unfold Cntr.closeNan
  norm_num [abs_of_pos]

/-- the hypotheses of `C106_partial` hold for a map with an eddy -/
example : exLibs.Nearest ∧ orField.Ok ∧ orField.Rectilinear ∧ exCriteria.skipGauss = true ∧
    (∀ vs ∈ contourList exLibs orField (3 / 5), Cntr.skipsContour (vs.map (Option.map fun p => (p.1 + 360 * ((1 : ℤ) : ℝ), p.2))) =
      Cntr.skipsContour vs ∧ ∀ pts : List (ℝ × ℝ), vs = pts.map some → ∀ v ∈ pts, ∃ p, orField.ClearPixel (meanPt pts) v p) ∧
    ∃ e, (contourList exLibs orField (3 / 5)).filterMap (storedEddy exCriteria exLibs orField (3 / 5)) = [e] := by
  refine ⟨exLibs_nearest, orField_ok, orField_rect, rfl, ?_, ?_⟩
  · rw [orField_contours]
    intro vs hvs
    rw [List.mem_singleton] at hvs
    subst hvs
    refine ⟨orSkips.trans exSkips.symm, fun pts h => ?_⟩
    have : exPts = pts := List.map_injective_iff.2 (Option.some_injective _) h
    subst this
    exact fun v hv => ⟨_, orClear v hv⟩
  · obtain ⟨e, he⟩ := orStored
    refine ⟨e, ?_⟩
    rw [orField_contours]
    have hst : storedEddy exCriteria exLibs orField (3 / 5) (exPts.map some) = some e := by unfold storedEddy; rw [he]
    simp only [List.filterMap_cons, List.filterMap_nil, hst]

/-! ### a wide grid around the origin -/

/-- longitudes -17.5, -5, 5, 17.5 -/
noncomputable def wideField : Fields := orField.relon 10 (-15)

noncomputable def widePts : List (ℝ × ℝ) := [(-5, 1 / 2), (5, 1 / 2), (10, 1), (5, 3 / 2), (-5, 3 / 2), (-10, 1), (-5, 1 / 2)]

noncomputable def wideCurve : List (ℝ × ℝ) := [(10, 1), (5, 3 / 2), (-5, 3 / 2), (-10, 1), (-5, 1 / 2), (5, 1 / 2), (10, 1)]

theorem wideField_contours (L : Libs) : contourList L wideField (3 / 5) = [widePts.map some] := by
  unfold wideField
  rw [contourList_relon L orField_ok, orField_contours]
  unfold exPts widePts
  norm_num

theorem wideField_rect : wideField.Rectilinear := by
  obtain ⟨lon, lat, hX, hY, hlon, hlat⟩ := orField_rect
  refine ⟨fun c => 10 * lon c + -15, lat, fun r c => by show 10 * orField.X.get r c + -15 = _; rw [hX], hY, ?_, hlat⟩
  rcases hlon with h | h
  · refine Or.inl fun i j a b => ?_
    have := h i j a b
    show 10 * lon i + -15 ≤ 10 * lon j + -15
    linarith
  · refine Or.inr fun i j a b => ?_
    have := h i j a b
    show 10 * lon j + -15 ≤ 10 * lon i + -15
    linarith

theorem wideMean : meanPt widePts = (-5 / 7, 13 / 14) := by
  unfold meanPt widePts
  simp only [List.map_cons, List.map_nil, List.sum_cons, List.sum_nil, List.length_cons, List.length_nil]
  norm_num

theorem wideGeneric : Generic widePts := by
  intro A B C D E h
  rw [wideMean] at h
  have h1 := h (-5, 1 / 2) (by simp [widePts])
  have h2 := h (5, 1 / 2) (by simp [widePts])
  have h3 := h (10, 1) (by simp [widePts])
  have h4 := h (5, 3 / 2) (by simp [widePts])
  have h5 := h (-5, 3 / 2) (by simp [widePts])
  have h6 := h (-10, 1) (by simp [widePts])
  unfold form at h1 h2 h3 h4 h5 h6
  simp only at h1 h2 h3 h4 h5 h6
  norm_num at h1 h2 h3 h4 h5 h6
  refine ⟨?_, ?_, ?_, ?_, ?_⟩ <;> linarith

noncomputable def wideConic : Conic := ⟨49 / 4800, 0, 147 / 48, -7 / 480, -7 / 16⟩

theorem wideFitConic : fitConic widePts = .ok wideConic := by
  apply fitConic_exact
  · intro p hp
    rw [wideMean]
    unfold OnConic form wideConic
    simp only [widePts, List.mem_cons, List.not_mem_nil, or_false] at hp
    rcases hp with rfl | rfl | rfl | rfl | rfl | rfl | rfl <;> norm_num
  · exact (det_ne_zero_iff_generic _).2 wideGeneric

theorem wideNotTilted : ¬ Tilted wideConic := by
  unfold Tilted wideConic
  norm_num

theorem wideRotate : rotateConic wideConic (-5 / 7, 13 / 14) = (wideConic, (-5 / 7, 13 / 14)) := by
  unfold rotateConic
  rw [if_neg wideNotTilted]

theorem wideF : conicF wideConic = 49 / 48 := by
  unfold conicF wideConic
  norm_num

theorem wideFinite : FiniteEllipse widePts := by
  intro q hq
  rw [wideFitConic] at hq
  injection hq with hq
  subst hq
  rw [wideMean, wideRotate]
  unfold wideConic
  norm_num

theorem wideAxes : Real.sqrt |(49 / 48 : ℝ) / wideConic.a| = 10 ∧ Real.sqrt |(49 / 48 : ℝ) / wideConic.c| = 1 / Real.sqrt 3 := by
  constructor
  · have h1 : |(49 / 48 : ℝ) / wideConic.a| = 10 ^ 2 := by unfold wideConic; norm_num
    rw [h1, Real.sqrt_sq (by norm_num)]
  · have h2 : |(49 / 48 : ℝ) / wideConic.c| = 1 / 3 := by unfold wideConic; norm_num
    rw [h2, Real.sqrt_div zero_le_one, Real.sqrt_one]

theorem wideEllPoint (t : ℝ) : ellipsePoint wideConic (-5 / 7, 13 / 14) t = (10 * (3 / 2 + Real.cos t) - 15, 1 + 1 / Real.sqrt 3 * Real.sin t) := by
  unfold ellipsePoint
  simp only [wideRotate, wideF]
  have hphi : phiOf wideConic = 0 := by unfold phiOf; rw [if_neg wideNotTilted]
  rw [hphi, wideAxes.1, wideAxes.2]
  simp only [Real.cos_zero, Real.sin_zero]
  unfold wideConic
  norm_num
  ring

theorem wideFit : fitEllipse widePts = .ok (wideCurve, (10, 1 / Real.sqrt 3, some 0)) := by
  unfold fitEllipse
  rw [wideFitConic]
  simp only [bind, Except.bind, pure, Except.pure, wideMean, Except.ok.injEq, Prod.mk.injEq]
  have hs : Real.sqrt 3 * Real.sqrt 3 = 3 := Real.mul_self_sqrt (by norm_num)
  have hp : 0 < Real.sqrt 3 := Real.sqrt_pos.2 (by norm_num)
  have hle : 1 / Real.sqrt 3 ≤ 10 := by
    rw [div_le_iff₀ hp]
    nlinarith
  have hax : semiAxes wideConic (-5 / 7, 13 / 14) = (10, 1 / Real.sqrt 3) := by
    unfold semiAxes
    simp only [wideRotate, wideF, wideAxes.1, wideAxes.2]
  refine ⟨?_, ?_, ?_, ?_⟩
  · have := exFit
    unfold fitEllipse at this
    rw [exFitConic] at this
    simp only [bind, Except.bind, pure, Except.pure, exMean, Except.ok.injEq, Prod.mk.injEq] at this
    have h7 : widePts.length = exPts.length := by simp [exPts, widePts]
    have e : (linspace2pi widePts.length).map (ellipsePoint wideConic (-5 / 7, 13 / 14)) =
        ((linspace2pi exPts.length).map (ellipsePoint exConic (10 / 7, 13 / 14))).map fun p => (10 * p.1 - 15, p.2) := by
      rw [h7, List.map_map]
      apply List.map_congr_left
      intro t _
      rw [wideEllPoint, Function.comp, exEllPoint]
    rw [e, this.1]
    unfold exCurve wideCurve
    norm_num
  · rw [hax]
    exact max_eq_left hle
  · rw [hax]
    exact min_eq_right hle
  · unfold angleOf wideConic
    norm_num

theorem wideAreas : areaPolygon wideCurve = areaPolygon widePts :=
  (C33_first_vertex (-5, 1 / 2) (10, 1) [(5, 1 / 2)] [(5, 3 / 2), (-5, 3 / 2), (-10, 1)]).symm

theorem wideEccen : ¬ gtNan (eccentricity 10 (1 / Real.sqrt 3)) (1 : ℝ) := by
  rintro ⟨u, hu, h1⟩
  unfold eccentricity at hu
  split at hu
  · cases hu
  · split at hu
    · cases hu
    · injection hu with hu
      have h2 : u ≤ 1 := by
        rw [← hu]
        apply Real.sqrt_le_one.2
        have : 0 ≤ |1 / Real.sqrt 3| ^ 2 / |(10 : ℝ)| ^ 2 := by positivity
        linarith
      exact absurd h1 (not_lt.2 h2)

noncomputable def wideCriteria : Criteria ℝ :=
  ⟨1, 1, 0, Real.sqrt (areaPolygon widePts / Real.pi) / approxRD (13 / 14), true⟩

theorem wideSim : ∃ v, similarity 100 widePts wideCurve = .ok v := by
  obtain ⟨d, hd, _⟩ := Frechet.C24_frdist_is_discrete_frechet 100 eucl eucl_symm widePts wideCurve (by simp [widePts])
    (by simp [wideCurve]) (Or.inl (by simp [widePts])) (by simp [widePts, wideCurve])
  unfold similarity
  simp only [hd, bind, Except.bind, pure, Except.pure]
  split <;> exact ⟨_, rfl⟩

theorem wideSkips (k : ℤ) : Cntr.skipsContour ((widePts.map (lonTurn k)).map some) = false := by
  have h : Cntr.skipsContour ((widePts.map (lonTurn k)).map some) =
      (Cntr.closeNan (Cntr.meanOf (((widePts.map (lonTurn k)).map some).map fun v => v.map Prod.fst)) (some (-5 + 360 * (k : ℝ))) &&
        Cntr.closeNan (some ((13 : ℝ) / 14)) (some (1 / 2))) := by
    unfold Cntr.skipsContour
    simp only [widePts, List.map_cons, lonTurn, Option.map_some]
    congr 2
    unfold Cntr.meanOf
    simp only [List.map_nil, Option.map_some, List.all_cons, List.all_nil, Option.isSome_some, Bool.and_true,
      if_true, Option.getD_some, List.sum_cons, List.sum_nil, List.length_cons, List.length_nil]
    norm_num
  rw [h]
  have : Cntr.closeNan (some ((13 : ℝ) / 14)) (some (1 / 2)) = false := by
    unfold Cntr.closeNan
    norm_num [abs_of_pos]
  rw [this, Bool.and_false]

/-- the contour passes the criteria on its shape whatever the origin -/
theorem wideExamine (S : Fields) (l : ℝ) (k : ℤ) :
    (∀ e, dataInContour exLibs S (widePts.map (lonTurn k)) = .error e →
      examine wideCriteria exLibs S l ((widePts.map (lonTurn k)).map some) = .error e) ∧
    (∀ i, dataInContour exLibs S (widePts.map (lonTurn k)) = .ok i → i.ext.maxima ≠ 0 →
      ∃ e, examine wideCriteria exLibs S l ((widePts.map (lonTurn k)).map some) = .ok (.stored e)) := by
  obtain ⟨v, hv⟩ := wideSim
  have hne : widePts ≠ [] := by simp [widePts]
  have hrd : 0 < approxRD (13 / 14) := by unfold approxRD; positivity
  refine examine_data (c := wideCriteria) rfl (wideSkips k) ?_ (curve := wideCurve.map (lonTurn k)) (prm := (10, 1 / Real.sqrt 3, some 0)) ?_
    ((finiteEllipse_turn hne k).2 wideFinite) ?_ wideEccen (sim := v) ?_ ?_
  · rw [meanPt_turn hne, area_turn, wideMean]
    show _ ≤ Real.sqrt (areaPolygon widePts / Real.pi) / approxRD (13 / 14) * approxRD (13 / 14)
    rw [div_mul_cancel₀ _ hrd.ne']
  · rw [fitEllipse_turn hne, wideFit]
    rfl
  · rw [area_turn, area_turn, wideAreas]
    unfold isclose
    simp only [sub_self, abs_zero, decide_eq_true_eq]
    have : (0 : ℝ) ≤ wideCriteria.ellipseFit := zero_le_one
    positivity
  · rw [similarity_turn]
    exact hv
  · rintro ⟨u, hu, h1⟩
    subst hu
    exact absurd h1 (not_lt.2 (similarity_unit hv).2)

/-- no grid point in the box around the mean -/
theorem wideNoData : dataInContour exLibs wideField widePts = .error .valueError := by
  have hm : masked wideField.data.rows wideField.data.cols (wideField.pixels.mask (meanPt widePts)) = [] := by
    rw [List.eq_nil_iff_forall_not_mem]
    intro p hp
    obtain ⟨h1, h2, h3⟩ := mem_masked.1 hp
    rw [wideMean] at h3
    unfold Grid.mask nearPt at h3
    simp only [Bool.and_eq_true, decide_eq_true_eq] at h3
    have h4 := h3.1
    have h2 : p.2 < 4 := h2
    obtain ⟨r, c⟩ := p
    simp only [Fields.pixels, wideField, Fields.relon, orField] at h2 h4
    interval_cases c <;> norm_num [abs_le] at h4
  unfold dataInContour
  have e : (⟨wideField.data.rows, wideField.data.cols, wideField.X.get, wideField.Y.get⟩ : Grid ℝ) = wideField.pixels := rfl
  simp only [e]
  rw [if_pos hm]
  rfl

/-- one turn further the box contains the grid -/
theorem widePixel : ∀ v ∈ widePts.map (lonTurn 1), (wideField.around 1).NearestPixel (meanPt (widePts.map (lonTurn 1))) v
    (if v.1 < 360 then (1, 1) else (1, 2)) := by
  intro v hv
  rw [meanPt_turn (by simp [widePts]), wideMean]
  obtain ⟨u, hu, rfl⟩ := List.mem_map.1 hv
  refine ⟨mem_masked.2 ⟨?_, ?_, ?_⟩, ?_⟩
  · show _ < 3
    split_ifs <;> norm_num
  · show _ < 4
    split_ifs <;> norm_num
  · split_ifs <;> unfold Grid.mask nearPt <;> simp only [Fields.pixels, Fields.around, wideField, Fields.relon, orField, lonTurn] <;>
      norm_num [abs_le, abs_of_pos]
  · intro q hq hne
    obtain ⟨h1, h2, -⟩ := mem_masked.1 hq
    have h1 : q.1 < 3 := h1
    have h2 : q.2 < 4 := h2
    obtain ⟨r, c⟩ := q
    simp only at h1 h2
    simp only [widePts, List.mem_cons, List.not_mem_nil, or_false] at hu
    simp only [Grid.dist2, Fields.pixels, Fields.around, wideField, Fields.relon, orField, lonTurn]
    rcases hu with rfl | rfl | rfl | rfl | rfl | rfl | rfl <;> norm_num [lonTurn] at hne ⊢ <;> interval_cases r <;> interval_cases c <;>
      first | (exfalso; simp at hne; done) | (clear hne; norm_num)

theorem wideStored : ∃ e, examine wideCriteria exLibs (wideField.around 1) (3 / 5) ((widePts.map (lonTurn 1)).map some) = .ok (.stored e) := by
  obtain ⟨i, hi, h0⟩ := orData exLibs_nearest (Fields.around_rect wideField_rect 1) rfl widePixel (by
    unfold widePts lonTurn
    norm_num)
  exact (wideExamine _ _ 1).2 i hi h0

/-- a run on one snapshot with one contour at which an exception is raised -/
theorem run_single_error {Pt : Type} (E : Env Cols ℝ Pt) {c : Criteria ℝ} {L : Libs} {S : Fields} {l : ℝ}
    (hl0 : l ≠ 0) (hS : S.Ok) {vs : List (Vertex ℝ)} (hcl : contourList L S l = [vs]) {e : PyErr}
    (he : examine c L S l vs = .error e) :
    (trackFields E c L (fun _ => S) [l] 0 none 1 1 true Regs.empty).2 = .error e := by
  have hl : ([l] : List ℝ).filter (· ≠ 0) = [l] := by simp [hl0]
  have hts : trackTimes 0 none 1 = [0] := by decide
  have hc : contoursOf L S.X S.Y S.data l = .ok [vs] := by
    obtain ⟨ess, _, h2⟩ := contoursOf_lines L hS l
    unfold contourList at hcl
    rw [h2] at hcl ⊢
    simp only at hcl
    rw [hcl]
  unfold trackFields snapshotOf
  rw [hts, hl]
  simp only [List.foldl_cons, List.foldl_nil]
  unfold detectLevel
  rw [hc]
  simp only [examineLoop, he, outcomeStep, loopStep, bind, Except.bind]

/-- **C106 refuted**: a map for which the run raises `ValueError`, while with the longitudes counted one turn further it returns an
eddy. (The grid points of a contour are searched within 3 degrees plus 5 % of the longitude of its mean, a box that depends on
where longitudes are counted from: here no grid point is within 3 degrees of longitude 0, all are within 21 degrees.) -/
theorem C106_refuted : ∃ (E : Env Cols ℝ (ℝ × ℝ)) (c : Criteria ℝ) (L : Libs) (S : Fields) (l : ℝ) (k : ℤ) (s : LoopState Cols),
    IsNN E.dist E.nn ∧ L.Nearest ∧ S.Ok ∧ S.Rectilinear ∧ c.skipGauss = true ∧
    (trackFields E c L (fun _ => S) [l] 0 none 1 1 true Regs.empty).2 = .error .valueError ∧
    (trackFields E c L (fun _ => S.around k) [l] 0 none 1 1 true Regs.empty).2 = .ok s ∧ s.table.rows ≠ [] := by
  obtain ⟨nn, hnn⟩ := exists_isNN haversine
  obtain ⟨e, he⟩ := wideStored
  have hok : wideField.Ok := orField_ok
  have hturn : widePts.map (lonTurn 0) = widePts := by
    convert List.map_id widePts
    funext p
    simp [lonTurn]
  have h0 := (wideExamine wideField (3 / 5) 0).1 .valueError (by rw [hturn]; exact wideNoData)
  rw [hturn] at h0
  have hcl : contourList exLibs (wideField.around 1) (3 / 5) = [(widePts.map (lonTurn 1)).map some] := by
    rw [contourList_around _ hok, wideField_contours]
    simp
  obtain ⟨s, h1, h2⟩ := run_single (c := wideCriteria) (l := 3 / 5) hnn (by norm_num) (Fields.around_ok hok 1) hcl he
  exact ⟨colsEnv true nn, wideCriteria, exLibs, wideField, 3 / 5, 1, s, hnn, exLibs_nearest, hok, wideField_rect, rfl,
    run_single_error _ (by norm_num) hok (wideField_contours _) h0, h1, h2.2 ⟨e, rfl⟩⟩

end Trackeddy
