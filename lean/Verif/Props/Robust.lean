import Verif.Proofs.Robust
import Verif.Props.PipelineExample
import Verif.Props.Misc
import Mathlib.LinearAlgebra.FiniteDimensional.Lemmas
import Mathlib.LinearAlgebra.Dimension.Constructions

/-!
C89: which data make the detection raise an exception. The normal equations of the ellipse are singular if the vertices of a contour
lie on a conic through their mean, for example on a straight line, and `np.linalg.solve` raises `LinAlgError`, which nothing catches.
-/
namespace Trackeddy
open Spec
open Cntr (Vertex SameShape arrGrid Full)

/-- longitudes depend on the column, latitudes on the row, both ascending or descending in steps of at most six degrees -/
def Fields.FineGrid (S : Fields) : Prop :=
  ∃ lon lat : Nat → ℝ, (∀ r c, S.X.get r c = lon c) ∧ (∀ r c, S.Y.get r c = lat r) ∧ MonoAxis S.data.cols lon ∧
    MonoAxis S.data.rows lat ∧ FineAxis S.data.cols lon ∧ FineAxis S.data.rows lat

/-- there is a grid point near the mean of the vertices of a contour line -/
theorem centre_near {S : Fields} (hS : S.FineGrid) (hfull : Full S.data) {l : ℝ} {es : List Side} (hes : S.grid.IsContour l es)
    {pts : List (ℝ × ℝ)} (hp : es.map (S.grid.point l) = pts.map some) :
    ∃ r < S.data.rows, ∃ c < S.data.cols, NearCentre S.grid (meanPt pts) (r, c) := by
  obtain ⟨lon, lat, h1, h2, -, -, h5, h6⟩ := hS
  have hne : pts ≠ [] := by
    intro h0
    have := hes.two
    rw [h0] at hp
    rw [List.map_eq_nil_iff.1 hp] at this
    simp at this
  have hpt : ∀ p ∈ pts, (∃ i < S.data.cols, ∃ j < S.data.cols, lon i ≤ p.1 ∧ p.1 ≤ lon j) ∧
      ∃ i < S.data.rows, ∃ j < S.data.rows, lat i ≤ p.2 ∧ p.2 ≤ lat j := by
    intro p hpm
    have : some p ∈ es.map (S.grid.point l) := by rw [hp]; exact List.mem_map.2 ⟨p, hpm, rfl⟩
    obtain ⟨e, he, hep⟩ := List.mem_map.1 this
    obtain ⟨hm, hc⟩ := Cntr.contour_sides hes he
    have hat : Cntr.AtLevel S.X S.Y S.data l (some p) := by
      rw [← hep]
      exact Cntr.atLevel_point hfull hm hc
    obtain ⟨e', u, w, τ, hm', _, _, _, t0, t1, _, hv⟩ := hat
    obtain ⟨c, hc1, hc2⟩ := hm'
    obtain ⟨⟨a1, a2⟩, ⟨b1, b2⟩⟩ := Cntr.side_inside hc1 hc2
    injection hv with hv
    have conv : ∀ (f : Nat → ℝ) (i j n : Nat), i < n → j < n → ∃ i' < n, ∃ j' < n, f i' ≤ f i + τ * (f j - f i) ∧
        f i + τ * (f j - f i) ≤ f j' := by
      intro f i j n hi hj
      rcases le_total (f i) (f j) with h | h
      · exact ⟨i, hi, j, hj, by nlinarith, by nlinarith⟩
      · exact ⟨j, hj, i, hi, by nlinarith, by nlinarith⟩
    rw [hv]
    simp only [h1, h2]
    exact ⟨conv lon _ _ _ a1 b1, conv lat _ _ _ a2 b2⟩
  have hx := mean_between (f := lon) (l := pts.map Prod.fst) (by simpa using hne) (by
    intro x hx
    obtain ⟨p, hp, rfl⟩ := List.mem_map.1 hx
    exact (hpt p hp).1)
  have hy := mean_between (f := lat) (l := pts.map Prod.snd) (by simpa using hne) (by
    intro x hx
    obtain ⟨p, hp, rfl⟩ := List.mem_map.1 hx
    exact (hpt p hp).2)
  obtain ⟨i, hi, j, hj, hx1, hx2⟩ := hx
  obtain ⟨i', hi', j', hj', hy1, hy2⟩ := hy
  rw [List.length_map] at hx1 hx2 hy1 hy2
  obtain ⟨c, hc, hcx⟩ := near_axis_between h5 hi hj hx1 hx2
  obtain ⟨r, hr, hry⟩ := near_axis_between h6 hi' hj' hy1 hy2
  refine ⟨r, hr, c, hc, hr, hc, ?_, ?_⟩
  · show |S.X.get r c - _| ≤ _
    rw [h1]
    have : (0 : ℝ) ≤ |(meanPt pts).1| / 20 := by positivity
    unfold meanPt at this ⊢
    simp only at this ⊢
    linarith
  · show |S.Y.get r c - _| ≤ _
    rw [h2]
    have : (0 : ℝ) ≤ |(meanPt pts).2| / 20 := by positivity
    unfold meanPt at this ⊢
    simp only at this ⊢
    linarith

/-- complete data have complete contours -/
theorem contour_complete {S : Fields} (hfull : Full S.data) {l : ℝ} {es : List Side} (hes : S.grid.IsContour l es) :
    ∃ pts : List (ℝ × ℝ), es.map (S.grid.point l) = pts.map some := by
  have : ∀ e ∈ es, ∃ p, S.grid.point l e = some p := by
    intro e he
    obtain ⟨hm, hc⟩ := Cntr.contour_sides hes he
    obtain ⟨_, _, _, _, _, _, _, _, _, _, _, hv⟩ := Cntr.atLevel_point hfull hm hc
    exact ⟨_, hv⟩
  clear hes
  induction es with
  | nil => exact ⟨[], rfl⟩
  | cons e es ih =>
    obtain ⟨p, hp⟩ := this e List.mem_cons_self
    obtain ⟨pts, hpts⟩ := ih (fun e he => this e (List.mem_cons_of_mem _ he))
    exact ⟨p :: pts, by simp [hp, hpts]⟩

/-! ### C89 -/

/-- The contour can be examined: it is skipped as too small, discarded as too large, or no conic passes through its vertices and
their mean. -/
def Solvable (c : Criteria ℝ) (pts : List (ℝ × ℝ)) : Prop :=
  Cntr.skipsContour (pts.map some) = true ∨ TooLarge c pts ∨ Generic pts

theorem examine_solvable {c : Criteria ℝ} (hsk : c.skipGauss = true) {L : Libs} (hL : L.Nearest) (hlim : 599 ≤ L.limit) {S : Fields}
    (hS : S.FineGrid) (hfull : Full S.data) {l : ℝ} {es : List Side} (hes : S.grid.IsContour l es) {pts : List (ℝ × ℝ)}
    (hp : es.map (S.grid.point l) = pts.map some) :
    (Solvable c pts → ∃ o, examine c L S l (pts.map some) = .ok o) ∧
    (¬ Solvable c pts → examine c L S l (pts.map some) = .error .linAlgError) := by
  have hne : pts ≠ [] := by
    intro h0
    have := hes.two
    rw [h0] at hp
    rw [List.map_eq_nil_iff.1 hp] at this
    simp at this
  unfold examine
  cases hs : Cntr.skipsContour (pts.map some) with
  | true => exact ⟨fun _ => ⟨_, rfl⟩, fun hn => absurd (Or.inl hs) hn⟩
  | false =>
    simp only [Bool.false_eq_true, if_false, allPoints_eq.2 rfl]
    constructor
    · intro h
      have h := h.resolve_left (by rw [hs]; simp)
      obtain ⟨lon, lat, h1, h2, h3, h4, -⟩ := id hS
      exact examinePoints_total hsk hlim hne (dataInContour_total hL ⟨lon, lat, h1, h2, h3, h4⟩ hfull hne (centre_near hS hfull hes hp)) h
    · intro hn
      unfold Solvable at hn
      push Not at hn
      exact examinePoints_singular hn.2.1 hn.2.2

/-- **C89** (partial) Exactly when the detection at a level succeeds, for complete data on a grid with ascending or descending axes in
steps of at most six degrees, if the fit of the Gaussian is skipped: every contour line of the data must be `Solvable`. Otherwise
`LinAlgError` is raised, and no other exception ever. Missing for the full claim: it is false for all other data. -/
theorem C89_partial {c : Criteria ℝ} (hsk : c.skipGauss = true) {L : Libs} (hL : L.Nearest) (hlim : 599 ≤ L.limit) {S : Fields}
    (hok : S.Ok) (hS : S.FineGrid) (hfull : Full S.data) (l : ℝ) (regs : Regs Cols) :
    ∃ lines : List (List Side), Contours S.grid l lines ∧
      ((∃ x, (detectLevel c L S regs l).2 = .ok x) ↔
        ∀ cl ∈ lines, ∀ pts, cl.map (S.grid.point l) = pts.map some → Solvable c pts) ∧
      ((¬ ∃ x, (detectLevel c L S regs l).2 = .ok x) → (detectLevel c L S regs l).2 = .error .linAlgError) := by
  obtain ⟨-, ess, h1, h2⟩ := contourList_lines L hok l
  obtain ⟨h3, h4⟩ := detectLevel_total (c := c) (L := L) hok l regs
  refine ⟨ess, h1, ?_, ?_⟩
  · rw [h3, h2]
    constructor
    · intro h cl hcl pts hp
      by_contra hn
      obtain ⟨o, ho⟩ := h _ (List.mem_map.2 ⟨cl, hcl, rfl⟩)
      rw [hp, (examine_solvable hsk hL hlim hS hfull (h1.each cl hcl) hp).2 hn] at ho
      cases ho
    · intro h vs hvs
      obtain ⟨cl, hcl, rfl⟩ := List.mem_map.1 hvs
      obtain ⟨pts, hp⟩ := contour_complete hfull (h1.each cl hcl)
      rw [hp]
      exact (examine_solvable hsk hL hlim hS hfull (h1.each cl hcl) hp).1 (h cl hcl pts hp)
  · intro hn
    cases hx : (detectLevel c L S regs l).2 with
    | ok x => exact absurd ⟨x, hx⟩ hn
    | error e =>
      obtain ⟨vs, hvs, he⟩ := h4 e hx
      rw [h2] at hvs
      obtain ⟨cl, hcl, rfl⟩ := List.mem_map.1 hvs
      obtain ⟨pts, hp⟩ := contour_complete hfull (h1.each cl hcl)
      rw [hp] at he
      by_cases hsol : Solvable c pts
      · obtain ⟨o, ho⟩ := (examine_solvable hsk hL hlim hS hfull (h1.each cl hcl) hp).1 hsol
        rw [he] at ho
        cases ho
      · have := (examine_solvable hsk hL hlim hS hfull (h1.each cl hcl) hp).2 hsol
        rw [he] at this
        injection this with this
        rw [this]

/-- a contour whose vertices lie on a straight line is not generic -/
theorem collinear_not_generic {pts : List (ℝ × ℝ)} (hne : pts ≠ []) {α β γ : ℝ} (hαβ : α ≠ 0 ∨ β ≠ 0)
    (h : ∀ p ∈ pts, α * p.1 + β * p.2 = γ) : ¬ Generic pts := by
  intro hg
  have hsum : α * (pts.map Prod.fst).sum + β * (pts.map Prod.snd).sum = γ * pts.length := by
    clear hg hne
    induction pts with
    | nil => simp
    | cons p l ih =>
      have := ih (fun q hq => h q (List.mem_cons_of_mem _ hq))
      have hp := h p List.mem_cons_self
      simp only [List.map_cons, List.sum_cons, List.length_cons, Nat.cast_add, Nat.cast_one]
      linear_combination this + hp
  have hlen : (pts.length : ℝ) ≠ 0 := by
    have := List.length_pos_iff.2 hne
    positivity
  have hm : α * (meanPt pts).1 + β * (meanPt pts).2 = γ := by
    unfold meanPt
    simp only
    field_simp
    linear_combination hsum
  obtain ⟨-, -, -, h4, h5⟩ := hg 0 0 0 α β (by
    intro p hp
    have := h p hp
    unfold form
    linear_combination this - hm)
  rcases hαβ with h | h <;> contradiction

/-- a contour with at most four different vertices is not generic -/
theorem few_not_generic {pts : List (ℝ × ℝ)} {F : Finset (ℝ × ℝ)} (hF : F.card ≤ 4) (h : ∀ p ∈ pts, p ∈ F) : ¬ Generic pts := by
  intro hg
  set m := meanPt pts
  let f : (Fin 5 → ℝ) →ₗ[ℝ] (F → ℝ) :=
    { toFun := fun v p => v 0 * (p.1.1 - m.1) ^ 2 + v 1 * ((p.1.1 - m.1) * (p.1.2 - m.2)) + v 2 * (p.1.2 - m.2) ^ 2
        + v 3 * (p.1.1 - m.1) + v 4 * (p.1.2 - m.2)
      map_add' := by intro v w; funext p; simp only [Pi.add_apply]; ring
      map_smul' := by intro a v; funext p; simp only [Pi.smul_apply, smul_eq_mul, RingHom.id_apply]; ring }
  have hker : LinearMap.ker f ≠ ⊥ := by
    apply LinearMap.ker_ne_bot_of_finrank_lt
    rw [Module.finrank_fintype_fun_eq_card, Module.finrank_fintype_fun_eq_card, Fintype.card_coe, Fintype.card_fin]
    omega
  obtain ⟨v, hv, hv0⟩ := Submodule.exists_mem_ne_zero_of_ne_bot hker
  obtain ⟨z0, z1, z2, z3, z4⟩ := hg (v 0) (v 1) (v 2) (v 3) (v 4) (by
    intro p hp
    have := congrFun (LinearMap.mem_ker.1 hv) ⟨p, h p hp⟩
    simp only [f, LinearMap.coe_mk, AddHom.coe_mk, Pi.zero_apply] at this
    unfold form
    linear_combination this)
  apply hv0
  funext i
  fin_cases i
  exacts [z0, z1, z2, z3, z4]

/-- **C89** negative part: a contour that is neither skipped nor too large aborts the detection of its level if its vertices lie on a
straight line or if at most four of them are different. -/
theorem C89_aborts {c : Criteria ℝ} {L : Libs} {S : Fields} (hok : S.Ok) (l : ℝ) (regs : Regs Cols) {pts : List (ℝ × ℝ)}
    (hmem : pts.map some ∈ contourList L S l) (hskip : Cntr.skipsContour (pts.map some) = false) (hsize : ¬ TooLarge c pts)
    (h : (∃ α β γ : ℝ, (α ≠ 0 ∨ β ≠ 0) ∧ ∀ p ∈ pts, α * p.1 + β * p.2 = γ) ∨ ∃ F : Finset (ℝ × ℝ), F.card ≤ 4 ∧ ∀ p ∈ pts, p ∈ F) :
    ∃ e, (detectLevel c L S regs l).2 = .error e := by
  have hne : pts ≠ [] := by
    intro h0
    exact contourList_ne L hok l _ hmem (by rw [h0]; rfl)
  have hng : ¬ Generic pts := by
    rcases h with ⟨α, β, γ, h1, h2⟩ | ⟨F, h1, h2⟩
    · exact collinear_not_generic hne h1 h2
    · exact few_not_generic h1 h2
  cases hx : (detectLevel c L S regs l).2 with
  | error e => exact ⟨e, rfl⟩
  | ok x =>
    obtain ⟨o, ho⟩ := (detectLevel_total (c := c) (L := L) hok l regs).1.1 ⟨x, hx⟩ _ hmem
    unfold examine at ho
    simp only [hskip, Bool.false_eq_true, if_false, allPoints_eq.2 rfl, examinePoints_singular hsize hng] at ho
    cases ho

/-! the witness: a front along the prime meridian -/

def frontX : Cntr.NdArr ℚ := ⟨2, 2, fun _ c => if c = 0 then -1 else 1⟩
def frontY : Cntr.NdArr ℚ := ⟨2, 2, fun r _ => r + 1⟩
def frontZ : Cntr.NdArr (Option ℚ) := ⟨2, 2, fun _ c => some (if c = 0 then 0 else 1)⟩

/-- a field with the values 0 west and 1 east of the prime meridian -/
def frontField : Fields :=
  ⟨⟨2, 2, fun _ c => if c = 0 then -1 else 1⟩, ⟨2, 2, fun r _ => r + 1⟩, ⟨2, 2, fun _ c => some (if c = 0 then 0 else 1)⟩⟩

theorem front_contours_q : Cntr.extractContours frontX frontY frontZ (1 / 2) 50 Cntr.exMem =
    .ok ([[some (0, 1), some (0, 2)]].map .points, [.codes [1, 2]]) := by
  decide +kernel

theorem frontField_ok : frontField.Ok := ⟨rfl, rfl, fun M hM => by cases hM⟩

theorem front_contours (L : Libs) : contourList L frontField (1 / 2) = [[((0 : ℝ), (1 : ℝ)), (0, 2)].map some] := by
  obtain ⟨cds, h⟩ := Cntr.extract_cast (Rat.castHom ℝ) Rat.cast_strictMono (X := frontX) (Y := frontY) (Z := frontZ)
    (mem' := L.mem frontField.data (1 / 2)) (fuel' := 4 * (2 * 2) + 2)
    ⟨rfl, rfl, fun M hM => by cases hM⟩ (1 / 2) (by decide) (by decide) front_contours_q
  have hX : frontX.cast (Rat.castHom ℝ) = frontField.X := by
    unfold Cntr.NdArr.cast frontX frontField
    simp
    funext r c
    split <;> simp
  have hY : frontY.cast (Rat.castHom ℝ) = frontField.Y := by
    unfold Cntr.NdArr.cast frontY frontField
    simp
  have hZ : frontZ.castO (Rat.castHom ℝ) = frontField.data := by
    unfold Cntr.NdArr.castO frontZ frontField
    simp
    funext r c
    split <;> simp
  have hl : Rat.castHom ℝ (1 / 2) = 1 / 2 := by norm_num
  rw [hX, hY, hZ, hl] at h
  unfold contourList contoursOf
  have hd : 4 * (frontField.data.cols * frontField.data.rows) + 2 = 4 * (2 * 2) + 2 := rfl
  rw [hd, h]
  simp [vertsOf]

theorem azim_meridian {lat : ℝ} (h : 0 < Real.sin lat) : azim 0 lat = 0 := by
  unfold azim arctan2
  rw [Real.sin_zero, mul_zero]
  have : (⟨Real.sin lat, 0⟩ : ℂ) = ((Real.sin lat : ℝ) : ℂ) := by
    apply Complex.ext
    · rw [Complex.ofReal_re]
    · rw [Complex.ofReal_im]
  rw [this, Complex.arg_ofReal_of_nonneg h.le]
  unfold mod2pi
  simp

theorem front_area : areaPolygon [(0, 1), (0, 2)] = 0 := by
  have hpi := Real.pi_pos
  have hs : ∀ x : ℝ, 0 < x → x < 180 → 0 < Real.sin (deg2rad x) := by
    intro x h0 h1
    apply Real.sin_pos_of_pos_of_lt_pi
    · unfold deg2rad; positivity
    · unfold deg2rad; nlinarith
  have h0 : deg2rad 0 = 0 := by unfold deg2rad; simp
  unfold areaPolygon integral integrand polar
  simp only [List.map_cons, List.map_nil, List.tail_cons, List.zipWith_cons_cons, List.zipWith_nil_right, h0,
    azim_meridian (hs 1 one_pos (by norm_num)), azim_meridian (hs 2 two_pos (by norm_num)), sub_self, wrap_zero, mul_zero,
    List.sum_cons, List.sum_nil, add_zero, abs_zero, zero_div, zero_mul]

/-- **C89** is false: the field with the values 0 west and 1 east of the prime meridian has one contour at the level 1/2, a straight
line. Whatever the criteria (with `max_area` not negative), the libraries and the earlier calls, the run raises `LinAlgError`. -/
theorem C89_refuted {Pt : Type} (E : Env Cols ℝ Pt) (c : Criteria ℝ) (hc : 0 ≤ c.maxArea) (L : Libs) (ntimes : Int) (online : Bool)
    (regs : Regs Cols) :
    Full frontField.data ∧ frontField.FineGrid ∧
      (trackFields E c L (fun _ => frontField) [1 / 2] 0 (some 1) 1 ntimes online regs).2 = .error .linAlgError := by
  refine ⟨fun _ _ _ _ => ⟨_, rfl⟩, ?_, ?_⟩
  · refine ⟨fun c => if c = 0 then -1 else 1, fun r => r + 1, fun _ _ => rfl, fun _ _ => rfl, Or.inl ?_, Or.inl ?_, ?_, ?_⟩
    · intro i j hij _
      by_cases h1 : i = 0 <;> by_cases h2 : j = 0 <;> simp [h1, h2]
      omega
    · intro i j hij _
      have : (i : ℝ) ≤ j := Nat.cast_le.2 hij
      linarith
    · intro i _
      by_cases h1 : i = 0 <;> simp [h1]
      rw [abs_le]
      norm_num
    · intro i _
      simp
  · have hskip : Cntr.skipsContour ([((0 : ℝ), (1 : ℝ)), (0, 2)].map some) = false := by
      simp only [Cntr.skipsContour, Cntr.meanOf, Cntr.closeNan, List.map_cons, List.map_nil]
      norm_num
    have hsize : ¬ TooLarge c [(0, 1), (0, 2)] := by
      unfold TooLarge
      rw [front_area, zero_div, Real.sqrt_zero, not_lt]
      exact mul_nonneg hc (C56_bounds _).1.le
    have hgen : ¬ Generic [((0 : ℝ), (1 : ℝ)), (0, 2)] :=
      collinear_not_generic (by simp) (α := 1) (β := 0) (γ := 0) (Or.inl one_ne_zero) (by simp)
    have hex : examine c L frontField (1 / 2) ([((0 : ℝ), (1 : ℝ)), (0, 2)].map some) = .error .linAlgError := by
      unfold examine
      simp only [hskip, Bool.false_eq_true, if_false, allPoints_eq.2 rfl, examinePoints_singular hsize hgen]
    have hlev : (detectLevel c L frontField regs (1 / 2)).2 = .error .linAlgError := by
      cases hx : (detectLevel c L frontField regs (1 / 2)).2 with
      | ok x =>
        obtain ⟨o, ho⟩ := (detectLevel_total (c := c) (L := L) frontField_ok (1 / 2) regs).1.1 ⟨x, hx⟩ _
          (by rw [front_contours]; exact List.mem_singleton.2 rfl)
        rw [hex] at ho
        cases ho
      | error e =>
        obtain ⟨vs, hvs, he⟩ := (detectLevel_total (c := c) (L := L) frontField_ok (1 / 2) regs).2 e hx
        rw [front_contours, List.mem_singleton] at hvs
        rw [hvs, hex] at he
        injection he with he
        rw [he]
    have hf : ([1 / 2] : List ℝ).filter (fun x => decide (x ≠ 0)) = [1 / 2] := by simp
    have hsnap : (snapshotOf E c L frontField [1 / 2] regs).2 = .error .linAlgError := by
      unfold snapshotOf
      rw [hf]
      simp only [List.foldl_cons, List.foldl_nil]
      cases hd : detectLevel c L frontField regs (1 / 2) with
      | mk r x =>
        rw [hd] at hlev
        simp only at hlev
        rw [hlev]
    have ht : trackTimes 0 (some 1) 1 = [0] := by decide
    unfold trackFields
    rw [ht]
    simp only [List.foldl_cons, List.foldl_nil]
    cases hd : snapshotOf E c L frontField [1 / 2] regs with
    | mk r x =>
      rw [hd] at hsnap
      simp only at hsnap
      rw [hsnap]
      rfl

theorem exCriteria_size : 0 ≤ exCriteria.maxArea :=
  div_nonneg (Real.sqrt_nonneg _) (C56_bounds _).1.le

/-- `exLibs` with more stack -/
noncomputable def exLibs599 : Libs := { exLibs with limit := 1000 }

/-- C89_partial: the field of Props/PipelineExample.lean is detected, the front is not -/
example (regs : Regs Cols) : (∃ x, (detectLevel exCriteria exLibs599 exField regs (1 / 2)).2 = .ok x) ∧
    (detectLevel exCriteria exLibs599 frontField regs (1 / 2)).2 = .error .linAlgError := by
  have hfine : exField.FineGrid := by
    obtain ⟨lon, lat, h1, h2, h3, h4⟩ := exField_rect
    have e1 : ∀ c < 4, lon c = c := fun c hc => by rw [← exAxis4 hc]; exact (h1 0 c).symm
    have e2 : ∀ r < 3, lat r = r := fun r hr => by rw [← exAxis3 hr]; exact (h2 r 0).symm
    refine ⟨lon, lat, h1, h2, h3, h4, ?_, ?_⟩
    · intro i hi
      have hi : i + 1 < 4 := hi
      rw [e1 _ hi, e1 i (by omega)]
      simp
    · intro i hi
      have hi : i + 1 < 3 := hi
      rw [e2 _ hi, e2 i (by omega)]
      simp
  have hfull : Full exField.data := fun r hr c hc => ⟨_, if_pos ⟨hr, hc⟩⟩
  constructor
  · rw [(detectLevel_total exField_ok (1 / 2) regs).1, exField_contours]
    intro vs hvs
    rw [List.mem_singleton.1 hvs]
    obtain ⟨-, ess, h1, h2⟩ := contourList_lines exLibs599 exField_ok (1 / 2)
    rw [exField_contours] at h2
    obtain ⟨cl, hcl, hp⟩ := List.mem_map.1 (h2 ▸ List.mem_singleton.2 rfl :
      exPts.map some ∈ ess.map fun es => es.map (exField.grid.point (1 / 2)))
    exact (examine_solvable (c := exCriteria) (L := exLibs599) rfl exLibs_nearest (by decide) hfine hfull
      (h1.each cl hcl) hp).1 (Or.inr (Or.inr exGeneric))
  · have hfront := (C89_refuted (Pt := Unit) ⟨true, fun _ => (), fun _ => 0, fun _ => some 0, fun _ => some 0, fun _ _ => 0, fun _ _ => 0⟩
      exCriteria exCriteria_size exLibs599 0 true regs).2.1
    obtain ⟨lines, h1, h2, h3⟩ := C89_partial (c := exCriteria) (L := exLibs599) rfl exLibs_nearest (by decide) frontField_ok
      hfront (fun _ _ _ _ => ⟨_, rfl⟩) (1 / 2) regs
    apply h3
    rintro ⟨x, hx⟩
    obtain ⟨e, he⟩ := C89_aborts (c := exCriteria) (L := exLibs599) frontField_ok (1 / 2) regs
      (pts := [((0 : ℝ), (1 : ℝ)), (0, 2)]) (by rw [front_contours]; exact List.mem_singleton.2 rfl)
      (by
        simp only [Cntr.skipsContour, Cntr.meanOf, Cntr.closeNan, List.map_cons, List.map_nil]
        norm_num)
      (by
        unfold TooLarge
        rw [front_area, zero_div, Real.sqrt_zero, not_lt]
        exact mul_nonneg exCriteria_size (C56_bounds _).1.le)
      (Or.inl ⟨1, 0, 0, Or.inl one_ne_zero, by simp⟩)
    rw [hx] at he
    cases he

end Trackeddy
