import Verif.Props.PipelineExample
import Verif.Props.Gauss
import Verif.Props.Units
import Verif.Spec.GaussFit

/-!
The Gaussian fit of the eddies of a run (C102, C103): what it is made to, and on which side of the level the eddies are.
-/
namespace Trackeddy
open Spec
open Cntr (Vertex SameShape arrGrid)

/-! ### the data of the fit -/

/-- the window of a contour in the grid, and what its filled part is -/
theorem dataInContour_window {L : Libs} {S : Fields} {pts : List (ℝ × ℝ)} {i : InContour}
    (h : dataInContour L S pts = .ok i) :
    ∃ pix : List (ℕ × ℕ), List.Forall₂ (fun v q => codeIndex S.data.rows S.data.cols
        ((⟨S.data.rows, S.data.cols, S.X.get, S.Y.get⟩ : Grid ℝ).mask (meanPt pts))
        (L.ballTree ⟨S.data.rows, S.data.cols, S.X.get, S.Y.get⟩ (meanPt pts) v) = .ok q) pts pix ∧
      i.window.bl0.toNat + (cut i.window S.data).rows ≤ S.data.rows ∧
      i.window.bl1.toNat + (cut i.window S.data).cols ≤ S.data.cols ∧
      (∀ r c : ℕ, ((r : Int), (c : Int)) ∈ fillHoles (cut i.window S.data).rows (cut i.window S.data).cols i.window.rel.toFinset ↔
        Inside S.data.rows S.data.cols (· ∈ pix.map fun p => ((p.1 : Int), (p.2 : Int)))
          ((i.window.bl0.toNat + r : ℕ), (i.window.bl1.toNat + c : ℕ))) ∧
      ∀ r c : ℕ, Inside S.data.rows S.data.cols (· ∈ pix.map fun p => ((p.1 : Int), (p.2 : Int))) (r, c) →
        i.window.bl0.toNat ≤ r ∧ r < i.window.bl0.toNat + (cut i.window S.data).rows ∧
        i.window.bl1.toNat ≤ c ∧ c < i.window.bl1.toNat + (cut i.window S.data).cols := by
  obtain ⟨pix, p, ps, h1, h2, h3, h4, h5⟩ := dataInContour_ok h
  refine ⟨pix, h1, ?_⟩
  obtain ⟨W, ext⟩ := i
  simp only at h3 h4 h5 ⊢
  obtain ⟨b0, b1, t0, t1, hrel⟩ := window_in_grid S.data.rows S.data.cols p ps .auto
  rw [← h3] at b0 b1 t0 t1 hrel
  rw [← h2] at hrel
  obtain ⟨e1, -, -, -⟩ := C42_enclosed _ _ _ _ _ h5
  set C : Int × Int → Prop := (· ∈ pix.map fun p => ((p.1 : Int), (p.2 : Int))) with hCdef
  have hmem : ∀ q : Int × Int, q ∈ W.rel.toFinset ↔ C (q.1 + W.bl0, q.2 + W.bl1) := by
    intro q
    rw [List.mem_toFinset, hrel, hCdef]
    simp only [List.mem_map]
    constructor
    · rintro ⟨a, ⟨b, hb, rfl⟩, rfl⟩
      exact ⟨b, hb, by simp⟩
    · rintro ⟨b, hb, hbq⟩
      refine ⟨_, ⟨b, hb, rfl⟩, ?_⟩
      rw [Prod.ext_iff] at hbq ⊢
      simp only at hbq ⊢
      omega
  have hdim : ∀ q : Int × Int, C q → W.bl0 ≤ q.1 ∧ q.1 < W.bl0 + (cut W S.data).rows ∧ W.bl1 ≤ q.2 ∧
      q.2 < W.bl1 + (cut W S.data).cols := by
    intro q hq
    have := h4 (q.1 - W.bl0, q.2 - W.bl1) (by
      rw [← List.mem_toFinset, hmem]
      simpa using hq)
    simp only at this
    omega
  have hpos : 0 < (cut W S.data).rows ∧ 0 < (cut W S.data).cols := by
    have := e1.1
    unfold InWindow at this
    simp only at this
    omega
  have hr : W.bl0 + (cut W S.data).rows ≤ S.data.rows := by
    have := hpos.1
    simp only [cut] at this ⊢
    omega
  have hc : W.bl1 + (cut W S.data).cols ≤ S.data.cols := by
    have := hpos.2
    simp only [cut] at this ⊢
    omega
  have hins := inside_window b0 b1 hr hc hdim
  have hfun : (fun q : Int × Int => C (q.1 + W.bl0, q.2 + W.bl1)) = (· ∈ W.rel.toFinset) := by
    funext q
    exact propext (hmem q).symm
  rw [hfun] at hins
  refine ⟨by omega, by omega, ?_, ?_⟩
  · intro r c
    rw [C41_inside_iff, hins]
    have a1 : ((W.bl0.toNat + r : ℕ) : Int) = r + W.bl0 := by omega
    have a2 : ((W.bl1.toNat + c : ℕ) : Int) = c + W.bl1 := by omega
    rw [a1, a2]
  · intro r c hrc
    have hbox := inside_box hdim hrc
    simp only at hbox
    omega

/-- the fit and its score -/
theorem stored_fit {c : Criteria ℝ} {L : Libs} {S : Fields} {l : ℝ} {e : EddyObj}
    (hg : c.skipGauss = false) {curve : List (ℝ × ℝ)} {i : InContour} (hst : StoredAs c L S l e.contour e curve i) :
    ∃ pix P, List.Forall₂ (fun v q => codeIndex S.data.rows S.data.cols
        ((⟨S.data.rows, S.data.cols, S.X.get, S.Y.get⟩ : Grid ℝ).mask (meanPt e.contour))
        (L.ballTree ⟨S.data.rows, S.data.cols, S.X.get, S.Y.get⟩ (meanPt e.contour) v) = .ok q) e.contour pix ∧
      FitsInside S.grid e.data pix P ∧ ScoredBy L l e.data e.contour P := by
  obtain ⟨pix, h1, h2, h3, h4, h5⟩ := dataInContour_window hst.data
  rcases hst.gauss with ⟨h0, -⟩ | ⟨-, surf, gs, gpts, k1, k2, k3, k4, k5, k6, -⟩
  · rw [hg] at h0; cases h0
  obtain ⟨W, ext⟩ := i
  unfold fitSurface at k1
  obtain ⟨θ, hθ⟩ : ∃ θ, e.ellipse.2.2 = some θ := by
    cases hθ : e.ellipse.2.2 with
    | none => simp only [hθ] at k1; cases k1
    | some θ => exact ⟨θ, rfl⟩
  simp only [hθ] at k1
  set P : FitProblem := ⟨cut W S.X, cut W S.Y, maskedData S W, (maximaOf S ⟨W, ext⟩).1,
    ((maximaOf S ⟨W, ext⟩).2.2, (maximaOf S ⟨W, ext⟩).2.1, e.ellipse.1, e.ellipse.2.1, θ)⟩ with hP
  cases hq : L.leastSquares P with
  | error er => simp only [hq, bind, Except.bind] at k1; cases k1
  | ok q =>
  obtain ⟨x, y, a, b, t⟩ := q
  simp only [hq, bind, Except.bind, pure, Except.pure] at k1
  injection k1 with k1
  refine ⟨pix, P, h1, ⟨W.bl0.toNat, W.bl1.toNat, h2, h3, rfl, rfl, rfl, rfl, fun r c => ⟨rfl, rfl⟩, h5, ?_, ?_, ?_, ?_, rfl, rfl, ?_⟩,
    ⟨x, y, a, b, t, hq, ?_, ?_⟩⟩
  · intro r hr c hc
    refine ⟨fun hi => ?_, fun hi => ?_⟩
    · exact if_pos ((h4 r c).2 hi)
    · exact if_neg fun hn => hi ((h4 r c).1 hn)
  · simp only [EddyObj.data, hst.maxima]; rfl
  · simp only [EddyObj.data, hst.maxima]; rfl
  · simp only [EddyObj.data, hst.maxima]; rfl
  · simp only [EddyObj.data, hθ]; rfl
  · simp only [EddyObj.data, k2, ← k1]
  · have hsh : SameShape (cut W S.X) (cut W S.Y) surf.1 none := by
      rw [← k1]
      exact ⟨rfl, rfl, fun M hM => by cases hM⟩
    obtain ⟨ess, l1, l2⟩ := contoursOf_lines L hsh l
    rw [k3] at l2
    injection l2 with l2
    have hG : arrGrid (cut W S.X) (cut W S.Y) surf.1 none = gaussGrid P x y a b t := by
      rw [← k1]
      rfl
    rw [hG] at l1 l2
    refine ⟨ess, gpts, l1, ?_, ?_, liftFr_ok k6⟩
    · rintro rfl
      exact k4 l2
    · rw [← allPoints_eq.1 k5, l2, List.map_flatten]

/-! ### C103 -/

/-- **C103** With the Gaussian fit switched on, rectilinear grids and correct answers for nearest grid points: each eddy of the
returned table was fitted to the data at exactly the grid points that the pixels of its contour enclose, all other data being
missing, with the reported extremum as amplitude and the extremum's position and the ellipse as initial guess. The reported
parameters are those of the fit, and the reported score is the similarity of the contour with the contour lines, at the level of the
eddy, of the Gaussian with these parameters. -/
theorem C103_gaussian_of_enclosed_data {Pt : Type} {E : Env Cols ℝ Pt} (hnn : IsNN E.dist E.nn) {c : Criteria ℝ}
    (hg : c.skipGauss = false) {L : Libs} (hL : L.Nearest) {field : Int → Fields} {levels : List ℝ} {t0 : Int} {tf : Option Int}
    {T : Nat} {ntimes : Int} {regs : Regs Cols} (h : ∀ t ∈ trackTimes t0 tf T, (field t).Ok)
    (hrect : ∀ t ∈ trackTimes t0 tf T, (field t).Rectilinear) (hr : StoreEmpty regs) {s : LoopState Cols}
    (hs : (trackFields E c L field levels t0 tf T ntimes true regs).2 = .ok s) :
    MadeOfT (fun t rows => ∃ d pts pix P, rows = tableRows d ∧ HasContour d pts ∧
      List.Forall₂ (NearestNear (field t).grid (centroid pts)) pts pix ∧ FitsInside (field t).grid d pix P ∧
      ∃ l ∈ levels, d.level = some l ∧ ScoredBy L l d pts P) s.table.rows := by
  refine (trackFields_made hnn h hr hs).mono ?_
  rintro t rows ⟨l, hl, hl0, vs, hvs, e, he, hre, ht⟩
  obtain ⟨_, h3, curve, i, hst⟩ := examine_stored.1 he
  obtain ⟨pix, P, h4, h5, h6⟩ := stored_fit hg hst
  have hne : masked (field t).data.rows (field t).data.cols ((⟨(field t).data.rows, (field t).data.cols, (field t).X.get,
      (field t).Y.get⟩ : Grid ℝ).mask (meanPt e.contour)) ≠ [] := by
    intro h0
    have := hst.data
    unfold dataInContour at this
    simp only [h0, if_true] at this
    cases this
  have hpix : List.Forall₂ (NearestNear (field t).grid (centroid e.contour)) e.contour pix :=
    forall₂_map_pix h4 fun v _ q hq => pixel_nearest hL (hrect t ht) hne hq
  exact ⟨e.data, e.contour, pix, P, hre, rfl, hpix, h5, l, hl, by simp only [EddyObj.data, hst.lev], h6⟩

/-! ### C102 -/

/-- a contour line crosses some side: a value above the level and one that is not -/
theorem contours_values {G : Spec.Grid ℝ} {l : ℝ} {lines : List (List Side)} (h : Contours G l lines) (hne : lines ≠ []) :
    (∃ p, G.Above l p) ∧ ∃ p, ¬ G.Above l p := by
  obtain ⟨es, hes⟩ := List.exists_mem_of_ne_nil _ hne
  have h2 := (h.each es hes).two
  have hj := (h.each es hes).joined
  match es, h2, hj with
  | a :: b :: _, _, hj =>
    obtain ⟨_, _, _, _, _, hc, _⟩ := (List.isChain_cons_cons.1 hj).1
    unfold Spec.Grid.Crossed at hc
    by_cases ha : G.Above l a.a
    · by_cases hb : G.Above l a.b
      · exact absurd (iff_of_true ha hb) hc
      · exact ⟨⟨_, ha⟩, ⟨_, hb⟩⟩
    · by_cases hb : G.Above l a.b
      · exact ⟨⟨_, hb⟩, ⟨_, ha⟩⟩
      · exact absurd (iff_of_false ha hb) hc

/-- the amplitude of a Gaussian that crosses the level -/
theorem amplitude_beyond {P : FitProblem} {x y a b θ l : ℝ} {lines : List (List Side)}
    (h : Contours (gaussGrid P x y a b θ) l lines) (hne : lines ≠ []) :
    (0 < P.amplitude → 0 < l ∧ l < P.amplitude) ∧ (P.amplitude < 0 → l < 0 ∧ P.amplitude ≤ l) := by
  obtain ⟨⟨p, v, hv, hlv⟩, q, hq⟩ := contours_values h hne
  injection hv with hv
  have hq' : gaussian (P.X.get q.2 q.1) (P.Y.get q.2 q.1) P.amplitude x y a b θ ≤ l := by
    by_contra hn
    exact hq ⟨_, rfl, not_le.1 hn⟩
  obtain ⟨p1, p2, p3⟩ := C35_bounded (P.X.get p.2 p.1) (P.Y.get p.2 p.1) P.amplitude x y a b θ
  obtain ⟨q1, q2, q3⟩ := C35_bounded (P.X.get q.2 q.1) (P.Y.get q.2 q.1) P.amplitude x y a b θ
  rw [hv] at p1 p2 p3
  refine ⟨fun hA => ⟨(q1 hA).trans_le hq', ?_⟩, fun hA => ⟨hlv.trans (p2 hA), ?_⟩⟩
  · rw [abs_of_pos hA] at p3
    exact hlv.trans_le ((le_abs_self v).trans p3)
  · rw [abs_of_neg hA] at q3
    linarith [neg_abs_le (gaussian (P.X.get q.2 q.1) (P.Y.get q.2 q.1) P.amplitude x y a b θ)]

/-- **C102** (with the Gaussian fit) The eddies of a positive level are elevations whose extremum exceeds the level, those of a
negative level depressions whose extremum is not above the level. Missing: without the Gaussian fit this does not hold
(`C102_refuted`). -/
theorem C102_partial {Pt : Type} {E : Env Cols ℝ Pt} (hnn : IsNN E.dist E.nn) {c : Criteria ℝ} (hg : c.skipGauss = false)
    {L : Libs} {field : Int → Fields} {levels : List ℝ} {t0 : Int} {tf : Option Int} {T : Nat} {ntimes : Int}
    {regs : Regs Cols} (h : ∀ t ∈ trackTimes t0 tf T, (field t).Ok) (hr : StoreEmpty regs) {s : LoopState Cols}
    (hs : (trackFields E c L field levels t0 tf T ntimes true regs).2 = .ok s) :
    MadeOfT (fun _ rows => ∃ d, rows = tableRows d ∧ ∃ l ∈ levels, BeyondLevel l d) s.table.rows := by
  refine (trackFields_made hnn h hr hs).mono ?_
  rintro t rows ⟨l, hl, hl0, vs, hvs, e, he, hre, ht⟩
  obtain ⟨_, h3, curve, i, hst⟩ := examine_stored.1 he
  obtain ⟨_, _, h5⟩ := dataInContour_extremum hst.data hst.maxima_ne hst.sign hst.maxima
  obtain ⟨_, P, _, ⟨_, _, _, _, _, _, _, _, _, _, _, hmx, _⟩, x, y, a, b, θ, _, _, lines, _, hc, hne, _⟩ := stored_fit hg hst
  obtain ⟨_, _, v, _, _, _, hv, _, _, hsg, _⟩ := h5
  have hvP : v = P.amplitude := by
    rw [hv] at hmx
    injection hmx
  subst hvP
  obtain ⟨a1, a2⟩ := amplitude_beyond hc hne
  refine ⟨e.data, hre, l, hl, by simp only [EddyObj.data, hst.lev], P.amplitude, hv, ?_⟩
  rcases hsg with ⟨g1, g2⟩ | ⟨g1, g2⟩
  · exact Or.inl ⟨(a1 g1).1, (a1 g1).2, g2.1⟩
  · exact Or.inr ⟨(a2 g1).1, (a2 g1).2, g2.1⟩

/-! ### examples -/

theorem exFill : fillHoles 3 4 exWindow.rel.toFinset = {(1, 1), (1, 2)} := by decide +kernel

/-- the extremum of a field with two elevated points -/
theorem exValue {data : Nat → Nat → Option ℝ} {u w : ℝ} (hu : 0 < u)
    (hZ : ∀ r < 3, ∀ c < 4, data r c = some (if r = 1 ∧ (c = 1 ∨ c = 2) then u else w)) :
    ∃ e, maskDataInContour 3 4 exWindow.rel.toFinset data = .ok e ∧ e.maxima = u ∧ e.sign = 1 := by
  obtain ⟨e, he⟩ := (C42_defined 3 4 data
    fun r c => decide (((r : Int), (c : Int)) ∈ fillHoles 3 4 exWindow.rel.toFinset)).1.2
      ⟨1, 1, u, by norm_num, by norm_num, by rw [exFill]; decide, by rw [hZ 1 (by norm_num) 1 (by norm_num)]; simp⟩
  refine ⟨e, he, ?_⟩
  obtain ⟨x, ⟨h1, h2, h3, h4⟩, h5, _⟩ := C42_extremum _ _ _ _ e he
  have hx : x = u := by
    rw [exFill] at h3
    rw [hZ _ h1 _ h2] at h4
    simp only [decide_eq_true_eq, Finset.mem_insert, Finset.mem_singleton, Prod.mk.injEq] at h3
    rw [if_pos (by omega)] at h4
    injection h4 with h4
    exact h4.symm
  have ht : total 3 4 data (fun r c => decide (((r : Int), (c : Int)) ∈ fillHoles 3 4 exWindow.rel.toFinset)) = u + u := by
    rw [exFill]
    unfold total
    simp only [Finset.sum_range_succ, Finset.sum_range_zero, hZ 0 (by norm_num), hZ 1 (by norm_num), hZ 2 (by norm_num),
      (by norm_num : 0 < 4), (by norm_num : 1 < 4), (by norm_num : 2 < 4), (by norm_num : 3 < 4)]
    simp
  obtain ⟨g1, g2, _⟩ := h5 (by rw [ht]; linarith)
  exact ⟨g2.trans hx, g1⟩

/-- the data inside the contour of the example for other data on the same grid -/
theorem exDataOf {L : Libs} {S : Fields} (hL : L.ballTree = exBallTree) (hX : S.X = exField.X) (hY : S.Y = exField.Y)
    (hr : S.data.rows = 3) (hc : S.data.cols = 4) {e : Extremum ℝ}
    (he : maskDataInContour 3 4 exWindow.rel.toFinset (cut exWindow S.data).get = .ok e) :
    dataInContour L S exPts = .ok ⟨exWindow, e⟩ := by
  have hgrid : (⟨S.data.rows, S.data.cols, S.X.get, S.Y.get⟩ : Grid ℝ) = exGrid := by
    rw [hX, hY, hr, hc]
    rfl
  unfold dataInContour
  rw [hgrid, exMean, hL]
  have hm : masked exGrid.ny exGrid.nx (exGrid.mask (10 / 7, 13 / 14)) ≠ [] := by
    show masked 3 4 (exGrid.mask (10 / 7, 13 / 14)) ≠ []
    rw [exMasked]
    simp
  have hmap : (exPts.mapM fun v => codeIndex exGrid.ny exGrid.nx (exGrid.mask (10 / 7, 13 / 14))
      (exBallTree exGrid (10 / 7, 13 / 14) v)) = .ok [(1, 1), (1, 2), (1, 2), (1, 2), (1, 1), (1, 1), (1, 1)] := by
    rw [mapM_ok (g := fun v : ℝ × ℝ => if v.1 < 3 / 2 then ((1 : Nat), (1 : Nat)) else (1, 2))]
    · unfold exPts
      norm_num
    · exact fun v hv => exCode v hv
  simp only [hm, if_false, bind, Except.bind, pure, Except.pure, hmap]
  simp only [List.map_cons, List.map_nil]
  have hw : getWindow S.data.rows S.data.cols (((1 : Nat) : Int), ((1 : Nat) : Int))
      [(((1 : Nat) : Int), ((2 : Nat) : Int)), (((1 : Nat) : Int), ((2 : Nat) : Int)), (((1 : Nat) : Int), ((2 : Nat) : Int)),
      (((1 : Nat) : Int), ((1 : Nat) : Int)), (((1 : Nat) : Int), ((1 : Nat) : Int)), (((1 : Nat) : Int), ((1 : Nat) : Int))] .auto =
      exWindow := by
    rw [hr, hc]
    exact exGetWindow
  rw [hw, if_pos (by
    show (exWindow.rel.all fun q => decide (0 ≤ q.1 ∧ q.1 < ((3 : Nat) : Int) ∧ 0 ≤ q.2 ∧ q.2 < ((4 : Nat) : Int))) = true
    decide)]
  have he' : maskDataInContour (cut exWindow S.data).rows (cut exWindow S.data).cols exWindow.rel.toFinset
    (cut exWindow S.data).get = .ok e := he
  rw [he']

/-- the contour of the example is stored -/
theorem exStoredOf {c : Criteria ℝ} {L : Libs} {S : Fields} {l : ℝ} (hc : c = { exCriteria with skipGauss := c.skipGauss })
    (hlim : 12 < L.limit) {x : Extremum ℝ} (hx : dataInContour L S exPts = .ok ⟨exWindow, x⟩) (hx0 : x.maxima ≠ 0)
    {g : Option (ℝ × ℝ × ℝ × ℝ × ℝ)} {ge : Option ℝ}
    (hg : c.skipGauss = true ∧ g = none ∧ ge = some 0 ∨
      c.skipGauss = false ∧ ∃ surf gs gpts, fitSurface L S ⟨exWindow, x⟩ (1, 1 / Real.sqrt 3, some 0) = .ok surf ∧ g = some surf.2 ∧
        contoursOf L (cut exWindow S.X) (cut exWindow S.Y) surf.1 l = .ok gs ∧ gs ≠ [] ∧
        allPoints gs.flatten = some gpts ∧ liftFr (similarity L.limit exPts gpts) = .ok ge ∧ ¬ ltNan ge c.gaussFit) :
    ∃ e, examine c L S l (exPts.map some) = .ok (.stored e) ∧ e.sign = x.sign ∧ e.maxima = maximaOf S ⟨exWindow, x⟩ := by
  have hsim : ∃ v, similarity L.limit exPts exCurve = .ok v := by
    obtain ⟨d, hd, _⟩ := Frechet.C24_frdist_is_discrete_frechet L.limit eucl eucl_symm exPts exCurve (by simp [exPts])
      (by simp [exCurve]) (Or.inl (by simp [exPts])) (by simp [exPts, exCurve]; omega)
    unfold similarity
    simp only [hd, bind, Except.bind, pure, Except.pure]
    split <;> exact ⟨_, rfl⟩
  obtain ⟨v, hv⟩ := hsim
  have c1 : c.ellipseFit = 1 := by rw [hc]; rfl
  have c2 : c.eccen = 1 := by rw [hc]; rfl
  have c3 : c.maxArea = Real.sqrt (areaPolygon exPts / Real.pi) / approxRD (13 / 14) := by rw [hc]; rfl
  refine ⟨⟨exPts, l, areaPolygon exPts, Real.sqrt (areaPolygon exPts / Real.pi), (1, 1 / Real.sqrt 3, some 0), v,
    eccentricity 1 (1 / Real.sqrt 3), meanPt exPts, x.sign, maximaOf S ⟨exWindow, x⟩, g, ge⟩, ?_, rfl, rfl⟩
  rw [examine_stored]
  refine ⟨exSkips, rfl, exCurve, ⟨exWindow, x⟩, ?_⟩
  have hrd : 0 < approxRD (13 / 14) := by unfold approxRD; positivity
  refine ⟨rfl, rfl, rfl, rfl, rfl, ?_, exFit, exFinite, ?_, rfl, ?_, ?_, ?_, hx, rfl, rfl, hx0, hg⟩
  · rw [exMean, c3, div_mul_cancel₀ _ hrd.ne']
  · rw [exAreas]
    unfold isclose
    simp only [sub_self, abs_zero, decide_eq_true_eq, c1]
    positivity
  · rintro ⟨u, hu, h1⟩
    rw [c2] at h1
    simp only at hu
    unfold eccentricity at hu
    split at hu
    · cases hu
    · split at hu
      · cases hu
      · injection hu with hu
        have h2 : u ≤ 1 := by
          rw [← hu]
          apply Real.sqrt_le_one.2
          have : 0 ≤ |1 / Real.sqrt 3| ^ 2 / |(1 : ℝ)| ^ 2 := by positivity
          linarith
        exact absurd h1 (not_lt.2 h2)
  · show liftFr (similarity L.limit exPts exCurve) = .ok v
    rw [hv]
    rfl
  · rintro ⟨u, hu, h1⟩
    rw [c1] at h1
    simp only at hu
    subst hu
    exact absurd h1 (not_lt.2 (similarity_unit hv).2)

/-- a run on one snapshot with one contour, which is stored -/
theorem run_one {c : Criteria ℝ} {L : Libs} {S : Fields} {l : ℝ} (hl0 : l ≠ 0) (hS : S.Ok) {vs : List (Vertex ℝ)}
    (hcl : contourList L S l = [vs]) {e : EddyObj} (he : examine c L S l vs = .ok (.stored e)) :
    ∃ (nn : List (ℝ × ℝ) → ℝ × ℝ → Nat) (s : LoopState Cols), IsNN (colsEnv true nn).dist (colsEnv true nn).nn ∧
      (trackFields (colsEnv true nn) c L (fun _ => S) [l] 0 none 1 1 true Regs.empty).2 = .ok s ∧ s.table.rows ≠ [] := by
  obtain ⟨nn, hnn⟩ := exists_isNN haversine
  have hnn' : IsNN (colsEnv true nn).dist (colsEnv true nn).nn := hnn
  have hl : ([l] : List ℝ).filter (· ≠ 0) = [l] := by simp [hl0]
  have hv : ∀ m ∈ levelMeasures c L S l, ∃ v, verdict c m = .ok v := by
    intro m hm
    unfold levelMeasures at hm
    rw [hcl] at hm
    simp only [List.map_cons, List.map_nil, List.mem_singleton] at hm
    subst hm
    rw [verdict_measures, he]
    exact ⟨_, rfl⟩
  have hp : ∃ tb, pureLevel c (levelMeasures c L S l) = .ok tb := by
    unfold pureLevel
    rw [detectOneLevel_ok _ _ hv]
    exact ⟨_, rfl⟩
  obtain ⟨tb, hp⟩ := hp
  have hC : ∃ C, pureSnapshot (colsEnv true nn) c L S [l] = .ok C := by
    unfold pureSnapshot detectSnapshot
    rw [hl]
    simp only [List.foldlM_cons, List.foldlM_nil, levelStep, bind, Except.bind, pure, Except.pure, hp]
    by_cases h0 : tb.rows = []
    · simp [h0]
    · simp [h0]
  obtain ⟨C, hC⟩ := hC
  have hne : C.rows ≠ [] := by
    rw [snapshot_one_level hS hl hC, hcl]
    have hse : storedEddy c L S l vs = some e := by
      unfold storedEddy
      rw [he]
    simp only [List.filterMap_cons, List.filterMap_nil, hse, List.map_cons, List.map_nil]
    have hc : e.contour ≠ [] := by
      obtain ⟨_, h1, _⟩ := examine_stored.1 he
      intro h0
      rw [h0] at h1
      exact contourList_ne L hS l vs (by rw [hcl]; simp) h1
    have hr : e.rows ≠ [] := by
      unfold EddyObj.rows
      simpa [EddyObj.data] using hc
    unfold snapRows eddyRows
    simpa using hr
  have hsnap : ∀ (t : Int) C, (fun _ : Int => pureSnapshot (colsEnv true nn) c L S [l]) t = .ok C → SnapRows C.rows := by
    intro t C hC
    have := detectSnapshot_inv (fun l tb htb => pureLevel_level htb) _ hC
    exact ⟨this.first, this.contig⟩
  have hts : trackTimes 0 none 1 = [0] := by decide
  have hrun := (run_ok_iff hnn' (tf := none) (ntimes := 1) (snap := fun _ => pureSnapshot (colsEnv true nn) c L S [l]) [0]
    (by simp) (fun _ _ => ⟨C, hC⟩) (fun t _ => rowsAt_snapRows hsnap t)).2 (by
      intro t ht _ hu
      obtain ⟨u, hu, hlt, _⟩ := hu
      rw [List.mem_singleton] at ht hu
      omega)
  obtain ⟨s, hs⟩ := hrun
  have hs' : timeTracking (colsEnv true nn) (fun _ => pureSnapshot (colsEnv true nn) c L S [l]) 0 none 1 1 true = .ok s := by
    unfold timeTracking
    rw [hts]
    exact hs
  refine ⟨nn, s, hnn', ?_, ?_⟩
  · rw [(trackFields_pure _ _ _ (fun _ _ => hS) ⟨rfl, rfl⟩).1]
    exact hs'
  · obtain ⟨g, hg⟩ := C03_no_detection_lost_or_invented hnn' hsnap hs'
    have hproc : s.processed = trackTimes 0 none 1 :=
      (run_inv hnn' _ (pairwise_trackTimes 0 none 1) (fun t _ => rowsAt_snapRows hsnap t) hs').proc
    rw [hproc, hts] at hg
    intro h0
    rw [h0] at hg
    have := hg.symm.eq_nil
    simp only [List.flatMap_cons, List.flatMap_nil, List.append_nil, tagged, rowsAt, hC] at this
    exact hne (List.map_eq_nil_iff.1 this)

/-- **C102 refuted** without the Gaussian fit: a run at the level -1/4 whose table is not empty and consists of eddies of this level
that are elevations with extremum 1/4. -/
theorem C102_refuted : ∃ (E : Env Cols ℝ (ℝ × ℝ)) (c : Criteria ℝ) (L : Libs) (S : Fields) (s : LoopState Cols),
    IsNN E.dist E.nn ∧ c.skipGauss = true ∧ L.Nearest ∧ S.Ok ∧ S.Rectilinear ∧
    (trackFields E c L (fun _ => S) [-(1 / 4)] 0 none 1 1 true Regs.empty).2 = .ok s ∧ s.table.rows ≠ [] ∧
    MadeOfT (fun _ rows => ∃ d, rows = tableRows d ∧ d.level = some (-(1 / 4)) ∧ d.maximum = some (1 / 4) ∧ d.sign = some 1)
      s.table.rows := by
  have hlev : (1 / 2 : ℝ) + -(3 / 4) = -(1 / 4) := by norm_num
  have hcl : contourList exLibs (exField.shift (-(3 / 4))) (-(1 / 4)) = [exPts.map some] := by
    rw [← hlev, contourList_shift exLibs exField_ok, exField_contours]
  obtain ⟨x, h1, h2, h3⟩ := exValue (data := (cut exWindow (exField.shift (-(3 / 4))).data).get) (u := 1 / 4) (w := -(3 / 4))
    (by norm_num) (by
      intro r hr c hc
      simp only [cut, exWindow, exField, Fields.shift, Int.toNat_zero, Nat.zero_add, hr, hc, and_self, if_true, Option.map_some,
        Option.some.injEq]
      split_ifs <;> norm_num)
  have hd := exDataOf (L := exLibs) (S := exField.shift (-(3 / 4))) rfl rfl rfl rfl rfl h1
  obtain ⟨e, he, g1, g2⟩ := exStoredOf (c := exCriteria) (L := exLibs) (l := -(1 / 4)) rfl (by show 12 < 100; norm_num) hd
    (by rw [h2]; norm_num) (Or.inl ⟨rfl, rfl, rfl⟩)
  have hok : (exField.shift (-(3 / 4))).Ok := ⟨rfl, rfl, fun M hM => by cases hM⟩
  obtain ⟨nn, s, r1, r2, r3⟩ := run_one (by norm_num) hok hcl he
  refine ⟨colsEnv true nn, exCriteria, exLibs, exField.shift (-(3 / 4)), s, r1, rfl, exLibs_nearest, hok, exField_rect, r2, r3, ?_⟩
  refine (trackFields_made r1 (fun _ _ => hok) ⟨rfl, rfl⟩ r2).mono ?_
  rintro t rows ⟨l, hl, hl0, vs, hvs, e', he', hre, ht⟩
  rw [List.mem_singleton] at hl
  subst hl
  rw [hcl, List.mem_singleton] at hvs
  subst hvs
  rw [he] at he'
  injection he' with he'
  injection he' with he'
  subst he'
  obtain ⟨_, _, _, _, hst⟩ := examine_stored.1 he
  refine ⟨e.data, hre, by simp only [EddyObj.data, hst.lev], ?_, ?_⟩
  · simp only [EddyObj.data, g2, maximaOf, h2]
  · simp only [EddyObj.data, g1, h3]

/-- libraries with a Gaussian fit that answers a circular Gaussian around one of the two elevated points -/
noncomputable def exLibsG (n : Nat) : Libs := ⟨n, fun _ _ => Cntr.exMem, exBallTree, fun _ => .ok (1, 1, 1 / 2, 1 / 2, 0)⟩

/-- the criteria of the example with the Gaussian fit -/
noncomputable def exCriteriaG : Criteria ℝ := { exCriteria with skipGauss := false }

/-- an eddy that passes the Gaussian fit -/
theorem exStoredG : ∃ (n : Nat) (e : EddyObj), examine exCriteriaG (exLibsG n) exField (1 / 2) (exPts.map some) = .ok (.stored e) := by
  obtain ⟨x, h1, h2, h3⟩ := exValue (data := (cut exWindow exField.data).get) (u := 1) (w := 0) one_pos (by
      intro r hr c hc
      simp only [cut, exWindow, exField, Int.toNat_zero, Nat.zero_add, hr, hc, and_self, if_true])
  set Z : Cntr.NdArr (Option ℝ) := ⟨(cut exWindow exField.X).rows, (cut exWindow exField.X).cols, fun r c =>
    some (gaussian ((cut exWindow exField.X).get r c) ((cut exWindow exField.Y).get r c) 1 1 1 (1 / 2) (1 / 2) 0)⟩ with hZ
  have hsf : ∀ n, fitSurface (exLibsG n) exField ⟨exWindow, x⟩ (1, 1 / Real.sqrt 3, some 0) = .ok (Z, (1, 1, 1 / 2, 1 / 2, 0)) := by
    intro n
    unfold fitSurface
    simp only [exLibsG, bind, Except.bind, pure, Except.pure, maximaOf, h2, hZ]
  obtain ⟨ess, l1, l2⟩ := contoursOf_lines (exLibsG 0) (X := cut exWindow exField.X) (Y := cut exWindow exField.Y) (Z := Z)
    ⟨rfl, rfl, fun M hM => by cases hM⟩ (1 / 2)
  set G := arrGrid (cut exWindow exField.X) (cut exWindow exField.Y) Z none with hG
  have hess : ess ≠ [] := by
    rintro rfl
    have hcross : G.InMesh ⟨0, 1, false⟩ ∧ G.Crossed (1 / 2) ⟨0, 1, false⟩ := by
      refine ⟨⟨(0, 0), ⟨by decide, by decide, fun p _ => rfl⟩, by decide⟩, ?_⟩
      have ha : ¬ G.Above (1 / 2) (0, 1) := by
        rintro ⟨v, hv, hlt⟩
        injection hv with hv
        have e1 : gaussian 0 1 1 1 1 (1 / 2) (1 / 2) 0 = v := by
          rw [← hv]
          simp [cut, exWindow, exField]
        unfold gaussian at e1
        simp only [Real.cos_zero, Real.sin_zero, mul_zero] at e1
        norm_num at e1
        rw [← e1] at hlt
        have h5 : Real.exp (-2) * Real.exp 2 = 1 := by rw [← Real.exp_add]; simp
        have h6 := Real.add_one_le_exp (2 : ℝ)
        have h7 := Real.exp_pos (-2 : ℝ)
        nlinarith
      have hb : G.Above (1 / 2) (1, 1) := by
        refine ⟨_, rfl, ?_⟩
        have e1 : gaussian 1 1 1 1 1 (1 / 2) (1 / 2) 0 = 1 := by
          unfold gaussian
          simp
        have e2 : gaussian ((cut exWindow exField.X).get 1 1) ((cut exWindow exField.Y).get 1 1) 1 1 1 (1 / 2) (1 / 2) 0 = 1 := by
          have hX : (cut exWindow exField.X).get 1 1 = 1 := by simp [cut, exWindow, exField]
          have hY : (cut exWindow exField.Y).get 1 1 = 1 := by simp [cut, exWindow, exField]
          rw [hX, hY, e1]
        rw [e2]
        norm_num
      exact fun h => ha (h.2 hb)
    have := (l1.all ⟨0, 1, false⟩).2 hcross
    simp at this
  have hpt : ∀ sd, ∃ p, G.point (1 / 2) sd = some p := fun sd => ⟨_, rfl⟩
  choose pt hpt using hpt
  have hall : allPoints (ess.map fun es => es.map (G.point (1 / 2))).flatten = some (ess.flatten.map pt) := by
    rw [allPoints_eq, ← List.map_flatten, List.map_map]
    exact List.map_congr_left fun sd _ => hpt sd
  have hne : ess.flatten.map pt ≠ [] := by
    obtain ⟨es, hes⟩ := List.exists_mem_of_ne_nil _ hess
    have h2 := (l1.each es hes).two
    intro h0
    rw [List.map_eq_nil_iff, List.flatten_eq_nil_iff] at h0
    rw [h0 es hes] at h2
    simp at h2
  obtain ⟨n, hn⟩ : ∃ n, 12 < n ∧ exPts.length + (ess.flatten.map pt).length - 2 < n :=
    ⟨max 12 (exPts.length + (ess.flatten.map pt).length - 2) + 1, by omega, by omega⟩
  have hsim : ∃ v, similarity n exPts (ess.flatten.map pt) = .ok v := by
    obtain ⟨d, hd, _⟩ := Frechet.C24_frdist_is_discrete_frechet n eucl eucl_symm exPts (ess.flatten.map pt) (by simp [exPts])
      hne (Or.inl (by simp [exPts])) hn.2
    unfold similarity
    simp only [hd, bind, Except.bind, pure, Except.pure]
    split <;> exact ⟨_, rfl⟩
  obtain ⟨v, hv⟩ := hsim
  have hd := exDataOf (L := exLibsG n) (S := exField) rfl rfl rfl rfl rfl h1
  obtain ⟨e, he, -⟩ := exStoredOf (c := exCriteriaG) (L := exLibsG n) (l := 1 / 2) rfl hn.1 hd (by rw [h2]; norm_num)
    (g := some (1, 1, 1 / 2, 1 / 2, 0)) (ge := v)
    (Or.inr ⟨rfl, (Z, (1, 1, 1 / 2, 1 / 2, 0)), _, _, hsf n, rfl, l2, by simpa using hess, hall,
      by show liftFr (similarity n exPts _) = _; rw [hv]; rfl, by
        rintro ⟨u, rfl, hu⟩
        exact absurd hu (not_lt.2 (similarity_unit hv).1)⟩)
  exact ⟨n, e, he⟩

/-- a run with the Gaussian fit whose table is not empty -/
theorem exPipelineG : ∃ (n : Nat) (nn : List (ℝ × ℝ) → ℝ × ℝ → Nat) (s : LoopState Cols),
    IsNN (colsEnv true nn).dist (colsEnv true nn).nn ∧
    (trackFields (colsEnv true nn) exCriteriaG (exLibsG n) (fun _ => exField) [1 / 2] 0 none 1 1 true Regs.empty).2 = .ok s ∧
    s.table.rows ≠ [] := by
  obtain ⟨n, e, he⟩ := exStoredG
  obtain ⟨nn, s, r⟩ := run_one (by norm_num) exField_ok (exField_contours _) he
  exact ⟨n, nn, s, r⟩

/-- C102 and C103 are not vacuous: a run with the Gaussian fit whose table has rows. -/
example : ∃ (E : Env Cols ℝ (ℝ × ℝ)) (L : Libs) (s : LoopState Cols), s.table.rows ≠ [] ∧
    MadeOfT (fun _ rows => ∃ d, rows = tableRows d ∧ ∃ l ∈ ([1 / 2] : List ℝ), BeyondLevel l d) s.table.rows ∧
    MadeOfT (fun _ rows => ∃ d pts pix P, rows = tableRows d ∧ HasContour d pts ∧
      List.Forall₂ (NearestNear exField.grid (centroid pts)) pts pix ∧ FitsInside exField.grid d pix P ∧
      ∃ l ∈ ([1 / 2] : List ℝ), d.level = some l ∧ ScoredBy L l d pts P) s.table.rows := by
  obtain ⟨n, nn, s, h1, h2, h3⟩ := exPipelineG
  have hg : exCriteriaG.skipGauss = false := rfl
  have hL : (exLibsG n).Nearest := exLibs_nearest
  have hok : ∀ t ∈ trackTimes 0 none 1, ((fun _ => exField) t : Fields).Ok := fun _ _ => exField_ok
  have hrc : ∀ t ∈ trackTimes 0 none 1, ((fun _ => exField) t : Fields).Rectilinear := fun _ _ => exField_rect
  have k1 := C102_partial h1 hg hok ⟨rfl, rfl⟩ h2
  have k2 := C103_gaussian_of_enclosed_data h1 hg hL hok hrc ⟨rfl, rfl⟩ h2
  exact ⟨colsEnv true nn, exLibsG n, s, h3, k1, k2⟩

end Trackeddy
