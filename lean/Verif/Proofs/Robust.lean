import Verif.Props.Pipeline

/-! When the detection of a contour raises an exception (for C89). -/
namespace Trackeddy
open Spec
open Cntr (Vertex SameShape arrGrid Full)

/-! ### similarity -/

theorem subsample_same_length {P : Type} (k : Nat) (p q : List P) (h : p.length = q.length) :
    (Frechet.subsample k p q).1.length = (Frechet.subsample k p q).2.length := by
  fun_induction Frechet.subsample k p q with
  | case1 k p q hpq ih => exact ih (by rw [Frechet.slice0_length, Frechet.slice0_length, h])
  | case2 k p q hpq => exact h

/-- curves with the same number of points are compared within 599 frames -/
theorem similarity_same_length {limit : Nat} (hl : 599 ≤ limit) {A B : List (ℝ × ℝ)} (hA : A ≠ []) (h : A.length = B.length) :
    ∃ s, similarity limit A B = .ok s := by
  have hB : B ≠ [] := by
    intro hB
    rw [hB] at h
    exact hA (List.length_eq_zero_iff.1 h)
  have hsym : ∀ a b, eucl a b = eucl b a := eucl_symm
  have hrec : Frechet.frdist limit eucl A B ≠ .error .recursionError := by
    rw [Ne, Frechet.C27_recursionError_iff limit eucl hsym A B hA hB]
    have h1 := subsample_same_length 0 A B h
    have h2 := Frechet.subsample_bound 0 A B
    omega
  have hidx : Frechet.frdist limit eucl A B ≠ .error .indexError := by
    rw [Frechet.frdist_eq limit hsym]
    have h1 := (Frechet.subsample_nil_left 0 A B).not.2 hA
    have h2 := (Frechet.subsample_nil_right 0 A B).not.2 hB
    simp only [h1, h2, or_self, if_false]
    split <;> simp
  unfold similarity
  cases hf : Frechet.frdist limit eucl A B with
  | error e => cases e <;> contradiction
  | ok d =>
    simp only [bind, Except.bind, pure, Except.pure]
    split <;> exact ⟨_, rfl⟩

/-! ### the ellipse -/

theorem fitEllipse_generic {pts : List (ℝ × ℝ)} (h : Generic pts) :
    ∃ curve prm, fitEllipse pts = .ok (curve, prm) ∧ curve.length = pts.length := by
  have hdet := (det_ne_zero_iff_generic pts).2 h
  unfold fitEllipse fitConic
  simp only [hdet, if_false, bind, Except.bind, pure, Except.pure]
  exact ⟨_, _, rfl, by simp [linspace2pi]⟩

open Matrix in
theorem fitEllipse_not_generic {pts : List (ℝ × ℝ)} (h : ¬ Generic pts) : fitEllipse pts = .error .linAlgError := by
  have hdet : (normalMat (meanPt pts) pts)ᵀ.det = 0 := by
    by_contra hd
    exact h ((det_ne_zero_iff_generic pts).1 hd)
  unfold fitEllipse fitConic
  simp only [hdet, if_true, bind, Except.bind]

/-! ### the search box -/

/-- neighbouring values of the axis differ by at most six degrees -/
def FineAxis (n : Nat) (f : Nat → ℝ) : Prop := ∀ i, i + 1 < n → |f (i + 1) - f i| ≤ 6

/-- a value between two values of the axis is within three degrees of a third -/
theorem near_axis {n : Nat} {f : Nat → ℝ} (hf : FineAxis n f) {x : ℝ} {i : Nat} (hi : f i ≤ x) :
    ∀ d, i + d < n → x ≤ f (i + d) → ∃ k < n, |f k - x| ≤ 3 := by
  intro d
  induction d with
  | zero =>
    intro h1 h2
    have : f i = x := le_antisymm hi (by simpa using h2)
    exact ⟨i, by omega, by rw [this]; simp⟩
  | succ d ih =>
    intro h1 h2
    rcases le_or_gt x (f (i + d)) with h3 | h3
    · exact ih (by omega) h3
    · have h4 := abs_le.1 (hf (i + d) (by omega))
      rw [show i + d + 1 = i + (d + 1) by omega] at h4
      rcases le_or_gt (x - f (i + d)) 3 with h5 | h5
      · exact ⟨i + d, by omega, by rw [abs_le]; constructor <;> linarith⟩
      · exact ⟨i + (d + 1), h1, by rw [abs_le]; constructor <;> linarith [h4.2]⟩

theorem near_axis' {n : Nat} {f : Nat → ℝ} (hf : FineAxis n f) {x : ℝ} {i : Nat} (hi : x ≤ f i) :
    ∀ d, i + d < n → f (i + d) ≤ x → ∃ k < n, |f k - x| ≤ 3 := by
  intro d h1 h2
  have hg : FineAxis n (fun j => - f j) := by
    intro j hj
    have := hf j hj
    rw [abs_sub_comm]
    rwa [neg_sub_neg, abs_sub_comm, abs_sub_comm]
  obtain ⟨k, hk, h3⟩ := near_axis (x := -x) hg (i := i) (by linarith) d h1 (by simpa using h2)
  refine ⟨k, hk, ?_⟩
  rw [abs_sub_comm] at h3
  rwa [neg_sub_neg] at h3

theorem near_axis_between {n : Nat} {f : Nat → ℝ} (hf : FineAxis n f) {x : ℝ} {i j : Nat} (hi : i < n) (hj : j < n)
    (h1 : f i ≤ x) (h2 : x ≤ f j) : ∃ k < n, |f k - x| ≤ 3 := by
  rcases le_total i j with h | h
  · obtain ⟨d, rfl⟩ := Nat.exists_eq_add_of_le h
    exact near_axis hf h1 d hj h2
  · obtain ⟨d, rfl⟩ := Nat.exists_eq_add_of_le h
    exact near_axis' hf h2 d hi h1

/-- a mean of values that lie between values of the axis lies between values of the axis -/
theorem mean_between {n : Nat} {f : Nat → ℝ} {l : List ℝ} (hne : l ≠ []) (h : ∀ x ∈ l, ∃ i < n, ∃ j < n, f i ≤ x ∧ x ≤ f j) :
    ∃ i < n, ∃ j < n, f i ≤ l.sum / l.length ∧ l.sum / l.length ≤ f j := by
  obtain ⟨a, l', rfl⟩ := List.exists_cons_of_ne_nil hne
  obtain ⟨i0, hi0, -⟩ := h a List.mem_cons_self
  have hfin : (Finset.range n).Nonempty := ⟨i0, Finset.mem_range.2 hi0⟩
  obtain ⟨i, hi, hmin⟩ := Finset.exists_min_image (Finset.range n) f hfin
  obtain ⟨j, hj, hmax⟩ := Finset.exists_max_image (Finset.range n) f hfin
  have hb : ∀ x ∈ a :: l', f i ≤ x ∧ x ≤ f j := by
    intro x hx
    obtain ⟨p, hp, q, hq, h1, h2⟩ := h x hx
    exact ⟨(hmin p (Finset.mem_range.2 hp)).trans h1, h2.trans (hmax q (Finset.mem_range.2 hq))⟩
  have hpos : (0 : ℝ) < (a :: l').length := by simp; positivity
  refine ⟨i, Finset.mem_range.1 hi, j, Finset.mem_range.1 hj, ?_, ?_⟩
  · rw [le_div_iff₀ hpos]
    have := List.card_nsmul_le_sum (a :: l') (f i) (fun x hx => (hb x hx).1)
    rw [nsmul_eq_mul] at this
    linarith
  · rw [div_le_iff₀ hpos]
    have := List.sum_le_card_nsmul (a :: l') (f j) (fun x hx => (hb x hx).2)
    rw [nsmul_eq_mul] at this
    linarith

/-! ### the data inside a contour -/

theorem mapM_total {β γ : Type} {f : β → Except PyErr γ} (l : List β) (h : ∀ v ∈ l, ∃ q, f v = .ok q) : ∃ r, l.mapM f = .ok r := by
  induction l with
  | nil => exact ⟨[], rfl⟩
  | cons v l ih =>
    obtain ⟨q, hq⟩ := h v List.mem_cons_self
    obtain ⟨r, hr⟩ := ih (fun v hv => h v (List.mem_cons_of_mem _ hv))
    refine ⟨q :: r, ?_⟩
    rw [List.mapM_cons]
    simp only [hq, hr, bind, Except.bind, pure, Except.pure]

/-- on a fine rectilinear grid with complete data the pixels, the window and the extremum of a contour can be computed -/
theorem dataInContour_total {L : Libs} (hL : L.Nearest) {S : Fields} (hS : S.Rectilinear) (hfull : Full S.data)
    {pts : List (ℝ × ℝ)} (hne : pts ≠ [])
    (hbox : ∃ r < S.data.rows, ∃ c < S.data.cols, NearCentre S.grid (meanPt pts) (r, c)) :
    ∃ i, dataInContour L S pts = .ok i := by
  set g : Grid ℝ := ⟨S.data.rows, S.data.cols, S.X.get, S.Y.get⟩ with hg
  obtain ⟨r0, hr0, c0, hc0, hnear⟩ := hbox
  have hmask : masked g.ny g.nx (g.mask (meanPt pts)) ≠ [] :=
    List.ne_nil_of_mem ((mask_iff_near S (meanPt pts) (r0, c0)).2 hnear)
  obtain ⟨lon, lat, h1, h2, h3, h4⟩ := id hS
  have hcode : ∀ v : ℝ × ℝ, ∃ p ∈ masked g.ny g.nx (g.mask (meanPt pts)),
      codeIndex g.ny g.nx (g.mask (meanPt pts)) (L.ballTree g (meanPt pts) v) = .ok p := by
    intro v
    obtain ⟨p, hp, _⟩ := hL g (meanPt pts) v hmask
    obtain ⟨hk, hpe⟩ := List.getElem?_eq_some_iff.mp hp
    obtain ⟨p', hp1, hp2⟩ := C40_partial g lon lat h1 h2 h3 h4 (meanPt pts) _ hk
    exact ⟨p', List.mem_of_getElem? hp1, hp2⟩
  obtain ⟨pix, hpix⟩ := mapM_total (f := fun v => codeIndex g.ny g.nx (g.mask (meanPt pts)) (L.ballTree g (meanPt pts) v)) pts
    (fun v _ => ⟨_, (hcode v).choose_spec.2⟩)
  have hin : ∀ q ∈ pix, q.1 < S.data.rows ∧ q.2 < S.data.cols := by
    intro q hq
    have hfa := mapM_forall₂ hpix
    obtain ⟨k, hk, rfl⟩ := List.getElem_of_mem hq
    have hk' : k < pts.length := by rw [hfa.length_eq]; exact hk
    have := (List.forall₂_iff_get.1 hfa).2 k hk' hk
    simp only [List.get_eq_getElem] at this
    obtain ⟨p, hpm, hpc⟩ := hcode pts[k]
    rw [this] at hpc
    injection hpc with hpc
    rw [hpc]
    exact ⟨(mem_masked.1 hpm).1, (mem_masked.1 hpm).2.1⟩
  unfold dataInContour
  simp only [← hg, bind, Except.bind, pure, Except.pure]
  rw [if_neg hmask]
  have hpix' : List.mapM (fun v => codeIndex S.data.rows S.data.cols (g.mask (meanPt pts)) (L.ballTree g (meanPt pts) v)) pts = .ok pix :=
    hpix
  rw [hpix']
  have hpne : pix ≠ [] := by
    intro h0
    have := (mapM_forall₂ hpix).length_eq
    rw [h0] at this
    exact hne (List.length_eq_zero_iff.1 this)
  obtain ⟨p0, ps0, rfl⟩ := List.exists_cons_of_ne_nil hpne
  simp only [List.map_cons]
  set p : Int × Int := ((p0.1 : Int), (p0.2 : Int)) with hp
  set ps : List (Int × Int) := ps0.map fun q => ((q.1 : Int), (q.2 : Int)) with hps
  have hing : InGrid S.data.rows S.data.cols (p :: ps) := by
    intro q hq
    have : q ∈ (p0 :: ps0).map fun q : Nat × Nat => ((q.1 : Int), (q.2 : Int)) := hq
    obtain ⟨q', hq', rfl⟩ := List.mem_map.1 this
    have := hin q' hq'
    simp only
    omega
  obtain ⟨⟨b0, t0, b1, t1⟩, hrel, -⟩ := C39_window S.data.rows S.data.cols p ps .auto hing (by intro v hv; cases hv)
  set W := getWindow S.data.rows S.data.cols p ps .auto with hW
  have hrange : ∀ q ∈ W.rel, 0 ≤ q.1 ∧ q.1 < W.tr0 - W.bl0 ∧ 0 ≤ q.2 ∧ q.2 < W.tr1 - W.bl1 := by
    intro q hq
    obtain ⟨k, hk, rfl⟩ := List.getElem_of_mem hq
    have hk' : k < (p :: ps).length := by rw [hrel.length_eq]; exact hk
    have := (List.forall₂_iff_get.1 hrel).2 k hk' hk
    simp only [List.get_eq_getElem] at this
    exact ⟨this.2.2.1, this.2.2.2.1, this.2.2.2.2.1, this.2.2.2.2.2⟩
  have hall : (W.rel.all fun q => decide (0 ≤ q.1 ∧ q.1 < ((cut W S.data).rows : Int) ∧ 0 ≤ q.2 ∧ q.2 < ((cut W S.data).cols : Int))) =
      true := by
    rw [List.all_eq_true]
    intro q hq
    have := hrange q hq
    refine decide_eq_true ⟨this.1, ?_, this.2.2.1, ?_⟩ <;> simp only [cut] <;> omega
  rw [if_pos hall]
  -- the pixel of the first vertex holds a value
  have hrl : W.rel ≠ [] := by
    intro h0
    have := hrel.length_eq
    rw [h0] at this
    simp at this
  obtain ⟨q, rs, hq⟩ := List.exists_cons_of_ne_nil hrl
  have hqm : q ∈ W.rel := by rw [hq]; exact List.mem_cons_self
  have hqr := hrange q hqm
  have hinside : ((q.1.toNat : Int), (q.2.toNat : Int)) ∈ fillHoles (cut W S.data).rows (cut W S.data).cols W.rel.toFinset := by
    have e : ((q.1.toNat : Int), (q.2.toNat : Int)) = q := by
      rw [Prod.ext_iff]; simp only; omega
    rw [e]
    apply (C41_closure (cut W S.data).rows (cut W S.data).cols W.rel.toFinset).1 _ (List.mem_toFinset.2 hqm)
    intro a ha
    have := hrange a (List.mem_toFinset.1 ha)
    rw [mem_cells]
    unfold InWindow
    simp only [cut]
    omega
  obtain ⟨x, hx⟩ := hfull (W.bl0.toNat + q.1.toNat) (by omega) (W.bl1.toNat + q.2.toNat) (by omega)
  obtain ⟨e, he⟩ := (C42_defined (cut W S.data).rows (cut W S.data).cols (cut W S.data).get
    (fun r c => decide (((r : Int), (c : Int)) ∈ fillHoles (cut W S.data).rows (cut W S.data).cols W.rel.toFinset))).1.2
    ⟨q.1.toNat, q.2.toNat, x, by simp only [cut]; omega, by simp only [cut]; omega, by simpa using hinside, hx⟩
  have he' : maskDataInContour (cut W S.data).rows (cut W S.data).cols W.rel.toFinset (cut W S.data).get = .ok e := he
  rw [he']
  exact ⟨_, rfl⟩

/-! ### the body of the loop -/

/-- the contour is discarded because of its size -/
def TooLarge (c : Criteria ℝ) (pts : List (ℝ × ℝ)) : Prop :=
  c.maxArea * approxRD (meanPt pts).2 < Real.sqrt (areaPolygon pts / Real.pi)

theorem examinePoints_total {c : Criteria ℝ} (hsk : c.skipGauss = true) {L : Libs} (hlim : 599 ≤ L.limit) {S : Fields} {l : ℝ}
    {pts : List (ℝ × ℝ)} (hne : pts ≠ []) (hdata : ∃ i, dataInContour L S pts = .ok i)
    (h : TooLarge c pts ∨ Generic pts) : ∃ o, examinePoints c L S l pts = .ok o := by
  classical
  unfold examinePoints
  simp only [bind, Except.bind, pure, Except.pure]
  by_cases h1 : Real.sqrt (areaPolygon pts / Real.pi) > c.maxArea * approxRD (meanPt pts).2
  · simp only [h1, if_true]; exact ⟨_, rfl⟩
  simp only [h1, if_false]
  obtain ⟨curve, prm, hf, hlen⟩ := fitEllipse_generic (h.resolve_left h1)
  simp only [hf, hsk, if_true]
  split
  · exact ⟨_, rfl⟩
  split
  · exact ⟨_, rfl⟩
  obtain ⟨s, hs⟩ := similarity_same_length hlim hne hlen.symm
  have hs' : liftFr (similarity L.limit pts curve) = .ok s := by rw [hs]; rfl
  simp only [hs']
  split
  · exact ⟨_, rfl⟩
  obtain ⟨i, hi⟩ := hdata
  simp only [hi]
  split <;> exact ⟨_, rfl⟩

theorem examinePoints_singular {c : Criteria ℝ} {L : Libs} {S : Fields} {l : ℝ} {pts : List (ℝ × ℝ)} (h1 : ¬ TooLarge c pts)
    (h2 : ¬ Generic pts) : examinePoints c L S l pts = .error .linAlgError := by
  classical
  unfold examinePoints
  unfold TooLarge at h1
  simp only [bind, Except.bind, pure, Except.pure, gt_iff_lt, h1, if_false, fitEllipse_not_generic h2]

theorem contourLoop_error {α K : Type} [Field K] [LinearOrder K] {c : Criteria K} {ms : List (Measures α K)} {st : Regs α × Locals α} {e : PyErr}
    (h : (contourLoop c ms st).2 = .error e) : ∃ m ∈ ms, verdict c m = .error e := by
  induction ms generalizing st with
  | nil => simp [contourLoop] at h
  | cons m ms ih =>
    unfold contourLoop contourStep at h
    cases hv : verdict c m with
    | error e' =>
      rw [hv] at h
      simp only [Except.error.injEq] at h
      exact ⟨m, List.mem_cons_self, by rw [hv, h]⟩
    | ok v =>
      rw [hv] at h
      cases v with
      | skipped =>
        obtain ⟨m', h1, h2⟩ := ih h
        exact ⟨m', List.mem_cons_of_mem _ h1, h2⟩
      | stored =>
        obtain ⟨m', h1, h2⟩ := ih h
        exact ⟨m', List.mem_cons_of_mem _ h1, h2⟩
      | discarded r =>
        obtain ⟨m', h1, h2⟩ := ih h
        exact ⟨m', List.mem_cons_of_mem _ h1, h2⟩

/-- a level is detected exactly if all its contours can be examined; otherwise one of their exceptions is raised -/
theorem detectLevel_total {c : Criteria ℝ} {L : Libs} {S : Fields} (h : S.Ok) (l : ℝ) (regs : Regs Cols) :
    ((∃ x, (detectLevel c L S regs l).2 = .ok x) ↔ ∀ vs ∈ contourList L S l, ∃ o, examine c L S l vs = .ok o) ∧
    ∀ e, (detectLevel c L S regs l).2 = .error e → ∃ vs ∈ contourList L S l, examine c L S l vs = .error e := by
  rw [detectLevel_measures h]
  have hver : ∀ vs, (∃ v, verdict c (measures c L S l vs) = .ok v) ↔ ∃ o, examine c L S l vs = .ok o := by
    intro vs
    rw [verdict_measures]
    cases examine c L S l vs <;> simp [Except.map]
  refine ⟨⟨?_, ?_⟩, ?_⟩
  · rintro ⟨x, hx⟩ vs hvs
    exact (hver vs).1 (detectOneLevel_complete hx _ (List.mem_map.2 ⟨vs, hvs, rfl⟩))
  · intro hall
    refine ⟨_, detectOneLevel_ok c _ ?_ regs⟩
    intro m hm
    obtain ⟨vs, hvs, rfl⟩ := List.mem_map.1 hm
    exact (hver vs).2 (hall vs hvs)
  · intro e he
    have : (contourLoop c (levelMeasures c L S l) (regs, ⟨none, none⟩)).2 = .error e := by
      unfold detectOneLevel at he
      cases hx : contourLoop c (levelMeasures c L S l) (regs, ⟨none, none⟩) with
      | mk r y =>
        rw [hx] at he
        cases y with
        | error e' => simpa using he
        | ok loc =>
          simp only at he
          cases hinfo : loc.info <;> rw [hinfo] at he <;> cases he
    obtain ⟨m, hm, hv⟩ := contourLoop_error this
    obtain ⟨vs, hvs, rfl⟩ := List.mem_map.1 hm
    refine ⟨vs, hvs, ?_⟩
    rw [verdict_measures] at hv
    cases hx : examine c L S l vs with
    | ok o => rw [hx] at hv; cases hv
    | error e' =>
      rw [hx] at hv
      injection hv with hv
      rw [hv]

end Trackeddy
