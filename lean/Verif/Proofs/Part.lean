import Verif.Props.Local

/-!
The examination of a contour in a part of a map.
-/
namespace Trackeddy
open Spec
open Cntr (InsideBox LineInside Vertex linesInside)

/-- rows `J0` to `J0 + NJ - 1` and columns `I0` to `I0 + NI - 1` of a map -/
def Fields.part (S : Fields) (J0 NJ I0 NI : ℕ) : Fields :=
  ⟨S.X.crop J0 NJ I0 NI, S.Y.crop J0 NJ I0 NI, S.data.crop J0 NJ I0 NI⟩

/-! ### the window -/

theorem maxI_shift (d p : ℤ) (l : List ℤ) : maxI (p - d) (l.map (· - d)) = maxI p l - d := by
  unfold maxI
  induction l generalizing p with
  | nil => rfl
  | cons x l ih =>
    simp only [List.map_cons, List.foldl_cons]
    rw [← ih, show max (p - d) (x - d) = max p x - d by omega]

theorem minI_shift (d p : ℤ) (l : List ℤ) : minI (p - d) (l.map (· - d)) = minI p l - d := by
  unfold minI
  induction l generalizing p with
  | nil => rfl
  | cons x l ih =>
    simp only [List.map_cons, List.foldl_cons]
    rw [← ih, show min (p - d) (x - d) = min p x - d by omega]

/-- a window in the indices of the part -/
def shiftWindow (J0 I0 : ℕ) (w : Window) : Window := ⟨w.bl0 - J0, w.bl1 - I0, w.tr0 - J0, w.tr1 - I0, w.rel⟩

section
variable {rows cols J0 NJ I0 NI jj nj ii ni : ℕ}

theorem getWindow_shift (hj : 0 < nj) (hi : 0 < ni) (mj : Margin (reach nj ni) rows J0 NJ jj nj)
    (mi : Margin (reach nj ni) cols I0 NI ii ni) (hJ : J0 + NJ ≤ rows) (hI : I0 + NI ≤ cols) {p : ℤ × ℤ} {ps : List (ℤ × ℤ)}
    (h : ∀ q ∈ p :: ps, (J0 + jj : ℤ) ≤ q.1 ∧ q.1 ≤ J0 + jj + nj - 1 ∧ (I0 + ii : ℤ) ≤ q.2 ∧ q.2 ≤ I0 + ii + ni - 1) :
    getWindow NJ NI (p.1 - J0, p.2 - I0) (ps.map fun q => (q.1 - (J0 : ℤ), q.2 - (I0 : ℤ))) .auto =
      shiftWindow J0 I0 (getWindow rows cols p ps .auto) := by
  have fs : ∀ x ∈ p.1 :: ps.map Prod.fst, (J0 + jj : ℤ) ≤ x ∧ x ≤ J0 + jj + nj - 1 := by
    intro x hx
    obtain ⟨q, hq, rfl⟩ := List.mem_map.1 (show x ∈ (p :: ps).map Prod.fst from hx)
    exact ⟨(h q hq).1, (h q hq).2.1⟩
  have sn : ∀ x ∈ p.2 :: ps.map Prod.snd, (I0 + ii : ℤ) ≤ x ∧ x ≤ I0 + ii + ni - 1 := by
    intro x hx
    obtain ⟨q, hq, rfl⟩ := List.mem_map.1 (show x ∈ (p :: ps).map Prod.snd from hx)
    exact ⟨(h q hq).2.2.1, (h q hq).2.2.2⟩
  have a1 := fs _ (maxI_spec p.1 (ps.map Prod.fst)).2
  have a2 := fs _ (minI_spec p.1 (ps.map Prod.fst)).2
  have a3 := sn _ (maxI_spec p.2 (ps.map Prod.snd)).2
  have a4 := sn _ (minI_spec p.2 (ps.map Prod.snd)).2
  have e1 : (ps.map fun q => (q.1 - (J0 : ℤ), q.2 - (I0 : ℤ))).map Prod.fst = (ps.map Prod.fst).map (· - (J0 : ℤ)) := by
    rw [List.map_map, List.map_map]; rfl
  have e2 : (ps.map fun q => (q.1 - (J0 : ℤ), q.2 - (I0 : ℤ))).map Prod.snd = (ps.map Prod.snd).map (· - (I0 : ℤ)) := by
    rw [List.map_map, List.map_map]; rfl
  have hth : threshValue .auto (maxI p.1 (ps.map Prod.fst) - minI p.1 (ps.map Prod.fst))
      (maxI p.2 (ps.map Prod.snd) - minI p.2 (ps.map Prod.snd)) ≤ reach nj ni := by
    unfold threshValue reach
    simp only
    split <;> omega
  have hth0 : 0 ≤ threshValue .auto (maxI p.1 (ps.map Prod.fst) - minI p.1 (ps.map Prod.fst))
      (maxI p.2 (ps.map Prod.snd) - minI p.2 (ps.map Prod.snd)) := threshValue_nonneg (by simp)
  unfold getWindow shiftWindow
  simp only [clampTR_eq, clampBL_eq, e1, e2, maxI_shift, minI_shift]
  rw [show ∀ a b : ℤ, a - J0 - (b - J0) = a - b by intros; omega, show ∀ a b : ℤ, a - I0 - (b - I0) = a - b by intros; omega]
  generalize threshValue .auto _ _ = th at *
  obtain ⟨mj1, mj2⟩ := mj
  obtain ⟨mi1, mi2⟩ := mi
  have b1 : max (minI p.1 (ps.map Prod.fst) - J0 - th) 0 = max (minI p.1 (ps.map Prod.fst) - th) 0 - J0 := by omega
  have b2 : max (minI p.2 (ps.map Prod.snd) - I0 - th) 0 = max (minI p.2 (ps.map Prod.snd) - th) 0 - I0 := by omega
  rw [b1, b2]
  simp only [Window.mk.injEq, true_and]
  refine ⟨by omega, by omega, ?_⟩
  simp only [List.map_cons, List.map_map, List.cons.injEq, Prod.mk.injEq]
  refine ⟨⟨by omega, by omega⟩, List.map_congr_left fun q _ => ?_⟩
  simp only [Function.comp, Prod.mk.injEq]
  exact ⟨by omega, by omega⟩
end

theorem cut_part {β : Type} {w : Window} {J0 I0 : ℕ} (h0 : (J0 : ℤ) ≤ w.bl0) (h1 : (I0 : ℤ) ≤ w.bl1) (a : Cntr.NdArr β) (NJ NI : ℕ) :
    cut (shiftWindow J0 I0 w) (a.crop J0 NJ I0 NI) = cut w a := by
  unfold cut shiftWindow Cntr.NdArr.crop
  simp only [Cntr.NdArr.mk.injEq]
  refine ⟨by omega, by omega, ?_⟩
  funext r c
  congr 1 <;> omega

/-! ### the data inside a contour -/

section
variable {S : Fields} {J0 NJ I0 NI jj nj ii ni : ℕ} {L : Libs}

theorem insideBox_part (hj : 0 < nj) (hi : 0 < ni) {P : ℝ × ℝ} :
    InsideBox (S.part J0 NJ I0 NI).X (S.part J0 NJ I0 NI).Y jj nj ii ni P ↔ InsideBox S.X S.Y (J0 + jj) nj (I0 + ii) ni P := by
  unfold InsideBox Fields.part Cntr.NdArr.crop
  simp only
  rw [show I0 + (ii + ni - 1) = I0 + ii + ni - 1 by omega, show J0 + (jj + nj - 1) = J0 + jj + nj - 1 by omega]

theorem lineInside_part (hj : 0 < nj) (hi : 0 < ni) :
    LineInside (S.part J0 NJ I0 NI).X (S.part J0 NJ I0 NI).Y jj nj ii ni = LineInside S.X S.Y (J0 + jj) nj (I0 + ii) ni := by
  funext ps
  unfold LineInside
  simp only [insideBox_part hj hi]

theorem uniqueNear_pixel {m v : ℝ × ℝ} (h : UniqueNear S.grid m v) : ∃ p, S.NearestPixel m v p ∧ NearestNear S.grid m v p := by
  obtain ⟨p, hp, hmin⟩ := h
  refine ⟨p, ⟨(mask_iff_near S m p).2 hp, fun q hq hne => hmin q ((mask_iff_near S m q).1 hq) hne⟩, hp, fun q hq => ?_⟩
  by_cases hne : q = p
  · subst hne; exact le_rfl
  · exact (hmin q hq hne).le

theorem part_rectilinear (h : S.Rectilinear) (hJ : J0 + NJ ≤ S.data.rows) (hI : I0 + NI ≤ S.data.cols) :
    (S.part J0 NJ I0 NI).Rectilinear := by
  obtain ⟨lon, lat, hX, hY, hlon, hlat⟩ := h
  have key : ∀ {n N A : ℕ} {f : ℕ → ℝ}, MonoAxis n f → A + N ≤ n → MonoAxis N fun i => f (A + i) := by
    intro n N A f h hA
    rcases h with h | h
    · exact Or.inl fun i j a b => h _ _ (by omega) (by omega)
    · exact Or.inr fun i j a b => h _ _ (by omega) (by omega)
  exact ⟨fun i => lon (I0 + i), fun j => lat (J0 + j), fun r c => hX _ _, fun r c => hY _ _, key hlon hI, key hlat hJ⟩

/-- the pixel in the part -/
theorem pixel_part (hJ : J0 + NJ ≤ S.data.rows) (hI : I0 + NI ≤ S.data.cols) {m v : ℝ × ℝ} {p : ℕ × ℕ} (h : S.NearestPixel m v p)
    (h1 : J0 ≤ p.1) (h2 : p.1 < J0 + NJ) (h3 : I0 ≤ p.2) (h4 : p.2 < I0 + NI) :
    (S.part J0 NJ I0 NI).NearestPixel m v (p.1 - J0, p.2 - I0) := by
  obtain ⟨hp, hmin⟩ := h
  have gx : ∀ r c, (S.part J0 NJ I0 NI).pixels.X r c = S.pixels.X (J0 + r) (I0 + c) := fun _ _ => rfl
  have gy : ∀ r c, (S.part J0 NJ I0 NI).pixels.Y r c = S.pixels.Y (J0 + r) (I0 + c) := fun _ _ => rfl
  have gm : ∀ r c, (S.part J0 NJ I0 NI).pixels.mask m r c = S.pixels.mask m (J0 + r) (I0 + c) := fun _ _ => rfl
  obtain ⟨m1, m2, m3⟩ := mem_masked.1 hp
  have ep : (J0 + (p.1 - J0), I0 + (p.2 - I0)) = p := Prod.ext (by simp only; omega) (by simp only; omega)
  have e1 := (Prod.ext_iff.1 ep).1
  have e2 := (Prod.ext_iff.1 ep).2
  simp only at e1 e2
  refine ⟨mem_masked.2 ⟨by show p.1 - J0 < NJ; omega, by show p.2 - I0 < NI; omega, by rw [gm, e1, e2]; exact m3⟩, ?_⟩
  intro q hq hne
  obtain ⟨q1, q2, q3⟩ := mem_masked.1 hq
  have q1 : q.1 < NJ := q1
  have q2 : q.2 < NI := q2
  have := hmin (J0 + q.1, I0 + q.2) (mem_masked.2 ⟨by show J0 + q.1 < _; omega, by show I0 + q.2 < _; omega, by rw [← gm]; exact q3⟩) (by
    intro he
    apply hne
    have d1 := (Prod.ext_iff.1 he).1
    have d2 := (Prod.ext_iff.1 he).2
    simp only at d1 d2
    exact Prod.ext (by simp only; omega) (by simp only; omega))
  unfold Grid.dist2 at this ⊢
  rw [gx, gy, gx, gy]
  simp only
  rw [e1, e2]
  exact this

/-- what the data inside a contour are in the part -/
structure SameInside (S S' : Fields) (i i' : InContour) : Prop where
  ext : i'.ext = i.ext
  X : cut i'.window S'.X = cut i.window S.X
  Y : cut i'.window S'.Y = cut i.window S.Y
  data : maskedData S' i'.window = maskedData S i.window

theorem dataInContour_part (hL : L.Nearest) (hrect : S.Rectilinear) (hR : S.grid.Rect) (hj : 0 < nj) (hi : 0 < ni)
    (hJ : J0 + NJ ≤ S.data.rows) (hI : I0 + NI ≤ S.data.cols) (hjn : jj + nj ≤ NJ) (hin : ii + ni ≤ NI)
    (mj : Margin (reach nj ni) S.data.rows J0 NJ jj nj) (mi : Margin (reach nj ni) S.data.cols I0 NI ii ni) {pts : List (ℝ × ℝ)}
    (hne : pts ≠ []) (hp : ∀ P ∈ pts, InsideBox S.X S.Y (J0 + jj) nj (I0 + ii) ni P)
    (hu : ∀ v ∈ pts, UniqueNear S.grid (meanPt pts) v) :
    (∀ e, dataInContour L S pts = .error e → dataInContour L (S.part J0 NJ I0 NI) pts = .error e) ∧
    (∀ i, dataInContour L S pts = .ok i → ∃ i', dataInContour L (S.part J0 NJ I0 NI) pts = .ok i' ∧
      SameInside S (S.part J0 NJ I0 NI) i i') := by
  classical
  set P := S.part J0 NJ I0 NI with hP
  have hm := meanPt_inside hne hp
  let f : ℝ × ℝ → ℕ × ℕ := fun v => if h : UniqueNear S.grid (meanPt pts) v then (uniqueNear_pixel h).choose else (0, 0)
  have hf : ∀ v ∈ pts, S.NearestPixel (meanPt pts) v (f v) ∧ (J0 + jj ≤ (f v).1 ∧ (f v).1 ≤ J0 + jj + nj - 1 ∧ I0 + ii ≤ (f v).2 ∧
      (f v).2 ≤ I0 + ii + ni - 1) := by
    intro v hv
    have := (uniqueNear_pixel (hu v hv)).choose_spec
    simp only [f, dif_pos (hu v hv)]
    exact ⟨this.1, pixel_in_box hR (by omega) (by omega) hj hi hm (hp v hv) this.2⟩
  have hf' : ∀ v ∈ pts, P.NearestPixel (meanPt pts) v ((f v).1 - J0, (f v).2 - I0) := by
    intro v hv
    obtain ⟨h1, h2⟩ := hf v hv
    exact pixel_part hJ hI h1 (by omega) (by omega) (by omega) (by omega)
  rw [dataInContour_nearest hL hrect hne fun v hv => (hf v hv).1,
    dataInContour_nearest hL (part_rectilinear hrect hJ hI) hne hf']
  have em : (pts.map fun v => ((((f v).1 - J0 : ℕ) : ℤ), (((f v).2 - I0 : ℕ) : ℤ))) =
      (pts.map fun v => (((f v).1 : ℤ), ((f v).2 : ℤ))).map fun q => (q.1 - (J0 : ℤ), q.2 - (I0 : ℤ)) := by
    rw [List.map_map]
    apply List.map_congr_left
    intro v hv
    obtain ⟨_, h2⟩ := hf v hv
    simp only [Function.comp, Prod.mk.injEq]
    omega
  rw [em]
  have hall : ∀ q ∈ (pts.map fun v => (((f v).1 : ℤ), ((f v).2 : ℤ))), (J0 + jj : ℤ) ≤ q.1 ∧ q.1 ≤ J0 + jj + nj - 1 ∧ (I0 + ii : ℤ) ≤ q.2 ∧
      q.2 ≤ I0 + ii + ni - 1 := by
    intro q hq
    obtain ⟨v, hv, rfl⟩ := List.mem_map.1 hq
    obtain ⟨_, h2⟩ := hf v hv
    simp only
    omega
  revert hall
  cases pts.map fun v => (((f v).1 : ℤ), ((f v).2 : ℤ)) with
  | nil => intro _; exact ⟨fun e he => he, fun i hi => by cases hi⟩
  | cons p ps =>
    intro hall
    simp only [List.map_cons]
    have hw := getWindow_shift (rows := S.data.rows) (cols := S.data.cols) hj hi mj mi hJ hI hall
    have hw' : getWindow P.data.rows P.data.cols (p.1 - J0, p.2 - I0) (ps.map fun q => (q.1 - (J0 : ℤ), q.2 - (I0 : ℤ))) .auto =
      shiftWindow J0 I0 (getWindow S.data.rows S.data.cols p ps .auto) := hw
    rw [hw']
    obtain ⟨w1, w2, w3, w4⟩ := window_within (s0 := S.data.rows) (s1 := S.data.cols) (p := p) (ps := ps) (j0 := J0 + jj) (i0 := I0 + ii) hj hi
      (by push_cast; exact hall)
    have g := window_in_grid S.data.rows S.data.cols p ps .auto
    have c0 : (J0 : ℤ) ≤ (getWindow S.data.rows S.data.cols p ps .auto).bl0 := by
      rcases mj.1 with h | h <;> omega
    have c1 : (I0 : ℤ) ≤ (getWindow S.data.rows S.data.cols p ps .auto).bl1 := by
      rcases mi.1 with h | h <;> omega
    generalize getWindow S.data.rows S.data.cols p ps .auto = w at *
    have cX : cut (shiftWindow J0 I0 w) P.X = cut w S.X := cut_part c0 c1 _ _ _
    have cY : cut (shiftWindow J0 I0 w) P.Y = cut w S.Y := cut_part c0 c1 _ _ _
    have cZ : cut (shiftWindow J0 I0 w) P.data = cut w S.data := cut_part c0 c1 _ _ _
    have cr : (shiftWindow J0 I0 w).rel = w.rel := rfl
    have cM : maskedData P (shiftWindow J0 I0 w) = maskedData S w := by unfold maskedData; rw [cZ, cr]
    rw [cZ, cr]
    simp only [bind, Except.bind, pure, Except.pure]
    split
    · cases maskDataInContour (cut w S.data).rows (cut w S.data).cols w.rel.toFinset (cut w S.data).get with
      | error x => exact ⟨fun e he => he, fun i hi => by cases hi⟩
      | ok x =>
        refine ⟨fun e he => (by cases he), fun i hi => ?_⟩
        injection hi with hi
        subst hi
        exact ⟨⟨shiftWindow J0 I0 w, x⟩, rfl, rfl, cX, cY, cM⟩
    · exact ⟨fun e he => he, fun i hi => by cases hi⟩

/-- the outcome for a contour in the part -/
theorem examine_part (hL : L.Nearest) (hrect : S.Rectilinear) (hR : S.grid.Rect) (hj : 0 < nj) (hi : 0 < ni)
    (hJ : J0 + NJ ≤ S.data.rows) (hI : I0 + NI ≤ S.data.cols) (hjn : jj + nj ≤ NJ) (hin : ii + ni ≤ NI)
    (mj : Margin (reach nj ni) S.data.rows J0 NJ jj nj) (mi : Margin (reach nj ni) S.data.cols I0 NI ii ni) (c : Criteria ℝ) (l : ℝ)
    {vs : List (Vertex ℝ)} (hne : vs ≠ []) (hv : LineInside S.X S.Y (J0 + jj) nj (I0 + ii) ni vs)
    (hu : ∀ pts : List (ℝ × ℝ), vs = pts.map some → ∀ v ∈ pts, UniqueNear S.grid (centroid pts) v) :
    examine c L (S.part J0 NJ I0 NI) l vs = examine c L S l vs := by
  unfold examine
  split
  · rfl
  cases hp : allPoints vs with
  | none => rfl
  | some pts =>
    simp only
    have hvs := allPoints_eq.1 hp
    have hin' : ∀ P ∈ pts, InsideBox S.X S.Y (J0 + jj) nj (I0 + ii) ni P := by
      intro P hP
      obtain ⟨Q, hQ, hQ'⟩ := hv (some P) (by rw [hvs]; exact List.mem_map_of_mem hP)
      injection hQ with hQ
      exact hQ ▸ hQ'
    have hpne : pts ≠ [] := by
      rintro rfl
      exact hne hvs
    obtain ⟨e1, e2⟩ := dataInContour_part (L := L) hL hrect hR hj hi hJ hI hjn hin mj mi hpne hin' (hu pts hvs)
    unfold examinePoints
    cases hd : dataInContour L S pts with
    | error x =>
      rw [e1 x hd]
      rfl
    | ok i =>
      obtain ⟨i', hd', hs⟩ := e2 i hd
      have hmx : maximaOf (S.part J0 NJ I0 NI) i' = maximaOf S i := by
        unfold maximaOf
        rw [hs.ext, hs.X, hs.Y]
      have hfs : ∀ prm, fitSurface L (S.part J0 NJ I0 NI) i' prm = fitSurface L S i prm := by
        intro prm
        unfold fitSurface
        rw [hs.X, hs.Y, hmx, hs.data]
      rw [hd']
      simp only [bind, Except.bind, pure, Except.pure, hfs, hmx, hs.ext, hs.X, hs.Y]

end

end Trackeddy
