import Verif.Spec.Local
import Verif.Props.Pipeline
import Verif.Props.Traced

/-!
What the examination of a contour reads of the data.
-/
namespace Trackeddy
open Spec
open Cntr (InsideBox LineInside Between Vertex AgreeIn)

/-- the two maps have the same grid, and the same data around the rectangle -/
structure AgreeAround (S S' : Fields) (j0 nj i0 ni : ℕ) : Prop where
  X : S'.X = S.X
  Y : S'.Y = S.Y
  rows : S'.data.rows = S.data.rows
  cols : S'.data.cols = S.data.cols
  values : ∀ j < S.data.rows, ∀ i < S.data.cols, Within (reach nj ni) j0 nj i0 ni j i → S'.data.get j i = S.data.get j i

/-! ### the grid points of a contour inside a rectangle belong to the rectangle -/

theorem nearest_in_range {n : ℕ} {f : ℕ → ℝ} (hf : StrictAxis n f) {a b p : ℕ} (ha : a < n) (hb : b < n) (hab : a ≤ b) (hp : p < n)
    {m v D : ℝ} (hm : Between (f a) (f b) m) (hv : Between (f a) (f b) v) (hpm : |f p - m| ≤ D)
    (hmin : ∀ q < n, |f q - m| ≤ D → (f p - v) ^ 2 ≤ (f q - v) ^ 2) : a ≤ p ∧ p ≤ b := by
  have h1 : ∀ {x y w : ℝ}, x < y → y < w → |y - w| < |x - w| ∧ (y - w) ^ 2 < (x - w) ^ 2 := by
    intro x y w hx hy
    rw [abs_of_neg (by linarith), abs_of_neg (by linarith)]
    exact ⟨by linarith, by nlinarith⟩
  have h2 : ∀ {x y w : ℝ}, y < x → w < y → |y - w| < |x - w| ∧ (y - w) ^ 2 < (x - w) ^ 2 := by
    intro x y w hx hy
    rw [abs_of_pos (by linarith), abs_of_pos (by linarith)]
    exact ⟨by linarith, by nlinarith⟩
  have key : ∀ q < n, ¬ ((f p < f q ∧ f q < m ∧ f q < v) ∨ (f q < f p ∧ m < f q ∧ v < f q)) := by
    rintro q hq (⟨x1, x2, x3⟩ | ⟨x1, x2, x3⟩)
    · exact absurd (hmin q hq ((h1 x1 x2).1.le.trans hpm)) (not_le.2 (h1 x1 x3).2)
    · exact absurd (hmin q hq ((h2 x1 x2).1.le.trans hpm)) (not_le.2 (h2 x1 x3).2)
  rcases Nat.eq_or_lt_of_le hab with hab | hab
  · subst hab
    rcases hm with hm | hm <;> exact absurd (hm.1.trans hm.2) (lt_irrefl _)
  rcases hf with hf | hf
  · have e := hf a b hab hb
    have hm : f a < m ∧ m < f b := by rcases hm with hm | hm; exacts [hm, absurd (hm.1.trans hm.2) (not_lt.2 e.le)]
    have hv : f a < v ∧ v < f b := by rcases hv with hv | hv; exacts [hv, absurd (hv.1.trans hv.2) (not_lt.2 e.le)]
    constructor
    · by_contra hn
      exact key a ha (Or.inl ⟨hf p a (by omega) ha, hm.1, hv.1⟩)
    · by_contra hn
      exact key b hb (Or.inr ⟨hf b p (by omega) hp, hm.2, hv.2⟩)
  · have e := hf a b hab hb
    have hm : f b < m ∧ m < f a := by rcases hm with hm | hm; exacts [absurd (hm.1.trans hm.2) (not_lt.2 e.le), hm]
    have hv : f b < v ∧ v < f a := by rcases hv with hv | hv; exacts [absurd (hv.1.trans hv.2) (not_lt.2 e.le), hv]
    constructor
    · by_contra hn
      exact key a ha (Or.inr ⟨hf p a (by omega) ha, hm.2, hv.2⟩)
    · by_contra hn
      exact key b hb (Or.inl ⟨hf b p (by omega) hp, hm.1, hv.1⟩)

theorem mean_gt {l : List ℝ} (hne : l ≠ []) {a : ℝ} (h : ∀ x ∈ l, a < x) : a < l.sum / l.length := by
  have hl : 0 < (l.length : ℝ) := Nat.cast_pos.2 (List.length_pos_of_ne_nil hne)
  rw [lt_div_iff₀ hl]
  clear hl
  induction l with
  | nil => exact absurd rfl hne
  | cons x l ih =>
    have hx := h x List.mem_cons_self
    by_cases hl : l = []
    · subst hl; simpa using hx
    · have := ih hl fun y hy => h y (List.mem_cons_of_mem _ hy)
      simp only [List.sum_cons, List.length_cons]
      push_cast
      linarith

theorem mean_lt {l : List ℝ} (hne : l ≠ []) {a : ℝ} (h : ∀ x ∈ l, x < a) : l.sum / l.length < a := by
  have hl : 0 < (l.length : ℝ) := Nat.cast_pos.2 (List.length_pos_of_ne_nil hne)
  rw [div_lt_iff₀ hl]
  clear hl
  induction l with
  | nil => exact absurd rfl hne
  | cons x l ih =>
    have hx := h x List.mem_cons_self
    by_cases hl : l = []
    · subst hl; simpa using hx
    · have := ih hl fun y hy => h y (List.mem_cons_of_mem _ hy)
      simp only [List.sum_cons, List.length_cons]
      push_cast
      linarith

theorem between_mean {l : List ℝ} (hne : l ≠ []) {a b : ℝ} (h : ∀ x ∈ l, Between a b x) : Between a b (l.sum / l.length) := by
  obtain ⟨x, hx⟩ := List.exists_mem_of_ne_nil _ hne
  rcases h x hx with h0 | h0
  · have hab : a < b := h0.1.trans h0.2
    have h' : ∀ y ∈ l, a < y ∧ y < b := fun y hy => by
      rcases h y hy with h1 | h1
      · exact h1
      · exact absurd (h1.1.trans h1.2) (not_lt.2 hab.le)
    exact Or.inl ⟨mean_gt hne fun y hy => (h' y hy).1, mean_lt hne fun y hy => (h' y hy).2⟩
  · have hab : b < a := h0.1.trans h0.2
    have h' : ∀ y ∈ l, b < y ∧ y < a := fun y hy => by
      rcases h y hy with h1 | h1
      · exact absurd (h1.1.trans h1.2) (not_lt.2 hab.le)
      · exact h1
    exact Or.inr ⟨mean_gt hne fun y hy => (h' y hy).1, mean_lt hne fun y hy => (h' y hy).2⟩

theorem meanPt_inside {X Y : Cntr.NdArr ℝ} {j0 nj i0 ni : ℕ} {pts : List (ℝ × ℝ)} (hne : pts ≠ [])
    (h : ∀ P ∈ pts, InsideBox X Y j0 nj i0 ni P) : InsideBox X Y j0 nj i0 ni (meanPt pts) := by
  have e : ∀ f : ℝ × ℝ → ℝ, (pts.map f).length = pts.length := fun f => List.length_map f
  have hn : ∀ f : ℝ × ℝ → ℝ, pts.map f ≠ [] := fun f h => hne (List.map_eq_nil_iff.1 h)
  unfold meanPt
  constructor
  · have := between_mean (hn Prod.fst) (a := X.get j0 i0) (b := X.get j0 (i0 + ni - 1)) (by
      intro x hx
      obtain ⟨P, hP, rfl⟩ := List.mem_map.1 hx
      exact (h P hP).1)
    rwa [e] at this
  · have := between_mean (hn Prod.snd) (a := Y.get j0 i0) (b := Y.get (j0 + nj - 1) i0) (by
      intro x hx
      obtain ⟨P, hP, rfl⟩ := List.mem_map.1 hx
      exact (h P hP).2)
    rwa [e] at this

/-- the grid point found for a vertex inside the rectangle belongs to the rectangle -/
theorem pixel_in_box {S : Fields} (hR : S.grid.Rect) {j0 nj i0 ni : ℕ} (hjn : j0 + nj ≤ S.data.rows) (hin : i0 + ni ≤ S.data.cols)
    (hj : 0 < nj) (hi : 0 < ni) {m v : ℝ × ℝ} (hm : InsideBox S.X S.Y j0 nj i0 ni m) (hv : InsideBox S.X S.Y j0 nj i0 ni v) {q : ℕ × ℕ}
    (hq : NearestNear S.grid m v q) : j0 ≤ q.1 ∧ q.1 ≤ j0 + nj - 1 ∧ i0 ≤ q.2 ∧ q.2 ≤ i0 + ni - 1 := by
  obtain ⟨xs, ys, hxy, hx, hy⟩ := hR
  obtain ⟨⟨h1, h2, h3, h4⟩, hmin⟩ := hq
  have hnx : S.grid.nx = S.data.cols := rfl
  have hny : S.grid.ny = S.data.rows := rfl
  have ex : ∀ i j, i < S.data.cols → j < S.data.rows → S.X.get j i = xs i := fun i j a b => (hxy i j a b).1
  have ey : ∀ i j, i < S.data.cols → j < S.data.rows → S.Y.get j i = ys j := fun i j a b => (hxy i j a b).2
  have gx : ∀ i j, i < S.data.cols → j < S.data.rows → S.grid.x (i, j) = xs i := fun i j a b => (hxy i j a b).1
  have gy : ∀ i j, i < S.data.cols → j < S.data.rows → S.grid.y (i, j) = ys j := fun i j a b => (hxy i j a b).2
  rw [hny] at h1
  rw [hnx] at h2
  rw [gx _ _ h2 h1] at h3
  rw [gy _ _ h2 h1] at h4
  obtain ⟨m1, m2⟩ := hm
  obtain ⟨v1, v2⟩ := hv
  rw [ex _ _ (by omega) (by omega), ex _ _ (by omega) (by omega)] at m1 v1
  rw [ey _ _ (by omega) (by omega), ey _ _ (by omega) (by omega)] at m2 v2
  have r1 := nearest_in_range hx (a := i0) (b := i0 + ni - 1) (by rw [hnx]; omega) (by rw [hnx]; omega) (by omega) h2 m1 v1 h3 (by
    intro k hk hkm
    have := hmin (q.1, k) ⟨h1, hk, by rw [gx _ _ hk h1]; exact hkm, by rw [gy _ _ hk h1]; exact h4⟩
    simp only at this
    rw [gx _ _ h2 h1, gy _ _ h2 h1, gx _ _ hk h1, gy _ _ hk h1] at this
    linarith)
  have r2 := nearest_in_range hy (a := j0) (b := j0 + nj - 1) (by rw [hny]; omega) (by rw [hny]; omega) (by omega) h1 m2 v2 h4 (by
    intro k hk hkm
    have := hmin (k, q.2) ⟨hk, h2, by rw [gx _ _ h2 hk]; exact h3, by rw [gy _ _ h2 hk]; exact hkm⟩
    simp only at this
    rw [gx _ _ h2 h1, gy _ _ h2 h1, gx _ _ h2 hk, gy _ _ h2 hk] at this
    linarith)
  exact ⟨r2.1, r2.2, r1.1, r1.2⟩

/-! ### the window -/

theorem window_within {s0 s1 : ℕ} {p : ℤ × ℤ} {ps : List (ℤ × ℤ)} {j0 nj i0 ni : ℕ} (hj : 0 < nj) (hi : 0 < ni)
    (h : ∀ q ∈ p :: ps, (j0 : ℤ) ≤ q.1 ∧ q.1 ≤ j0 + nj - 1 ∧ (i0 : ℤ) ≤ q.2 ∧ q.2 ≤ i0 + ni - 1) :
    (j0 : ℤ) ≤ (getWindow s0 s1 p ps .auto).bl0 + reach nj ni ∧ (getWindow s0 s1 p ps .auto).tr0 ≤ j0 + nj + reach nj ni ∧
      (i0 : ℤ) ≤ (getWindow s0 s1 p ps .auto).bl1 + reach nj ni ∧ (getWindow s0 s1 p ps .auto).tr1 ≤ i0 + ni + reach nj ni := by
  have fs : ∀ x ∈ p.1 :: ps.map Prod.fst, (j0 : ℤ) ≤ x ∧ x ≤ j0 + nj - 1 := by
    intro x hx
    obtain ⟨q, hq, rfl⟩ := List.mem_map.1 (show x ∈ (p :: ps).map Prod.fst from hx)
    exact ⟨(h q hq).1, (h q hq).2.1⟩
  have sn : ∀ x ∈ p.2 :: ps.map Prod.snd, (i0 : ℤ) ≤ x ∧ x ≤ i0 + ni - 1 := by
    intro x hx
    obtain ⟨q, hq, rfl⟩ := List.mem_map.1 (show x ∈ (p :: ps).map Prod.snd from hx)
    exact ⟨(h q hq).2.2.1, (h q hq).2.2.2⟩
  have a1 := fs _ (maxI_spec p.1 (ps.map Prod.fst)).2
  have a2 := fs _ (minI_spec p.1 (ps.map Prod.fst)).2
  have a3 := sn _ (maxI_spec p.2 (ps.map Prod.snd)).2
  have a4 := sn _ (minI_spec p.2 (ps.map Prod.snd)).2
  have hth : threshValue .auto (maxI p.1 (ps.map Prod.fst) - minI p.1 (ps.map Prod.fst))
      (maxI p.2 (ps.map Prod.snd) - minI p.2 (ps.map Prod.snd)) ≤ reach nj ni := by
    unfold threshValue reach
    simp only
    split <;> omega
  unfold getWindow
  simp only [clampTR_eq, clampBL_eq]
  generalize threshValue .auto _ _ = th at *
  refine ⟨?_, ?_, ?_, ?_⟩ <;> omega

/-! ### the data read -/

theorem flatInside_congr {h w : ℕ} {data data' : ℕ → ℕ → Option ℝ} {inside : ℕ → ℕ → Bool}
    (hd : ∀ r < h, ∀ c < w, data r c = data' r c) : flatInside h w data inside = flatInside h w data' inside := by
  unfold flatInside
  apply List.flatMap_congr
  intro r hr
  apply List.map_congr_left
  intro c hc
  rw [hd r (List.mem_range.1 hr) c (List.mem_range.1 hc)]

theorem maskData_congr {h w : ℕ} {data data' : ℕ → ℕ → Option ℝ} (contour : Finset (ℤ × ℤ))
    (hd : ∀ r < h, ∀ c < w, data r c = data' r c) : maskDataInContour h w contour data = maskDataInContour h w contour data' := by
  unfold maskDataInContour maskData
  rw [flatInside_congr hd]

section
variable {S S' : Fields} {j0 nj i0 ni : ℕ}

/-- the window lies where the maps agree -/
structure InAgree (S : Fields) (j0 nj i0 ni : ℕ) (w : Window) : Prop where
  bl0 : 0 ≤ w.bl0
  bl1 : 0 ≤ w.bl1
  tr0 : w.tr0 ≤ S.data.rows
  tr1 : w.tr1 ≤ S.data.cols
  south : (j0 : ℤ) ≤ w.bl0 + reach nj ni
  north : w.tr0 ≤ j0 + nj + reach nj ni
  west : (i0 : ℤ) ≤ w.bl1 + reach nj ni
  east : w.tr1 ≤ i0 + ni + reach nj ni

theorem cut_agree (hA : AgreeAround S S' j0 nj i0 ni) {w : Window} (hw : InAgree S j0 nj i0 ni w) :
    ∀ r < (cut w S.data).rows, ∀ c < (cut w S.data).cols, (cut w S'.data).get r c = (cut w S.data).get r c := by
  intro r hr c hc
  have hr : r < (w.tr0 - w.bl0).toNat := hr
  have hc : c < (w.tr1 - w.bl1).toNat := hc
  obtain ⟨w1, w2, w3, w4, w5, w6, w7, w8⟩ := hw
  exact hA.values _ (by omega) _ (by omega) ⟨by omega, by omega, by omega, by omega⟩

theorem maskedData_agree (hA : AgreeAround S S' j0 nj i0 ni) {w : Window} (hw : InAgree S j0 nj i0 ni w) :
    maskedData S' w = maskedData S w := by
  unfold maskedData
  have hs : (cut w S'.data).rows = (cut w S.data).rows ∧ (cut w S'.data).cols = (cut w S.data).cols := ⟨rfl, rfl⟩
  simp only [hs.1, hs.2]
  congr 1
  funext r c
  by_cases hm : ((r : ℤ), (c : ℤ)) ∈ fillHoles (cut w S.data).rows (cut w S.data).cols w.rel.toFinset
  · rw [if_pos hm, if_pos hm]
    unfold fillHoles cells at hm
    rw [Finset.mem_sdiff, Finset.mem_product, Finset.mem_Ico, Finset.mem_Ico] at hm
    exact cut_agree hA hw r (by omega) c (by omega)
  · rw [if_neg hm, if_neg hm]

variable {L : Libs}

theorem window_inAgree (hL : L.Nearest) (hrect : S.Rectilinear) (hR : S.grid.Rect) (hj : 0 < nj) (hi : 0 < ni)
    (hjn : j0 + nj ≤ S.data.rows) (hin : i0 + ni ≤ S.data.cols) {pts : List (ℝ × ℝ)}
    (hne : masked S.data.rows S.data.cols ((⟨S.data.rows, S.data.cols, S.X.get, S.Y.get⟩ : Grid ℝ).mask (meanPt pts)) ≠ [])
    (hp : ∀ P ∈ pts, InsideBox S.X S.Y j0 nj i0 ni P) {pix : List (ℕ × ℕ)} {p : ℤ × ℤ} {ps : List (ℤ × ℤ)}
    (h : pts.mapM (fun v => codeIndex S.data.rows S.data.cols
        ((⟨S.data.rows, S.data.cols, S.X.get, S.Y.get⟩ : Grid ℝ).mask (meanPt pts))
        (L.ballTree ⟨S.data.rows, S.data.cols, S.X.get, S.Y.get⟩ (meanPt pts) v)) = .ok pix)
    (hpp : pix.map (fun q => ((q.1 : ℤ), (q.2 : ℤ))) = p :: ps) :
    InAgree S j0 nj i0 ni (getWindow S.data.rows S.data.cols p ps .auto) := by
  obtain ⟨g1, g2, g3, g4, _⟩ := window_in_grid S.data.rows S.data.cols p ps .auto
  have hf := mapM_forall₂ h
  have hpne : pts ≠ [] := by
    rintro rfl
    cases hf
    cases hpp
  have hm := meanPt_inside hpne hp
  have hb : ∀ q ∈ pix, j0 ≤ q.1 ∧ q.1 ≤ j0 + nj - 1 ∧ i0 ≤ q.2 ∧ q.2 ≤ i0 + ni - 1 := by
    clear hpp g1 g2 g3 g4 h hpne
    revert hf
    generalize hmm : meanPt pts = m at hne hm
    clear hmm
    intro hf
    induction hf with
    | nil => simp
    | cons hab _ ih =>
      intro q hq
      rcases List.mem_cons.1 hq with rfl | hq
      · exact pixel_in_box hR hjn hin hj hi hm (hp _ List.mem_cons_self) (pixel_nearest hL hrect hne hab)
      · exact ih (fun P hP => hp P (List.mem_cons_of_mem _ hP)) q hq
  obtain ⟨w1, w2, w3, w4⟩ := window_within (s0 := S.data.rows) (s1 := S.data.cols) (p := p) (ps := ps) (j0 := j0) (i0 := i0) hj hi (by
    intro q hq
    rw [← hpp] at hq
    obtain ⟨k, hk, rfl⟩ := List.mem_map.1 hq
    have := hb k hk
    simp only
    omega)
  exact ⟨g1, g2, g3, g4, w1, w2, w3, w4⟩

/-- the data inside a contour, for two maps that agree around it -/
theorem dataInContour_agree (hA : AgreeAround S S' j0 nj i0 ni) (hL : L.Nearest) (hrect : S.Rectilinear) (hR : S.grid.Rect) (hj : 0 < nj)
    (hi : 0 < ni) (hjn : j0 + nj ≤ S.data.rows) (hin : i0 + ni ≤ S.data.cols) {pts : List (ℝ × ℝ)}
    (hp : ∀ P ∈ pts, InsideBox S.X S.Y j0 nj i0 ni P) :
    dataInContour L S' pts = dataInContour L S pts ∧
      ∀ i, dataInContour L S pts = .ok i → InAgree S j0 nj i0 ni i.window := by
  have hwin := fun hne {pix p ps} => window_inAgree (pix := pix) (p := p) (ps := ps) hL hrect hR hj hi hjn hin hne hp
  have h0 : ∀ i, dataInContour L S pts = .ok i → InAgree S j0 nj i0 ni i.window := by
    intro i h
    unfold dataInContour at h
    simp only [bind, Except.bind, pure, Except.pure] at h
    split at h
    · cases h
    rename_i hne
    split at h
    · cases h
    rename_i pix hpix
    split at h
    · cases h
    rename_i p ps hpp
    split at h
    · split at h
      · cases h
      · injection h with h
        subst h
        exact hwin (by simpa using hne) hpix hpp
    · cases h
  refine ⟨?_, h0⟩
  unfold dataInContour
  rw [hA.X, hA.Y, hA.rows, hA.cols]
  simp only [bind, Except.bind, pure, Except.pure]
  split
  · rfl
  rename_i hne
  split
  · rfl
  rename_i pix hpix
  split
  · rfl
  rename_i p ps hpp
  have hw := hwin (by simpa using hne) hpix hpp
  have e := maskData_congr (getWindow S.data.rows S.data.cols p ps .auto).rel.toFinset (cut_agree hA hw)
  have hs : (cut (getWindow S.data.rows S.data.cols p ps .auto) S'.data).rows = (cut (getWindow S.data.rows S.data.cols p ps .auto) S.data).rows ∧
    (cut (getWindow S.data.rows S.data.cols p ps .auto) S'.data).cols = (cut (getWindow S.data.rows S.data.cols p ps .auto) S.data).cols := ⟨rfl, rfl⟩
  rw [hs.1, hs.2, e]

theorem maximaOf_agree (hA : AgreeAround S S' j0 nj i0 ni) (i : InContour) : maximaOf S' i = maximaOf S i := by
  unfold maximaOf
  rw [hA.X, hA.Y]

theorem fitSurface_agree (hA : AgreeAround S S' j0 nj i0 ni) {i : InContour} (hw : InAgree S j0 nj i0 ni i.window)
    (prm : ℝ × ℝ × Option ℝ) : fitSurface L S' i prm = fitSurface L S i prm := by
  unfold fitSurface
  rw [hA.X, hA.Y, maximaOf_agree hA, maskedData_agree hA hw]

/-- the outcome for a contour, for two maps that agree around it -/
theorem examine_agree (hA : AgreeAround S S' j0 nj i0 ni) (hL : L.Nearest) (hrect : S.Rectilinear) (hR : S.grid.Rect) (hj : 0 < nj)
    (hi : 0 < ni) (hjn : j0 + nj ≤ S.data.rows) (hin : i0 + ni ≤ S.data.cols) (c : Criteria ℝ) (l : ℝ) {vs : List (Vertex ℝ)}
    (hv : LineInside S.X S.Y j0 nj i0 ni vs) : examine c L S' l vs = examine c L S l vs := by
  unfold examine
  split
  · rfl
  cases hp : allPoints vs with
  | none => rfl
  | some pts =>
    simp only
    have hvs := allPoints_eq.1 hp
    have hin' : ∀ P ∈ pts, InsideBox S.X S.Y j0 nj i0 ni P := by
      intro P hP
      obtain ⟨Q, hQ, hQ'⟩ := hv (some P) (by rw [hvs]; exact List.mem_map_of_mem hP)
      injection hQ with hQ
      exact hQ ▸ hQ'
    obtain ⟨e, hw⟩ := dataInContour_agree hA hL hrect hR hj hi hjn hin hin'
    unfold examinePoints
    rw [e, hA.X, hA.Y]
    cases hd : dataInContour L S pts with
    | error x => rfl
    | ok i =>
      have hs := fun prm => fitSurface_agree (L := L) hA (hw i hd) prm
      simp only [bind, Except.bind, pure, Except.pure, hs, maximaOf_agree hA]

end

end Trackeddy
