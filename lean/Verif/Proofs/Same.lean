import Verif.Proofs.Part
import Verif.Proofs.Cntr.TracedUnique

/-!
Only the entries of the arrays matter: the fields of the model are functions on all indices, the results depend on the indices inside the arrays.
-/
namespace Trackeddy
open Spec
open Cntr (Vertex Item)

/-- arrays with the same shape and entries -/
structure SameArr {β : Type} (a b : Cntr.NdArr β) : Prop where
  rows : b.rows = a.rows
  cols : b.cols = a.cols
  get : ∀ r < a.rows, ∀ c < a.cols, b.get r c = a.get r c

theorem SameArr.refl {β : Type} (a : Cntr.NdArr β) : SameArr a a := ⟨rfl, rfl, fun _ _ _ _ => rfl⟩

theorem SameArr.cut {β : Type} {a b : Cntr.NdArr β} (h : SameArr a b) {w : Window} (h0 : 0 ≤ w.bl0) (h1 : 0 ≤ w.bl1) (h2 : w.tr0 ≤ a.rows)
    (h3 : w.tr1 ≤ a.cols) : SameArr (cut w a) (cut w b) := by
  refine ⟨rfl, rfl, fun r hr c hc => ?_⟩
  have hr : r < (w.tr0 - w.bl0).toNat := hr
  have hc : c < (w.tr1 - w.bl1).toNat := hc
  exact h.get _ (by omega) _ (by omega)

/-- grids with the same points -/
structure SameGrid (g g' : Grid ℝ) : Prop where
  ny : g'.ny = g.ny
  nx : g'.nx = g.nx
  X : ∀ r < g.ny, ∀ c < g.nx, g'.X r c = g.X r c
  Y : ∀ r < g.ny, ∀ c < g.nx, g'.Y r c = g.Y r c

/-- The answers of the libraries depend on the entries of the arrays they are given. -/
structure Libs.Proper (L : Libs) : Prop where
  ballTree : ∀ g g' : Grid ℝ, SameGrid g g' → ∀ pt v, L.ballTree g' pt v = L.ballTree g pt v
  leastSquares : ∀ p p' : FitProblem, SameArr p.X p'.X → SameArr p.Y p'.Y → SameArr p.data p'.data → p'.amplitude = p.amplitude →
    p'.guess = p.guess → L.leastSquares p' = L.leastSquares p

/-- maps with the same entries -/
structure SameMap (S S' : Fields) : Prop where
  X : SameArr S.X S'.X
  Y : SameArr S.Y S'.Y
  data : SameArr S.data S'.data

/-- the contours depend on the entries -/
theorem contoursOf_same {L : Libs} {X Y X' Y' : Cntr.NdArr ℝ} {Z Z' : Cntr.NdArr (Option ℝ)} (hX : SameArr X X') (hY : SameArr Y Y')
    (hZ : SameArr Z Z') (h : Cntr.SameShape X Y Z none) (l : ℝ) : contoursOf L X' Y' Z' l = contoursOf L X Y Z l := by
  have h' : Cntr.SameShape X' Y' Z' none := by
    obtain ⟨h1, h2, _⟩ := h
    simp only [Prod.mk.injEq] at h1 h2
    refine ⟨?_, ?_, by simp⟩
    · rw [hX.rows, hX.cols, hZ.rows, hZ.cols, h1.1, h1.2]
    · rw [hY.rows, hY.cols, hZ.rows, hZ.cols, h2.1, h2.2]
  have hA : Cntr.Agree (Cntr.arrGrid X Y Z none) (Cntr.arrGrid X' Y' Z' none) := by
    obtain ⟨h1, h2, _⟩ := h
    simp only [Prod.mk.injEq] at h1 h2
    refine ⟨hZ.cols.symm, hZ.rows.symm, fun p a b => ?_, fun p a b => ?_, fun p a b => ?_, fun p _ _ => rfl⟩
    · have a : p.1 < Z.cols := a
      have b : p.2 < Z.rows := b
      exact (hX.get _ (by omega) _ (by omega)).symm
    · have a : p.1 < Z.cols := a
      have b : p.2 < Z.rows := b
      exact (hY.get _ (by omega) _ (by omega)).symm
    · exact (hZ.get _ b _ a).symm
  obtain ⟨cs, hcs, hr⟩ := Cntr.extract_traced h l
  obtain ⟨cs', hcs', hr'⟩ := Cntr.extract_traced h' l
  have e : cs' = cs := Cntr.traced_unique hcs' (hA.traced hcs)
  subst e
  have ep : Cntr.pointArrays (Cntr.arrGrid X' Y' Z' none) l cs' = Cntr.pointArrays (Cntr.arrGrid X Y Z none) l cs' := by
    unfold Cntr.pointArrays
    apply List.map_congr_left
    intro es hes
    congr 1
    apply List.map_congr_left
    intro f hf
    exact (hA.point (Cntr.contour_sides (hcs.lines.each es hes) hf).1).symm
  unfold contoursOf
  rw [hr (4 * (Z.cols * Z.rows) + 2) _ (le_refl (Cntr.bound Z)), hr' (4 * (Z'.cols * Z'.rows) + 2) _ (le_refl (Cntr.bound Z')), ep]

theorem masked_same {ny nx : ℕ} {m m' : ℕ → ℕ → Bool} (h : ∀ r < ny, ∀ c < nx, m' r c = m r c) : masked ny nx m' = masked ny nx m := by
  unfold masked
  apply List.flatMap_congr
  intro r hr
  congr 1
  apply List.filter_congr
  intro c hc
  exact h r (List.mem_range.1 hr) c (List.mem_range.1 hc)

theorem codeIndex_same {ny nx : ℕ} {m m' : ℕ → ℕ → Bool} (h : ∀ r < ny, ∀ c < nx, m' r c = m r c) (k : ℕ) :
    codeIndex ny nx m' k = codeIndex ny nx m k := by
  have e1 : colSums ny nx m' = colSums ny nx m := by
    unfold colSums
    apply List.map_congr_left
    intro c hc
    apply List.countP_congr
    intro r hr
    rw [h r (List.mem_range.1 hr) c (List.mem_range.1 hc)]
  have e2 : rowSums ny nx m' = rowSums ny nx m := by
    unfold rowSums
    apply List.map_congr_left
    intro r hr
    apply List.countP_congr
    intro c hc
    rw [h r (List.mem_range.1 hr) c (List.mem_range.1 hc)]
  unfold codeIndex
  rw [e1, e2]

section
variable {L : Libs} {S S' : Fields}

theorem dataInContour_same (hL : L.Proper) (h : SameMap S S') (hok : S.Ok) (pts : List (ℝ × ℝ)) :
    dataInContour L S' pts = dataInContour L S pts := by
  obtain ⟨h1, h2, _⟩ := hok
  simp only [Prod.mk.injEq] at h1 h2
  have hg : SameGrid ⟨S.data.rows, S.data.cols, S.X.get, S.Y.get⟩ ⟨S'.data.rows, S'.data.cols, S'.X.get, S'.Y.get⟩ := by
    refine ⟨h.data.rows, h.data.cols, fun r hr c hc => ?_, fun r hr c hc => ?_⟩
    · have hr : r < S.data.rows := hr
      have hc : c < S.data.cols := hc
      exact h.X.get _ (by omega) _ (by omega)
    · have hr : r < S.data.rows := hr
      have hc : c < S.data.cols := hc
      exact h.Y.get _ (by omega) _ (by omega)
  have hm : ∀ r < S.data.rows, ∀ c < S.data.cols, (⟨S'.data.rows, S'.data.cols, S'.X.get, S'.Y.get⟩ : Grid ℝ).mask (meanPt pts) r c =
      (⟨S.data.rows, S.data.cols, S.X.get, S.Y.get⟩ : Grid ℝ).mask (meanPt pts) r c := by
    intro r hr c hc
    unfold Grid.mask
    rw [hg.X r hr c hc, hg.Y r hr c hc]
  have hcd : ∀ v, codeIndex S'.data.rows S'.data.cols ((⟨S'.data.rows, S'.data.cols, S'.X.get, S'.Y.get⟩ : Grid ℝ).mask (meanPt pts))
      (L.ballTree ⟨S'.data.rows, S'.data.cols, S'.X.get, S'.Y.get⟩ (meanPt pts) v) =
      codeIndex S.data.rows S.data.cols ((⟨S.data.rows, S.data.cols, S.X.get, S.Y.get⟩ : Grid ℝ).mask (meanPt pts))
      (L.ballTree ⟨S.data.rows, S.data.cols, S.X.get, S.Y.get⟩ (meanPt pts) v) := by
    intro v
    rw [hL.ballTree _ _ hg, h.data.rows, h.data.cols]
    rw [h.data.rows, h.data.cols] at hm
    exact codeIndex_same hm _
  have hmk : masked S'.data.rows S'.data.cols ((⟨S'.data.rows, S'.data.cols, S'.X.get, S'.Y.get⟩ : Grid ℝ).mask (meanPt pts)) =
      masked S.data.rows S.data.cols ((⟨S.data.rows, S.data.cols, S.X.get, S.Y.get⟩ : Grid ℝ).mask (meanPt pts)) := by
    rw [h.data.rows, h.data.cols]
    rw [h.data.rows, h.data.cols] at hm
    exact masked_same hm
  unfold dataInContour
  simp only [hcd, hmk, bind, Except.bind, pure, Except.pure]
  split
  · rfl
  split
  · rfl
  rename_i pix _
  split
  · rfl
  · rename_i p ps _
    simp only [h.data.rows, h.data.cols]
    have g := window_in_grid S.data.rows S.data.cols p ps .auto
    generalize getWindow S.data.rows S.data.cols p ps .auto = w at *
    have hc := h.data.cut g.1 g.2.1 g.2.2.1 g.2.2.2.1
    have e := maskData_congr w.rel.toFinset hc.get
    have hs : (cut w S'.data).rows = (cut w S.data).rows ∧ (cut w S'.data).cols = (cut w S.data).cols := ⟨rfl, rfl⟩
    rw [hs.1, hs.2, e]

/-- the window lies in the map and the extremum in the window -/
theorem dataInContour_in {pts : List (ℝ × ℝ)} {i : InContour} (h : dataInContour L S pts = .ok i) :
    0 ≤ i.window.bl0 ∧ 0 ≤ i.window.bl1 ∧ i.window.tr0 ≤ S.data.rows ∧ i.window.tr1 ≤ S.data.cols ∧
      i.ext.row < (cut i.window S.data).rows ∧ i.ext.col < (cut i.window S.data).cols := by
  unfold dataInContour at h
  simp only [bind, Except.bind, pure, Except.pure] at h
  split at h
  · cases h
  split at h
  · cases h
  rename_i pix hpix
  split at h
  · cases h
  rename_i p ps hpp
  have g := window_in_grid S.data.rows S.data.cols p ps .auto
  split at h
  · split at h
    · cases h
    · rename_i e he
      injection h with h
      subst h
      obtain ⟨x, hx, _⟩ := C42_extremum _ _ _ _ _ he
      exact ⟨g.1, g.2.1, g.2.2.1, g.2.2.2.1, hx.1, hx.2.1⟩
  · cases h

/-- the outcome for a contour depends on the entries of the map -/
theorem examine_same (hL : L.Proper) (h : SameMap S S') (hok : S.Ok) (c : Criteria ℝ) (l : ℝ) (vs : List (Vertex ℝ)) :
    examine c L S' l vs = examine c L S l vs := by
  unfold examine
  split
  · rfl
  cases hp : allPoints vs with
  | none => rfl
  | some pts =>
    simp only
    unfold examinePoints
    rw [dataInContour_same hL h hok]
    cases hd : dataInContour L S pts with
    | error x => rfl
    | ok i =>
      obtain ⟨w1, w2, w3, w4, w5, w6⟩ := dataInContour_in hd
      obtain ⟨h1, h2, _⟩ := id hok
      simp only [Prod.mk.injEq] at h1 h2
      have cX := h.X.cut w1 w2 (by omega) (by omega)
      have cY := h.Y.cut w1 w2 (by omega) (by omega)
      have cZ := h.data.cut w1 w2 w3 w4
      have hmx : maximaOf S' i = maximaOf S i := by
        unfold maximaOf
        rw [cX.get _ w5 _ w6, cY.get _ w5 _ w6]
      have cM : SameArr (maskedData S i.window) (maskedData S' i.window) := by
        refine ⟨rfl, rfl, fun r hr c hc => ?_⟩
        unfold maskedData
        simp only
        rw [cZ.get r hr c hc]
        rfl
      have hq : ∀ (mx : ℝ) (gs : ℝ × ℝ × ℝ × ℝ × ℝ),
          L.leastSquares ⟨cut i.window S'.X, cut i.window S'.Y, maskedData S' i.window, mx, gs⟩ =
          L.leastSquares ⟨cut i.window S.X, cut i.window S.Y, maskedData S i.window, mx, gs⟩ :=
        fun mx gs => hL.leastSquares _ _ cX cY cM rfl rfl
      have hfs : ∀ prm, (∃ e, fitSurface L S' i prm = .error e ∧ fitSurface L S i prm = .error e) ∨
          ∃ u u' q, fitSurface L S' i prm = .ok (u', q) ∧ fitSurface L S i prm = .ok (u, q) ∧
            contoursOf L (cut i.window S'.X) (cut i.window S'.Y) u' l = contoursOf L (cut i.window S.X) (cut i.window S.Y) u l := by
        intro prm
        unfold fitSurface
        simp only [hmx, hq]
        cases prm.2.2 with
        | none => exact Or.inl ⟨_, rfl, rfl⟩
        | some θ =>
          simp only [bind, Except.bind, pure, Except.pure]
          cases L.leastSquares ⟨cut i.window S.X, cut i.window S.Y, maskedData S i.window, (maximaOf S i).1,
            ((maximaOf S i).2.2, (maximaOf S i).2.1, prm.1, prm.2.1, θ)⟩ with
          | error e => exact Or.inl ⟨_, rfl, rfl⟩
          | ok q =>
            refine Or.inr ⟨_, _, q, rfl, rfl, ?_⟩
            refine contoursOf_same cX cY ?_ ?_ l
            · refine ⟨rfl, rfl, fun r hr c hc => ?_⟩
              simp only
              rw [cX.get r hr c hc, cY.get r hr c hc]
            · exact ⟨rfl, rfl, by simp⟩
      cases fitEllipse pts with
      | error e => rfl
      | ok fit =>
        rcases hfs fit.2 with ⟨e, f1, f2⟩ | ⟨u, u', q, f1, f2, f3⟩
        · simp only [bind, Except.bind, pure, Except.pure, f1, f2, hmx]
        · simp only [bind, Except.bind, pure, Except.pure, f1, f2, f3, hmx]

end

end Trackeddy
