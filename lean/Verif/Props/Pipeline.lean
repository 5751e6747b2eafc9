import Verif.Proofs.Detect
import Verif.Proofs.Enclosed
import Verif.Props.Mask
import Verif.Props.Window
import Verif.Props.Similarity
import Verif.Props.Area
import Verif.Props.Ellipse
import Verif.Props.Contour
import Verif.Props.Tracking

/-!
C84-C87: `TrackEddy.time_tracking` from gridded data to the returned table (Model/Pipeline.lean).

`field t` are the (filtered) data of time `t` with their coordinates, `L` the answers of the libraries and `regs` the state
of the module; `StoreEmpty` says that no earlier call was interrupted by an exception (see C19, C20).
-/
namespace Trackeddy
open Spec
open Cntr (Vertex SameShape arrGrid)

/-! ### the eddies of a run -/

theorem pureLevel_rows {c : Criteria ℝ} {L : Libs} {S : Fields} {l : ℝ} {t : Tbl Cols}
    (ht : pureLevel c (levelMeasures c L S l) = .ok t) : t.rows = snapRows (storedOf c (levelMeasures c L S l)) := by
  unfold pureLevel at ht
  cases hx : (detectOneLevel c Regs.empty (levelMeasures c L S l)).2 with
  | error e => rw [hx] at ht; cases ht
  | ok x =>
    have hok := detectOneLevel_complete hx
    rw [detectOneLevel_ok c _ hok] at ht
    injection ht with ht
    subst ht
    have : (if storedOf c (levelMeasures c L S l) = [] then [] else
        (Regs.empty : Regs Cols).sTable ++ numbered (Regs.empty : Regs Cols).sCalls (storedOf c (levelMeasures c L S l))) =
        numbered 0 (storedOf c (levelMeasures c L S l)) := by
      by_cases h : storedOf c (levelMeasures c L S l) = [] <;> simp [h, numbered_nil, Regs.empty]
    simp only [this]
    exact levelFrame_rows _

theorem pureLevel_made {c : Criteria ℝ} {L : Libs} {S : Fields} (h : S.Ok) {l : ℝ} {t : Tbl Cols}
    (ht : pureLevel c (levelMeasures c L S l) = .ok t) :
    MadeOf (fun rows => ∃ vs ∈ contourList L S l, ∃ e, examine c L S l vs = .ok (.stored e) ∧ rows = e.rows) t.rows := by
  have hrows := pureLevel_rows ht
  rw [hrows]
  apply MadeOf.snapRows
  intro rows hr
  unfold storedOf levelMeasures at hr
  obtain ⟨m, hm, rfl⟩ := List.mem_map.1 hr
  obtain ⟨hm1, hm2⟩ := List.mem_filter.1 hm
  obtain ⟨vs, hvs, rfl⟩ := List.mem_map.1 hm1
  have hv : verdict c (measures c L S l vs) = .ok .stored := by simpa using hm2
  rw [verdict_measures] at hv
  cases he : examine c L S l vs with
  | error e => rw [he] at hv; cases hv
  | ok o =>
    cases o with
    | skipped => rw [he] at hv; injection hv with hv; cases hv
    | discarded r => rw [he] at hv; injection hv with hv; cases hv
    | stored e => exact ⟨vs, hvs, e, he, measures_points (contourList_ne L h l vs hvs) he⟩

/-- the returned table is made of stored contours -/
theorem trackFields_made {Pt : Type} {E : Env Cols ℝ Pt} (hnn : IsNN E.dist E.nn) {c : Criteria ℝ} {L : Libs}
    {field : Int → Fields} {levels : List ℝ} {t0 : Int} {tf : Option Int} {T : Nat} {ntimes : Int} {regs : Regs Cols}
    (h : ∀ t ∈ trackTimes t0 tf T, (field t).Ok) (hr : StoreEmpty regs) {s : LoopState Cols}
    (hs : (trackFields E c L field levels t0 tf T ntimes true regs).2 = .ok s) :
    MadeOfT (fun t rows => ∃ l ∈ levels, l ≠ 0 ∧ ∃ vs ∈ contourList L (field t) l, ∃ e,
      examine c L (field t) l vs = .ok (.stored e) ∧ rows = e.rows ∧ t ∈ trackTimes t0 tf T) s.table.rows := by
  rw [(trackFields_pure E c L h hr).1] at hs
  refine timeTracking_made hnn ?_ hs ?_
  · intro t C hC
    have := detectSnapshot_inv (fun l tb htb => pureLevel_level htb) _ hC
    exact ⟨this.first, this.contig⟩
  · intro t ht C hC
    refine detectSnapshot_made hC ?_
    intro l hl hl0 tl htl
    refine (pureLevel_made (h t ht) htl).mono ?_
    rintro rows ⟨vs, hvs, e, he, hre⟩
    exact ⟨l, hl, hl0, vs, hvs, e, he, hre, ht⟩

theorem Spec.MadeOfT.mono {α : Type} {P Q : Int → Eddy α → Prop} (h : ∀ t e, P t e → Q t e) {rows : List (Row (Int × α))}
    (hm : MadeOfT P rows) : MadeOfT Q rows := by
  obtain ⟨l, h1, h2⟩ := hm
  exact ⟨l, fun p hp => h _ _ (h1 p hp), h2⟩

theorem EddyObj.tableRows (e : EddyObj) : e.rows = tableRows e.data := rfl

/-! ### C84 -/

theorem stored_onContour {c : Criteria ℝ} {L : Libs} {S : Fields} (h : S.Ok) {levels : List ℝ} {l : ℝ} (hl : l ∈ levels)
    (hl0 : l ≠ 0) {vs : List (Vertex ℝ)} (hvs : vs ∈ contourList L S l) {e : EddyObj}
    (he : examine c L S l vs = .ok (.stored e)) : OnContour S.grid levels e.data := by
  obtain ⟨_, ess, h1, h2⟩ := contourList_lines L h l
  rw [h2] at hvs
  obtain ⟨es, hes, rfl⟩ := List.mem_map.1 hvs
  obtain ⟨_, h3, curve, i, hst⟩ := examine_stored.1 he
  exact ⟨l, hl, hl0, by simp only [EddyObj.data, hst.lev], es, e.contour, h1.each es hes, h3, rfl⟩

/-- **C84** The returned table consists of whole eddies, one row for each vertex: each is a complete contour line of the data of
its time at one of the requested levels other than zero, none of its vertices is missing, and its column `level` is this
level. -/
theorem C84_eddies_are_contour_lines {Pt : Type} {E : Env Cols ℝ Pt} (hnn : IsNN E.dist E.nn) {c : Criteria ℝ} {L : Libs}
    {field : Int → Fields} {levels : List ℝ} {t0 : Int} {tf : Option Int} {T : Nat} {ntimes : Int} {regs : Regs Cols}
    (h : ∀ t ∈ trackTimes t0 tf T, (field t).Ok) (hr : StoreEmpty regs) {s : LoopState Cols}
    (hs : (trackFields E c L field levels t0 tf T ntimes true regs).2 = .ok s) :
    MadeOfT (fun t rows => ∃ d, rows = tableRows d ∧ OnContour (field t).grid levels d) s.table.rows := by
  refine (trackFields_made hnn h hr hs).mono ?_
  rintro t rows ⟨l, hl, hl0, vs, hvs, e, he, hre, ht⟩
  exact ⟨e.data, hre, stored_onContour (h t ht) hl hl0 hvs he⟩

/-! ### C85 -/

theorem mapM_forall₂ {β γ : Type} {f : β → Except PyErr γ} {l : List β} {r : List γ} (h : l.mapM f = .ok r) :
    List.Forall₂ (fun v q => f v = .ok q) l r := by
  induction l generalizing r with
  | nil => injection h with h; subst h; exact .nil
  | cons v l ih =>
    rw [List.mapM_cons] at h
    simp only [bind, Except.bind, pure, Except.pure] at h
    split at h
    · cases h
    · rename_i q hq
      split at h
      · cases h
      · rename_i l' hl
        injection h with h
        subst h
        exact .cons hq (ih hl)

/-- what `_data_in_contour` returns -/
theorem dataInContour_ok {L : Libs} {S : Fields} {pts : List (ℝ × ℝ)} {i : InContour} (h : dataInContour L S pts = .ok i) :
    ∃ (pix : List (Nat × Nat)) (p : Int × Int) (ps : List (Int × Int)),
      List.Forall₂ (fun v q => codeIndex S.data.rows S.data.cols
        ((⟨S.data.rows, S.data.cols, S.X.get, S.Y.get⟩ : Grid ℝ).mask (meanPt pts))
        (L.ballTree ⟨S.data.rows, S.data.cols, S.X.get, S.Y.get⟩ (meanPt pts) v) = .ok q) pts pix ∧
      pix.map (fun q => ((q.1 : Int), (q.2 : Int))) = p :: ps ∧ i.window = getWindow S.data.rows S.data.cols p ps .auto ∧
      (∀ q ∈ i.window.rel, 0 ≤ q.1 ∧ q.1 < ((cut i.window S.data).rows : Int) ∧ 0 ≤ q.2 ∧
        q.2 < ((cut i.window S.data).cols : Int)) ∧
      maskDataInContour (cut i.window S.data).rows (cut i.window S.data).cols i.window.rel.toFinset
        (cut i.window S.data).get = .ok i.ext := by
  unfold dataInContour at h
  simp only [bind, Except.bind, pure, Except.pure] at h
  split at h
  · cases h
  split at h
  · cases h
  rename_i pix hpix
  have hf : List.Forall₂ (fun v q => codeIndex S.data.rows S.data.cols
        ((⟨S.data.rows, S.data.cols, S.X.get, S.Y.get⟩ : Grid ℝ).mask (meanPt pts))
        (L.ballTree ⟨S.data.rows, S.data.cols, S.X.get, S.Y.get⟩ (meanPt pts) v) = .ok q) pts pix := by
    exact mapM_forall₂ hpix
  split at h
  · cases h
  rename_i p ps hpp
  split at h
  · rename_i hall
    split at h
    · cases h
    · rename_i e he
      injection h with h
      subst h
      refine ⟨pix, p, ps, hf, hpp, rfl, ?_, he⟩
      intro q hq
      have := List.all_eq_true.1 hall q hq
      simpa using this
  · cases h

/-- the window lies in the grid -/
theorem window_in_grid (s0 s1 : Int) (p : Int × Int) (ps : List (Int × Int)) (t : Threshold) :
    0 ≤ (getWindow s0 s1 p ps t).bl0 ∧ 0 ≤ (getWindow s0 s1 p ps t).bl1 ∧ (getWindow s0 s1 p ps t).tr0 ≤ s0 ∧
    (getWindow s0 s1 p ps t).tr1 ≤ s1 ∧
    (getWindow s0 s1 p ps t).rel = (p :: ps).map fun q => (q.1 - (getWindow s0 s1 p ps t).bl0, q.2 - (getWindow s0 s1 p ps t).bl1) := by
  unfold getWindow
  simp only [clampTR_eq, clampBL_eq]
  refine ⟨by omega, by omega, by omega, by omega, trivial⟩

/-- the contour, its pixels and the extremum -/
theorem dataInContour_extremum {L : Libs} {S : Fields} {pts : List (ℝ × ℝ)} {i : InContour}
    (h : dataInContour L S pts = .ok i) (hne : i.ext.maxima ≠ 0) {e : EddyObj} (hs : e.sign = i.ext.sign)
    (hm : e.maxima = maximaOf S i) :
    ∃ pix, List.Forall₂ (fun v q => codeIndex S.data.rows S.data.cols
        ((⟨S.data.rows, S.data.cols, S.X.get, S.Y.get⟩ : Grid ℝ).mask (meanPt pts))
        (L.ballTree ⟨S.data.rows, S.data.cols, S.X.get, S.Y.get⟩ (meanPt pts) v) = .ok q) pts pix ∧
      ExtremumIn S.grid e.data pix := by
  obtain ⟨pix, p, ps, h1, h2, h3, h4, h5⟩ := dataInContour_ok h
  refine ⟨pix, h1, ?_⟩
  obtain ⟨W, ext⟩ := i
  simp only at h3 h4 h5 hs hm hne
  obtain ⟨b0, b1, t0, t1, hrel⟩ := window_in_grid S.data.rows S.data.cols p ps .auto
  rw [← h3] at b0 b1 t0 t1 hrel
  rw [← h2] at hrel
  obtain ⟨e1, e2, e3, e4⟩ := C42_enclosed _ _ _ _ _ h5
  set C : Int × Int → Prop := (· ∈ pix.map fun p => ((p.1 : Int), (p.2 : Int))) with hCdef
  have hmem : ∀ q : Int × Int, q ∈ W.rel.toFinset ↔ C (q.1 + W.bl0, q.2 + W.bl1) := by
    intro q
    rw [List.mem_toFinset, hrel, hCdef]
    simp only [List.mem_map]
    constructor
    · rintro ⟨a, ⟨b, hb, rfl⟩, rfl⟩
      exact ⟨b, hb, by simp⟩
    · rintro ⟨b, hb, hbq⟩
      refine ⟨_, ⟨b, hb, rfl⟩, ?_⟩
      rw [Prod.ext_iff] at hbq ⊢
      simp only at hbq ⊢
      omega
  have hdim : ∀ q : Int × Int, C q → W.bl0 ≤ q.1 ∧ q.1 < W.bl0 + (cut W S.data).rows ∧ W.bl1 ≤ q.2 ∧
      q.2 < W.bl1 + (cut W S.data).cols := by
    intro q hq
    have := h4 (q.1 - W.bl0, q.2 - W.bl1) (by
      rw [← List.mem_toFinset, hmem]
      simpa using hq)
    simp only at this
    omega
  have hpos : 0 < (cut W S.data).rows ∧ 0 < (cut W S.data).cols := by
    have := e1.1
    unfold InWindow at this
    simp only at this
    omega
  have hr : W.bl0 + (cut W S.data).rows ≤ S.data.rows := by
    have := hpos.1
    simp only [cut] at this ⊢
    omega
  have hc : W.bl1 + (cut W S.data).cols ≤ S.data.cols := by
    have := hpos.2
    simp only [cut] at this ⊢
    omega
  have hins := inside_window b0 b1 hr hc hdim
  have hfun : (fun q : Int × Int => C (q.1 + W.bl0, q.2 + W.bl1)) = (· ∈ W.rel.toFinset) := by
    funext q
    exact propext (hmem q).symm
  rw [hfun] at hins
  have hsum : ∀ a : ℕ, ((W.bl0.toNat + a : ℕ) : Int) = a + W.bl0 := by intro a; omega
  have hsum1 : ∀ a : ℕ, ((W.bl1.toNat + a : ℕ) : Int) = a + W.bl1 := by intro a; omega
  have hin := (hins (ext.row, ext.col)).1 e1
  have hall : ∀ (r' c' : ℕ), Inside S.data.rows S.data.cols C (r', c') →
      ∃ a b : ℕ, r' = W.bl0.toNat + a ∧ c' = W.bl1.toNat + b ∧
        Inside (cut W S.data).rows (cut W S.data).cols (· ∈ W.rel.toFinset) (a, b) := by
    intro r' c' hrc
    have hbox := inside_box hdim hrc
    simp only at hbox
    refine ⟨r' - W.bl0.toNat, c' - W.bl1.toNat, by omega, by omega, ?_⟩
    rw [hins]
    have a1 : (((r' - W.bl0.toNat : ℕ) : Int) + W.bl0) = r' := by omega
    have a2 : (((c' - W.bl1.toNat : ℕ) : Int) + W.bl1) = c' := by omega
    simp only [a1, a2]
    exact hrc
  have htot : total (cut W S.data).rows (cut W S.data).cols (cut W S.data).get
      (fun r c => decide (((r : Int), (c : Int)) ∈ fillHoles (cut W S.data).rows (cut W S.data).cols W.rel.toFinset)) = enclosedSum S.grid pix := by
    refine total_window (b0 := W.bl0.toNat) (b1 := W.bl1.toNat) (ny := S.data.rows) (nx := S.data.cols) (by omega) (by omega) (C := C) (D := S.data.get)
      (fun r _ c _ => ?_) (fun r c hrc => ?_)
    · rw [decide_eq_true_eq, C41_inside_iff, hins, hsum, hsum1]
    · have hbox := inside_box hdim hrc
      simp only at hbox
      omega
  obtain ⟨x, _, g1, g2, g3⟩ := C42_extremum _ _ _ _ _ h5
  rw [htot] at g1 g2 g3
  have hsgn : (0 < ext.maxima ∧ ext.sign = 1 ∧ 0 < enclosedSum S.grid pix ∨ ext.maxima < 0 ∧ ext.sign = -1 ∧ enclosedSum S.grid pix < 0) := by
    rcases lt_trichotomy 0 (enclosedSum S.grid pix) with g | g | g
    · obtain ⟨a1, a2, a3, _⟩ := g1 g
      exact Or.inl ⟨a2 ▸ a3, a1, g⟩
    · exact absurd (g3 g.symm).2 hne
    · obtain ⟨a1, a2, a3, _⟩ := g2 g
      exact Or.inr ⟨a2 ▸ a3, a1, g⟩
  have hval : (cut W S.data).get ext.row ext.col = some ext.maxima := by
    rcases hsgn with q | q
    · exact (e2 q.2.1).1
    · exact (e3 q.2.1).1
  have hrow := e1.1
  unfold InWindow at hrow
  simp only at hrow
  refine ⟨W.bl0.toNat + ext.row, W.bl1.toNat + ext.col, ext.maxima, ?_, ?_, hval, ?_, ?_, ?_, ?_, ?_, ?_⟩
  · show _ < S.data.rows
    omega
  · show _ < S.data.cols
    omega
  · simp only [EddyObj.data, hm, maximaOf]
  · simp only [EddyObj.data, hm, maximaOf]; rfl
  · simp only [EddyObj.data, hm, maximaOf]; rfl
  · simp only [EddyObj.data, hs, Option.some.injEq]
    exact hsgn
  · show Inside S.data.rows S.data.cols C _
    rw [hsum, hsum1]
    exact hin
  · intro r' c' w hrc hw
    obtain ⟨a, b, rfl, rfl, hab⟩ := hall r' c' hrc
    rcases hsgn with q | q
    · exact ⟨fun _ => (e2 q.2.1).2.2 a b w hab hw, fun hn => absurd q.1 (not_lt.2 hn.le)⟩
    · exact ⟨fun hn => absurd q.1 (not_lt.2 hn.le), fun _ => (e3 q.2.1).2.2 a b w hab hw⟩

/-- the answers for a nearest grid point are correct -/
def Libs.Nearest (L : Libs) : Prop :=
  ∀ (g : Grid ℝ) (pt v : ℝ × ℝ), masked g.ny g.nx (g.mask pt) ≠ [] → g.BallTreeAnswer pt v (L.ballTree g pt v)

/-- longitudes depend on the column, latitudes on the row, both ascending or descending -/
def Fields.Rectilinear (S : Fields) : Prop :=
  ∃ lon lat : Nat → ℝ, (∀ r c, S.X.get r c = lon c) ∧ (∀ r c, S.Y.get r c = lat r) ∧ MonoAxis S.data.cols lon ∧
    MonoAxis S.data.rows lat

theorem mask_iff_near (S : Fields) (m : ℝ × ℝ) (p : ℕ × ℕ) :
    p ∈ masked S.data.rows S.data.cols ((⟨S.data.rows, S.data.cols, S.X.get, S.Y.get⟩ : Grid ℝ).mask m) ↔
      NearCentre S.grid m p := by
  rw [mem_masked]
  unfold NearCentre Grid.mask nearPt Fields.grid arrGrid
  simp only [Bool.and_eq_true, decide_eq_true_eq]
  have e : ∀ a : ℝ, 5 / 100 * |a| = |a| / 20 := by intro a; ring
  simp only [e]

theorem pixel_nearest {L : Libs} (hL : L.Nearest) {S : Fields} (hS : S.Rectilinear) {m v : ℝ × ℝ} {q : ℕ × ℕ}
    (hne : masked S.data.rows S.data.cols ((⟨S.data.rows, S.data.cols, S.X.get, S.Y.get⟩ : Grid ℝ).mask m) ≠ [])
    (h : codeIndex S.data.rows S.data.cols ((⟨S.data.rows, S.data.cols, S.X.get, S.Y.get⟩ : Grid ℝ).mask m)
      (L.ballTree ⟨S.data.rows, S.data.cols, S.X.get, S.Y.get⟩ m v) = .ok q) : NearestNear S.grid m v q := by
  obtain ⟨lon, lat, h1, h2, h3, h4⟩ := hS
  obtain ⟨p, hp, hmin⟩ := hL ⟨S.data.rows, S.data.cols, S.X.get, S.Y.get⟩ m v hne
  obtain ⟨hk, hpe⟩ := List.getElem?_eq_some_iff.mp hp
  obtain ⟨p', hp1, hp2⟩ := C40_partial ⟨S.data.rows, S.data.cols, S.X.get, S.Y.get⟩ lon lat h1 h2 h3 h4 m _ hk
  rw [h] at hp2
  injection hp2 with hp2
  rw [hp] at hp1
  injection hp1 with hp1
  subst hp1
  subst hp2
  refine ⟨(mask_iff_near S m _).1 (hpe ▸ List.getElem_mem hk), ?_⟩
  intro q hq
  exact hmin q ((mask_iff_near S m q).2 hq)

theorem nearest_of_near {G : Spec.Grid ℝ} {m v : ℝ × ℝ} {p : ℕ × ℕ} (h : NearestNear G m v p) {ρ : ℝ} (hρ : 0 ≤ ρ)
    (h1 : |v.1 - m.1| ≤ 3 - ρ) (h2 : |v.2 - m.2| ≤ 3 - ρ)
    (h3 : ∃ r < G.ny, ∃ c < G.nx, (G.x (c, r) - v.1) ^ 2 + (G.y (c, r) - v.2) ^ 2 ≤ ρ ^ 2) : NearestPoint G v p := by
  have key : ∀ r < G.ny, ∀ c < G.nx, (G.x (c, r) - v.1) ^ 2 + (G.y (c, r) - v.2) ^ 2 ≤ ρ ^ 2 → NearCentre G m (r, c) := by
    intro r hr c hc hd
    have a1 : |G.x (c, r) - v.1| ≤ ρ := abs_le_of_sq_le_sq (by nlinarith [sq_nonneg (G.y (c, r) - v.2)]) hρ
    have a2 : |G.y (c, r) - v.2| ≤ ρ := abs_le_of_sq_le_sq (by nlinarith [sq_nonneg (G.x (c, r) - v.1)]) hρ
    refine ⟨hr, hc, ?_, ?_⟩
    · have := abs_sub_le (G.x (c, r)) v.1 m.1
      have := abs_nonneg m.1
      linarith
    · have := abs_sub_le (G.y (c, r)) v.2 m.2
      have := abs_nonneg m.2
      linarith
  obtain ⟨r0, hr0, c0, hc0, hd0⟩ := h3
  have hp0 := h.2 _ (key r0 hr0 c0 hc0 hd0)
  refine ⟨h.1.1, h.1.2.1, fun r hr c hc => ?_⟩
  by_cases hd : (G.x (c, r) - v.1) ^ 2 + (G.y (c, r) - v.2) ^ 2 ≤ ρ ^ 2
  · exact h.2 _ (key r hr c hc hd)
  · simp only at hp0
    linarith

theorem forall₂_map_pix {R Q : ℝ × ℝ → ℕ × ℕ → Prop} {l : List (ℝ × ℝ)} {pix : List (ℕ × ℕ)} (h : List.Forall₂ R l pix)
    (hRQ : ∀ v ∈ l, ∀ q, R v q → Q v q) : List.Forall₂ Q l pix := by
  induction h with
  | nil => exact .nil
  | cons hab _ ih =>
    exact .cons (hRQ _ List.mem_cons_self _ hab) (ih fun v hv => hRQ v (List.mem_cons_of_mem _ hv))

/-- **C85** With correct answers for nearest grid points and rectilinear grids: for each eddy of the returned table, to each
vertex of its contour belongs a pixel, a nearest one among the grid points around the mean of the contour; the reported extremum
is the value of the data at the grid point with the reported coordinates, this point is enclosed by the pixels, the sign is
that of the extremum, and no enclosed valid value exceeds it. If the contour is not too large these pixels are nearest ones
among all grid points. -/
theorem C85_extremum_enclosed {Pt : Type} {E : Env Cols ℝ Pt} (hnn : IsNN E.dist E.nn) {c : Criteria ℝ} {L : Libs}
    (hL : L.Nearest) {field : Int → Fields} {levels : List ℝ} {t0 : Int} {tf : Option Int} {T : Nat} {ntimes : Int}
    {regs : Regs Cols} (h : ∀ t ∈ trackTimes t0 tf T, (field t).Ok) (hrect : ∀ t ∈ trackTimes t0 tf T, (field t).Rectilinear)
    (hr : StoreEmpty regs) {s : LoopState Cols}
    (hs : (trackFields E c L field levels t0 tf T ntimes true regs).2 = .ok s) :
    MadeOfT (fun t rows => ∃ d pts pix, rows = tableRows d ∧ HasContour d pts ∧
      List.Forall₂ (NearestNear (field t).grid (centroid pts)) pts pix ∧ ExtremumIn (field t).grid d pix ∧
      ∀ ρ, SmallContour (field t).grid pts ρ → List.Forall₂ (NearestPoint (field t).grid) pts pix) s.table.rows := by
  refine (trackFields_made hnn h hr hs).mono ?_
  rintro t rows ⟨l, hl, hl0, vs, hvs, e, he, hre, ht⟩
  obtain ⟨_, h3, curve, i, hst⟩ := examine_stored.1 he
  obtain ⟨pix, h4, h5⟩ := dataInContour_extremum hst.data hst.maxima_ne hst.sign hst.maxima
  have hne : masked (field t).data.rows (field t).data.cols ((⟨(field t).data.rows, (field t).data.cols, (field t).X.get,
      (field t).Y.get⟩ : Grid ℝ).mask (meanPt e.contour)) ≠ [] := by
    intro h0
    have := hst.data
    unfold dataInContour at this
    simp only [h0, if_true] at this
    cases this
  have hpix : List.Forall₂ (NearestNear (field t).grid (centroid e.contour)) e.contour pix :=
    forall₂_map_pix h4 fun v _ q hq => pixel_nearest hL (hrect t ht) hne hq
  refine ⟨e.data, e.contour, pix, hre, rfl, hpix, h5, ?_⟩
  intro ρ hρ
  refine forall₂_map_pix hpix fun v hv q hq => ?_
  obtain ⟨a1, a2, a3⟩ := hρ.2 v hv
  exact nearest_of_near hq hρ.1 a1 a2 a3

/-! ### C86 -/

theorem const_of_arcLength {p : ℝ × ℝ} {l : List (ℝ × ℝ)} (h : arcLength (p :: l) = 0) : ∀ q ∈ l, q = p := by
  induction l generalizing p with
  | nil => simp
  | cons q l ih =>
    have h1 : arcLength (p :: q :: l) = eucl p q + arcLength (q :: l) := by
      unfold arcLength
      rw [arcLoop, arcLoop_eq, zero_add]
    rw [h1] at h
    have h2 := eucl_nonneg p q
    have h3 := arcLength_nonneg (q :: l)
    have h4 : eucl p q = 0 := by linarith
    have h5 : q = p := by
      unfold eucl at h4
      rw [Real.sqrt_eq_zero (by positivity)] at h4
      have a1 : p.1 - q.1 = 0 := by nlinarith [sq_nonneg (p.1 - q.1), sq_nonneg (p.2 - q.2)]
      have a2 : p.2 - q.2 = 0 := by nlinarith [sq_nonneg (p.1 - q.1), sq_nonneg (p.2 - q.2)]
      exact Prod.ext (by linarith) (by linarith)
    subst h5
    intro r hr
    rcases List.mem_cons.1 hr with rfl | hr
    · rfl
    · exact ih (by linarith) r hr

/-- a contour that is not skipped has positive length -/
theorem arcLength_pos_of_not_skips {pts : List (ℝ × ℝ)} (hne : pts ≠ []) (h : Cntr.skipsContour (pts.map some) = false) :
    0 < arcLength pts := by
  by_contra hn
  have h0 : arcLength pts = 0 := le_antisymm (not_lt.1 hn) (arcLength_nonneg _)
  cases pts with
  | nil => exact hne rfl
  | cons p l =>
    have hall := const_of_arcLength h0
    obtain ⟨n, rfl⟩ : ∃ n, l = List.replicate n p := ⟨_, List.eq_replicate_of_mem hall⟩
    have hn : ((n : ℝ) + 1) ≠ 0 := by positivity
    have key : ∀ x : ℝ, ((n : ℝ) * x + x) / (n + 1) = x := by intro x; field_simp
    have key' : ∀ x : ℝ, (x + (n : ℝ) * x) / (n + 1) = x := by intro x; field_simp; ring
    simp [Cntr.skipsContour, Cntr.meanOf, Cntr.closeNan, key, key'] at h
    have h1 : (0 : ℝ) ≤ 1 / 100000000 + 1 / 100000 * |p.1| := by positivity
    have h2 : (0 : ℝ) ≤ 1 / 100000000 + 1 / 100000 * |p.2| := by positivity
    norm_num at h h1 h2
    linarith [h (by linarith)]

theorem similarity_unit {limit : Nat} {A B : List (ℝ × ℝ)} {s : ℝ} (h : similarity limit A B = .ok (some s)) :
    0 ≤ s ∧ s ≤ 1 := by
  by_cases hA : 0 < arcLength A
  · by_cases hB : 0 < arcLength B
    · obtain ⟨s', d, h1, _, h2, h3, _⟩ := C28_similarity_range limit hA hB h
      injection h1 with h1
      subst h1
      exact ⟨h2, h3⟩
    · have h0 : arcLength B = 0 := le_antisymm (not_lt.1 hB) (arcLength_nonneg _)
      unfold similarity at h
      rw [h0] at h
      simp only [mul_zero, Real.sqrt_zero, zero_div, if_true, bind, Except.bind, pure, Except.pure] at h
      split at h
      · cases h
      · split at h
        · cases h
        · injection h with h
          injection h with h
          subst h
          exact round4_range le_rfl zero_le_one
  · have h0 : arcLength A = 0 := le_antisymm (not_lt.1 hA) (arcLength_nonneg _)
    unfold similarity at h
    rw [h0] at h
    simp only [zero_mul, Real.sqrt_zero, zero_div, if_true, bind, Except.bind, pure, Except.pure] at h
    split at h
    · cases h
    · split at h
      · cases h
      · injection h with h
        injection h with h
        subst h
        exact round4_range le_rfl zero_le_one

theorem similarity_nan {limit : Nat} {A B : List (ℝ × ℝ)} (hA : 0 < arcLength A) (h : similarity limit A B = .ok none) :
    ∀ p ∈ B, ∀ q ∈ B, p = q := by
  have hB : ¬ 0 < arcLength B := by
    intro hB
    obtain ⟨s, _, h1, _⟩ := C28_similarity_range limit hA hB h
    cases h1
  have h0 : arcLength B = 0 := le_antisymm (not_lt.1 hB) (arcLength_nonneg _)
  cases B with
  | nil => simp
  | cons b B =>
    have hall := const_of_arcLength h0
    have hall' : ∀ q ∈ b :: B, q = b := by
      intro q hq
      rcases List.mem_cons.1 hq with rfl | hq
      · rfl
      · exact hall q hq
    intro p hp q hq
    rw [hall' p hp, hall' q hq]

theorem liftFr_ok {β : Type} {x : Except Frechet.FrErr β} {v : β} (h : liftFr x = .ok v) : x = .ok v := by
  cases x with
  | ok w => simpa [liftFr] using h
  | error e => cases e <;> cases h

/-- The columns of an eddy with contour `pts` are consistent and meet the criteria. `none` is NaN. -/
structure Accepted (c : Criteria ℝ) (d : EddyData (Option ℝ)) (pts : List (ℝ × ℝ)) : Prop where
  /-- `area_eddy` is `area_latlon_polygon` of the contour, `radius_eddy` the radius of the circle of this area -/
  size : ∃ A r : ℝ, d.area = some A ∧ A = areaPolygon pts ∧ d.radius = some r ∧ 0 ≤ r ∧ Real.pi * r ^ 2 = A ∧
    r ≤ c.maxArea * approxRD (centroid pts).2
  /-- `contour_x`, `contour_y` are the mean of the vertices -/
  centre : d.centerX = some (centroid pts).1 ∧ d.centerY = some (centroid pts).2
  /-- the ellipse has ordered axes, an eccentricity (unless it is a point) below the threshold, and its curve has an area close to
  that of the contour; the score is below the threshold, NaN only if the curve is a point -/
  ellipse : ∃ (a b : ℝ) (curve : List (ℝ × ℝ)), fitEllipse pts = .ok (curve, (a, b, d.ellipseTheta)) ∧
    d.ellipseA = some a ∧ d.ellipseB = some b ∧ 0 ≤ b ∧ b ≤ a ∧
    (a = 0 → d.eccentricity = none) ∧
    (0 < a → ∃ e, d.eccentricity = some e ∧ 0 ≤ e ∧ e ≤ 1 ∧ a ^ 2 * e ^ 2 = a ^ 2 - b ^ 2 ∧ e ≤ c.eccen) ∧
    |areaPolygon pts - areaPolygon curve| ≤ 1 / 10 ^ 8 + c.ellipseFit / 10 * areaPolygon curve ∧
    (∀ s, d.ellipseError = some s → 0 ≤ s ∧ s ≤ 1 ∧ s ≤ c.ellipseFit) ∧
    (d.ellipseError = none → ∀ p ∈ curve, ∀ q ∈ curve, p = q)
  /-- no Gaussian if it is skipped, otherwise its score reaches the threshold (or is NaN) -/
  gauss : (c.skipGauss = true → d.gauss = .inl none ∧ d.gaussError = some 0) ∧
    (c.skipGauss = false → (∃ x y a b θ : ℝ, d.gauss = .inr (some x, some y, some a, some b, some θ)) ∧
      ∀ s, d.gaussError = some s → 0 ≤ s ∧ s ≤ 1 ∧ c.gaussFit ≤ s)

theorem stored_accepted {c : Criteria ℝ} {L : Libs} {S : Fields} {l : ℝ} {e : EddyObj} (hne : e.contour ≠ [])
    (he : examine c L S l (e.contour.map some) = .ok (.stored e)) : Accepted c e.data e.contour := by
  obtain ⟨hsk, _, curve, i, h⟩ := examine_stored.1 he
  have hpos := arcLength_pos_of_not_skips hne hsk
  have hA := C33_nonneg e.contour
  have hpi := Real.pi_pos
  refine ⟨⟨e.area, e.radius, rfl, h.area, rfl, ?_, ?_, h.size⟩, ⟨?_, ?_⟩, ?_, ?_, ?_⟩
  · rw [h.radius]; exact Real.sqrt_nonneg _
  · rw [h.radius, h.area, Real.sq_sqrt (by positivity)]
    field_simp
  · show some e.center.1 = _
    rw [h.center]; rfl
  · show some e.center.2 = _
    rw [h.center]; rfl
  · obtain ⟨x1, x2, x3⟩ := C29_axes _ _ _ _ _ h.fit
    refine ⟨e.ellipse.1, e.ellipse.2.1, curve, h.fit, rfl, rfl, x1, x2, ?_, ?_, ?_, ?_, ?_⟩
    · intro h0
      show e.eccen = none
      rw [h.eccen, h0]
      simp [eccentricity]
    · intro hpa
      obtain ⟨ec, y1, y2, y3⟩ := x3 hpa
      refine ⟨ec, h.eccen.trans y1, y2, y3, ?_, ?_⟩
      · unfold eccentricity at y1
        rw [if_neg hpa.ne'] at y1
        split at y1
        · cases y1
        · rename_i hnn
          injection y1 with y1
          rw [← y1, Real.sq_sqrt (not_lt.1 hnn), sq_abs, sq_abs]
          field_simp
      · by_contra hn
        exact h.eccen_le ⟨ec, h.eccen.trans y1, not_le.1 hn⟩
    · have := h.areas
      unfold isclose at this
      rw [decide_eq_true_eq, abs_of_nonneg (C33_nonneg curve)] at this
      calc _ ≤ _ := this
        _ = _ := by ring
    · intro s hs
      have hs' : e.ellipseError = some s := hs
      have h6 := h.sim
      have h7 := h.sim_le
      rw [hs'] at h6 h7
      obtain ⟨u1, u2⟩ := similarity_unit (liftFr_ok h6)
      refine ⟨u1, u2, ?_⟩
      by_contra hn
      exact h7 ⟨s, rfl, not_le.1 hn⟩
    · intro hs
      have hs' : e.ellipseError = none := hs
      have h6 := h.sim
      rw [hs'] at h6
      exact similarity_nan hpos (liftFr_ok h6)
  · intro hg
    rcases h.gauss with ⟨_, g1, g2⟩ | ⟨g0, _⟩
    · simp only [EddyObj.data, g1, g2, and_self]
    · rw [hg] at g0; cases g0
  · intro hg
    rcases h.gauss with ⟨g0, _⟩ | ⟨_, surf, gs, gpts, g1, g2, g3, g4, g5, g6, g7⟩
    · rw [hg] at g0; cases g0
    · refine ⟨⟨surf.2.1, surf.2.2.1, surf.2.2.2.1, surf.2.2.2.2.1, surf.2.2.2.2.2, by simp only [EddyObj.data, g2]⟩, ?_⟩
      intro s hs
      have hs' : e.gaussError = some s := hs
      rw [hs'] at g6 g7
      obtain ⟨u1, u2⟩ := similarity_unit (liftFr_ok g6)
      refine ⟨u1, u2, ?_⟩
      by_contra hn
      exact g7 ⟨s, rfl, not_le.1 hn⟩

/-- **C86** Every eddy of the returned table has a contour of at least two vertices, its columns are consistent with each other
and with the contour, and it meets the criteria. -/
theorem C86_columns_and_criteria {Pt : Type} {E : Env Cols ℝ Pt} (hnn : IsNN E.dist E.nn) {c : Criteria ℝ} {L : Libs}
    {field : Int → Fields} {levels : List ℝ} {t0 : Int} {tf : Option Int} {T : Nat} {ntimes : Int} {regs : Regs Cols}
    (h : ∀ t ∈ trackTimes t0 tf T, (field t).Ok) (hr : StoreEmpty regs) {s : LoopState Cols}
    (hs : (trackFields E c L field levels t0 tf T ntimes true regs).2 = .ok s) :
    MadeOfT (fun _ rows => ∃ d pts, rows = tableRows d ∧ HasContour d pts ∧ 2 ≤ pts.length ∧ Accepted c d pts)
      s.table.rows := by
  refine (trackFields_made hnn h hr hs).mono ?_
  rintro t rows ⟨l, hl, hl0, vs, hvs, e, he, hre, ht⟩
  have hne := contourList_ne L (h t ht) l vs hvs
  have h2 := storedAs_two hne he
  obtain ⟨_, rfl, _⟩ := examine_stored.1 he
  exact ⟨e.data, e.contour, hre, rfl, h2, stored_accepted (by simpa using hne) he⟩

/-! ### C87 -/

/-- the contours do not depend on the content of fresh memory -/
theorem contoursOf_mem (L L' : Libs) (X Y : Cntr.NdArr ℝ) (Z : Cntr.NdArr (Option ℝ)) (level : ℝ) :
    contoursOf L X Y Z level = contoursOf L' X Y Z level := by
  by_cases h : SameShape X Y Z none
  · obtain ⟨cs, _, h2⟩ := Cntr.extract_result h level
    unfold contoursOf
    rw [h2 (4 * (Z.cols * Z.rows) + 2) _ le_rfl, h2 (4 * (Z.cols * Z.rows) + 2) _ le_rfl]
  · replace h : ¬ ((X.rows, X.cols) = (Z.rows, Z.cols) ∧ (Y.rows, Y.cols) = (Z.rows, Z.cols)) :=
      fun hh => h ⟨hh.1, hh.2, by simp⟩
    unfold contoursOf
    rw [(Cntr.C75_value_error_iff X Y Z level (fuel := 4 * (Z.cols * Z.rows) + 2) (L.mem Z level) le_rfl).2 h,
      (Cntr.C75_value_error_iff X Y Z level (fuel := 4 * (Z.cols * Z.rows) + 2) (L'.mem Z level) le_rfl).2 h]

/-- the same answers of the libraries, other content of fresh memory -/
def Libs.Same (L L' : Libs) : Prop := L'.limit = L.limit ∧ L'.ballTree = L.ballTree ∧ L'.leastSquares = L.leastSquares

theorem examine_mem {L L' : Libs} (h : L.Same L') (c : Criteria ℝ) (S : Fields) (level : ℝ) :
    examine c L S level = examine c L' S level := by
  obtain ⟨h1, h2, h3⟩ := h
  funext vs
  unfold examine examinePoints dataInContour fitSurface
  simp only [h1, h2, h3, contoursOf_mem L L']

theorem trackFields_mem {Pt : Type} {L L' : Libs} (h : L.Same L') (E : Env Cols ℝ Pt) (c : Criteria ℝ)
    (field : Int → Fields) (levels : List ℝ) (t0 : Int) (tf : Option Int) (T : Nat) (ntimes : Int) (online : Bool)
    (regs : Regs Cols) :
    trackFields E c L field levels t0 tf T ntimes online regs = trackFields E c L' field levels t0 tf T ntimes online regs := by
  unfold trackFields snapshotOf detectLevel
  simp only [examine_mem h, contoursOf_mem L L']

/-- **C87** The result of `time_tracking` is a function of the data, the parameters and the answers of the libraries: it depends
neither on what fresh memory contains nor on earlier calls that returned, and a call that returns leaves the module ready for the
next one. -/
theorem C87_repeatable {Pt : Type} {L L' : Libs} (hL : L.Same L') (E : Env Cols ℝ Pt) (c : Criteria ℝ)
    {field : Int → Fields} (levels : List ℝ) {t0 : Int} {tf : Option Int} {T : Nat} (ntimes : Int) (online : Bool)
    (h : ∀ t ∈ trackTimes t0 tf T, (field t).Ok) {regs regs' : Regs Cols} (hr : StoreEmpty regs) (hr' : StoreEmpty regs') :
    (trackFields E c L field levels t0 tf T ntimes online regs).2 =
      (trackFields E c L' field levels t0 tf T ntimes online regs').2 ∧
    ((∃ s, (trackFields E c L field levels t0 tf T ntimes online regs).2 = .ok s) →
      StoreEmpty (trackFields E c L field levels t0 tf T ntimes online regs).1) := by
  rw [← trackFields_mem hL, (trackFields_pure E c L h hr).1, (trackFields_pure E c L h hr').1]
  refine ⟨rfl, ?_⟩
  rw [← (trackFields_pure E c L h hr).1]
  exact (trackFields_pure E c L h hr).2

/-! ### C88 -/

/-- The contour meets all criteria, and `e` is what is computed of it. -/
def Qualifies (c : Criteria ℝ) (L : Libs) (S : Fields) (l : ℝ) (pts : List (ℝ × ℝ)) (e : EddyObj) : Prop :=
  Cntr.skipsContour (pts.map some) = false ∧ ∃ curve i, StoredAs c L S l pts e curve i

/-- the eddy stored for a contour -/
noncomputable def storedEddy (c : Criteria ℝ) (L : Libs) (S : Fields) (l : ℝ) (vs : List (Vertex ℝ)) : Option EddyObj :=
  match examine c L S l vs with
  | .ok (.stored e) => some e
  | _ => none

theorem storedEddy_iff {c : Criteria ℝ} {L : Libs} {S : Fields} {l : ℝ} {vs : List (Vertex ℝ)} {e : EddyObj} :
    storedEddy c L S l vs = some e ↔ ∃ pts, vs = pts.map some ∧ Qualifies c L S l pts e := by
  have h1 : storedEddy c L S l vs = some e ↔ examine c L S l vs = .ok (.stored e) := by
    unfold storedEddy
    split
    · rename_i e' he
      rw [he]
      simp
    · rename_i hn
      constructor
      · intro h; cases h
      · intro h; exact absurd h (hn e)
  rw [h1, examine_stored]
  constructor
  · rintro ⟨a1, rfl, a3⟩
    exact ⟨e.contour, rfl, a1, a3⟩
  · rintro ⟨pts, rfl, a1, curve, i, a2⟩
    have := a2.contour
    subst this
    exact ⟨a1, rfl, curve, i, a2⟩

theorem storedOf_measures {c : Criteria ℝ} {L : Libs} {S : Fields} {l : ℝ} {cs : List (List (Vertex ℝ))} (hne : ∀ vs ∈ cs, vs ≠ []) :
    storedOf c (cs.map (measures c L S l)) = (cs.filterMap (storedEddy c L S l)).map EddyObj.rows := by
  unfold storedOf
  induction cs with
  | nil => rfl
  | cons vs cs ih =>
    have ih := ih (fun v hv => hne v (List.mem_cons_of_mem _ hv))
    rw [List.map_cons, List.filterMap_cons]
    cases hx : storedEddy c L S l vs with
    | none =>
      have hv : verdict c (measures c L S l vs) ≠ .ok .stored := by
        rw [verdict_measures]
        intro hv
        cases he : examine c L S l vs with
        | error e => rw [he] at hv; cases hv
        | ok o =>
          rw [he] at hv
          cases o with
          | skipped => injection hv with hv; cases hv
          | discarded r => injection hv with hv; cases hv
          | stored e =>
            unfold storedEddy at hx
            rw [he] at hx
            cases hx
      rw [List.filter_cons_of_neg (by simpa using hv)]
      exact ih
    | some e =>
      have he : examine c L S l vs = .ok (.stored e) := by
        unfold storedEddy at hx
        split at hx
        · rename_i e' he
          injection hx with hx
          rw [he, hx]
        · cases hx
      have hv : verdict c (measures c L S l vs) = .ok .stored := by
        rw [verdict_measures, he]; rfl
      rw [List.filter_cons_of_pos (by simpa using hv), List.map_cons, List.map_cons, ih]
      rw [← measures_points (hne vs List.mem_cons_self) he]
      rfl

theorem storedOf_contours {c : Criteria ℝ} {L : Libs} {S : Fields} (h : S.Ok) (l : ℝ) :
    storedOf c (levelMeasures c L S l) = ((contourList L S l).filterMap (storedEddy c L S l)).map EddyObj.rows :=
  storedOf_measures (contourList_ne L h l)

theorem tagged_snapRows {α : Type} (f : Nat → Nat) (t : Int) (es : List (Eddy α)) :
    tagged f t (snapRows es) = (es.mapIdx fun i e => atTime t (eddyRows (f i) e)).flatten := by
  unfold tagged snapRows
  rw [List.map_flatten]
  congr 1
  apply List.ext_getElem?
  intro i
  simp only [List.getElem?_map, List.getElem?_mapIdx, Option.map_map]
  cases es[i]? with
  | none => rfl
  | some e =>
    simp only [Option.map_some, Function.comp_apply, eddyRows, atTime, Option.some.injEq]
    apply List.ext_getElem?
    intro j
    simp only [List.getElem?_map, List.getElem?_mapIdx, Option.map_map]
    cases e[j]? <;> rfl

/-- a run that succeeds has computed the snapshots of all times -/
theorem run_snaps_ok {α K Pt : Type} [Field K] [LinearOrder K] [IsStrictOrderedRing K] {E : Env α K Pt} {snap : Int → Except PyErr (Tbl α)}
    {tf : Option Int} {ntimes : Int} {online : Bool} (ts : List Int) {s : LoopState α}
    (h : run E snap tf ntimes online ts = .ok s) : ∀ t ∈ ts, ∃ C, snap t = .ok C := by
  induction ts using List.reverseRecOn generalizing s with
  | nil => simp
  | append_singleton ts t ih =>
    rw [run_snoc] at h
    cases hr : run E snap tf ntimes online ts with
    | error e => rw [hr] at h; cases h
    | ok s0 =>
      rw [hr] at h
      intro u hu
      rcases List.mem_append.1 hu with hu | hu
      · exact ih hr u hu
      · obtain rfl := List.mem_singleton.1 hu
        cases hC : snap u with
        | ok C => exact ⟨C, rfl⟩
        | error e =>
          simp only [Except.bind, loopStep, hC] at h
          cases h

/-- the rows of a snapshot detected with one level other than zero -/
theorem snapshot_one_level {Pt : Type} {E : Env Cols ℝ Pt} {c : Criteria ℝ} {L : Libs} {S : Fields} (h : S.Ok) {levels : List ℝ}
    {l : ℝ} (hl : levels.filter (· ≠ 0) = [l]) {C : Tbl Cols} (hC : pureSnapshot E c L S levels = .ok C) :
    C.rows = snapRows (((contourList L S l).filterMap (storedEddy c L S l)).map EddyObj.rows) := by
  unfold pureSnapshot detectSnapshot at hC
  rw [hl] at hC
  simp only [List.foldlM_cons, List.foldlM_nil, levelStep, bind, Except.bind, pure, Except.pure] at hC
  cases hp : pureLevel c (levelMeasures c L S l) with
  | error e => rw [hp] at hC; cases hC
  | ok tb =>
    have hrw := pureLevel_rows hp
    rw [storedOf_contours h] at hrw
    rw [hp] at hC
    simp only at hC
    by_cases h0 : tb.rows = []
    · simp only [h0, if_true, Except.ok.injEq] at hC
      subst hC
      rw [← hrw, h0]
    · simp only [h0, if_false, if_true, Except.ok.injEq] at hC
      subst hC
      exact hrw

/-- **C88** With a single level other than zero nothing is lost: the returned table consists, for each time, of the eddies of
exactly those contour lines of the data that meet the criteria, each once. -/
theorem C88_one_level_complete {Pt : Type} {E : Env Cols ℝ Pt} (hnn : IsNN E.dist E.nn) {c : Criteria ℝ} {L : Libs}
    {field : Int → Fields} {levels : List ℝ} {l : ℝ} (hl : levels.filter (· ≠ 0) = [l]) {t0 : Int} {tf : Option Int}
    {T : Nat} {ntimes : Int} {regs : Regs Cols} (h : ∀ t ∈ trackTimes t0 tf T, (field t).Ok) (hr : StoreEmpty regs)
    {s : LoopState Cols} (hs : (trackFields E c L field levels t0 tf T ntimes true regs).2 = .ok s) :
    ∃ (lines : Int → List (List Side)) (pick : Int → List Side → Option EddyObj) (g : Int → Nat → Nat),
      (∀ t ∈ trackTimes t0 tf T, Contours (field t).grid l (lines t) ∧ ∀ cl ∈ lines t, ∀ e, pick t cl = some e ↔
        ∃ pts, cl.map ((field t).grid.point l) = pts.map some ∧ Qualifies c L (field t) l pts e) ∧
      s.table.rows.Perm ((trackTimes t0 tf T).flatMap fun t =>
        (((lines t).filterMap (pick t)).mapIdx fun i e => atTime t (eddyRows (g t i) (tableRows e.data))).flatten) := by
  rw [(trackFields_pure E c L h hr).1] at hs
  have hsnap : ∀ t C, pureSnapshot E c L (field t) levels = .ok C → SnapRows C.rows := by
    intro t C hC
    have := detectSnapshot_inv (fun l tb htb => pureLevel_level htb) _ hC
    exact ⟨this.first, this.contig⟩
  obtain ⟨g, hg⟩ := C03_no_detection_lost_or_invented hnn hsnap hs
  have hproc : s.processed = trackTimes t0 tf T :=
    (run_inv hnn _ (pairwise_trackTimes t0 tf T) (fun t _ => rowsAt_snapRows hsnap t) hs).proc
  have hrows : ∀ t ∈ trackTimes t0 tf T, rowsAt (fun t => pureSnapshot E c L (field t) levels) t =
      snapRows (((contourList L (field t) l).filterMap (storedEddy c L (field t) l)).map EddyObj.rows) := by
    intro t ht
    obtain ⟨C, hC⟩ := run_snaps_ok _ hs t ht
    unfold rowsAt
    simp only [hC]
    exact snapshot_one_level (h t ht) hl hC
  classical
  refine ⟨fun t => if ht : t ∈ trackTimes t0 tf T then (contourList_lines L (h t ht) l).2.choose else [],
    fun t cl => storedEddy c L (field t) l (cl.map ((field t).grid.point l)), g, ?_, ?_⟩
  · intro t ht
    simp only [ht, dif_pos]
    refine ⟨(contourList_lines L (h t ht) l).2.choose_spec.1, fun cl _ e => storedEddy_iff⟩
  · rw [hproc] at hg
    refine hg.trans (List.Perm.of_eq ?_)
    apply List.flatMap_congr
    intro t ht
    rw [hrows t ht, tagged_snapRows]
    simp only [ht, dif_pos]
    conv_lhs => rw [(contourList_lines L (h t ht) l).2.choose_spec.2]
    rw [List.filterMap_map]
    congr 1
    apply List.ext_getElem?
    intro i
    simp only [List.getElem?_mapIdx, List.getElem?_map, Option.map_map]
    rfl

end Trackeddy
